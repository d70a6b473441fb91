import Verif.Model.Basic
/-
Strided layouts, index arithmetic, broadcasting of shapes and the odometer loop.
-/
namespace INNC

/-- `StridedLayout` (include/INNC/layouts.hpp:30-50). `sparse` is never constructed by the library, so
every layout is strided. -/
structure Layout where
  sizes : List Nat
  strides : List Int
  offset : Nat
  deriving DecidableEq, Repr

/-- `Layout::numel` (src/INNC/layouts.cpp:21-26): product of the sizes in `size_t` arithmetic. -/
def numel (sizes : List Nat) : Nat := sizes.foldl (fun (num s : Nat) => wrapU (num * s)) 1

/-- Strides computed by `StridedLayout(const SizeVec&)` (src/INNC/layouts.cpp:30-39): the last stride is 1
and `strides[idx-1] = strides[idx] * sizes[idx]`, a `long long * size_t` product, i.e. computed modulo 2^64
and converted back to `long long`. The loop from the back is written as recursion on the list. -/
def contigStrides : List Nat → List Int
  | [] => []
  | [_] => [1]
  | _ :: s :: rest =>
    match contigStrides (s :: rest) with
    | [] => []
    | st :: sts => wrapS (st * s) :: st :: sts

/-- `StridedLayout(const SizeVec&)` (src/INNC/layouts.cpp:30-39). -/
def Layout.contig (sizes : List Nat) : Layout := ⟨sizes, contigStrides sizes, 0⟩

/-- Loop of `StridedLayout::cnt_from_index` (src/INNC/layouts.cpp:54-57): `pos += strides[i] * index[i]`
in `size_t` arithmetic. -/
def cntGo : List Int → List Nat → Nat → Res Nat
  | _, [], pos => .ok pos
  | [], _ :: _, _ => .ub .vecOob
  | st :: sts, i :: is, pos => cntGo sts is (wrapU (pos + st * i))

/-- `StridedLayout::cnt_from_index` (src/INNC/layouts.cpp:52-59) and `TensorImpl::cnt_from_index`
(src/INNC/tensorImpl.cpp:38-44). -/
def cntFromIndex (v : Layout) (index : List Nat) : Res Nat := do
  runExpect (decide (index.length = v.sizes.length))
  cntGo v.strides index v.offset

/-- Loop of `TensorImpl::cnt_from_aug_index` (src/INNC/tensorImpl.cpp:25-34), from the last axis to the
first, on reversed lists. Reading `index[idx_dim - i]` past the front of the index is undefined. -/
def augRev : List Nat → List Nat → Res (List Nat)
  | [], _ => .ok []
  | s :: ss, is =>
    if s ≠ 1 then
      match is with
      | [] => .ub .vecOob
      | i :: is' => do
        runExpect (decide (i < s))
        let rest ← augRev ss is'
        return i :: rest
    else do
      let rest ← augRev ss is.tail
      return 0 :: rest

/-- `TensorImpl::cnt_from_aug_index` (src/INNC/tensorImpl.cpp:20-36): position of a broadcast index. -/
def cntFromAugIndex (v : Layout) (index : List Nat) : Res Nat := do
  let phy ← augRev v.sizes.reverse index.reverse
  cntFromIndex v phy.reverse

/-- `StridedLayout::is_contiguous` (src/INNC/layouts.cpp:92-100), on reversed lists. `step *= sizes[d]` is a
`long long * size_t` product: modulo 2^64. -/
def isContigRev : Int → List Nat → List Int → Bool
  | step, s :: ss, st :: sts => if step ≠ st then false else isContigRev (wrapS (step * s)) ss sts
  | _, _, _ => true

/-- `StridedLayout::is_contiguous` (src/INNC/layouts.cpp:92-100). The strides read are those of the first
`dim()` axes. -/
def isContiguous (v : Layout) : Bool :=
  isContigRev 1 v.sizes.reverse (v.strides.take v.sizes.length).reverse

/-- Loop of `broadcast_range` (src/INNC/utils/utils.cpp:27-37), from the last axis to the first, on reversed
lists; the first list is the longer one. The condition handed to `run_expect` on line 31 is written as in the
source (it is a tautology). -/
def bcastRev : List Nat → List Nat → Res (List Nat)
  | [], _ => .ok []
  | su :: us, [] => do
    let rest ← bcastRev us []
    return su :: rest
  | su :: us, sv :: vs => do
    runExpect (decide (su ≠ 1) || decide (sv ≠ 1) || decide (su = sv))
    let rest ← bcastRev us vs
    return max su sv :: rest

/-- `broadcast_range` (src/INNC/utils/utils.cpp:20-43). -/
def broadcastRange (u v : List Nat) : Res (List Nat) := do
  let (u, v) := if u.length < v.length then (v, u) else (u, v)
  let r ← bcastRev u.reverse v.reverse
  return r.reverse

/-- Inner loop of the odometer (include/INNC/utils/utils.hpp:120-126; the same text in
include/INNC/ops.hpp:112-118, 147-155 and src/INNC/tensorImpl.cpp:756-762): starting at axis `ptr`, while the
counter of the axis has reached its size, reset it and advance the previous axis; `none` when the counter of
axis 0 has reached its size (the loop is finished). -/
def carry (range : List Nat) : Nat → List Nat → Option (List Nat)
  | 0, sv => if sv.getD 0 0 = range.getD 0 0 then none else some sv
  | p + 1, sv =>
    if sv.getD (p + 1) 0 = range.getD (p + 1) 0 then
      carry range p ((sv.set (p + 1) 0).set p (sv.getD p 0 + 1))
    else some sv

/-- Outer loop of the odometer (include/INNC/utils/utils.hpp:119-129) started at counter `sv`. The fuel bounds
the number of iterations; running out of it is reported as `stuck` (proved unreachable). -/
def odo {m : Type → Type} [Monad m] (stuck : m Unit) (range : List Nat) (op : List Nat → m Unit) :
    Nat → List Nat → m Unit
  | 0, _ => stuck
  | n + 1, sv =>
    match carry range (range.length - 1) sv with
    | none => pure ()
    | some sv' => do
      op sv'
      odo stuck range op n (sv'.set (range.length - 1) (sv'.getD (range.length - 1) 0 + 1))

/-- Number of loop iterations of the odometer. -/
def odoFuel (range : List Nat) : Nat := range.foldr (· * ·) 1 + 1

/-- `for_each_sizevec` (include/INNC/utils/utils.hpp:109-134). -/
def forEachWith {m : Type → Type} [Monad m] (stuck : m Unit) (range : List Nat) (op : List Nat → m Unit) :
    m Unit :=
  if range.any (fun r => r == 0) then pure ()
  else if range.length ≠ 0 then
    odo stuck range op (odoFuel range) (List.replicate range.length 0)
  else op []

end INNC
