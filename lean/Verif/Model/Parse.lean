import Verif.Model.Layout
/-
Slice strings: `ssplit`, `trim_`, `std::stoll` and the per-axis logic of `TensorImpl::operator[]`.
A `std::string` is a list of characters.
-/
namespace INNC

abbrev Str := List Char

/-- Scanning loop of `ssplit` (src/INNC/utils/utils.cpp:9-16). `cur` holds, reversed, the characters between
`prev` and `next`. -/
def ssplitGo (delim : Char) : Str → Str → List Str
  | [], cur => [cur.reverse]
  | c :: cs, cur =>
    if c = delim then cur.reverse :: ssplitGo delim cs [] else ssplitGo delim cs (c :: cur)

/-- `ssplit` (src/INNC/utils/utils.cpp:5-18): no part at all for the empty string. -/
def ssplit (s : Str) (delim : Char) : List Str := if s = [] then [] else ssplitGo delim s []

/-- Members of `ws` (include/INNC/utils/utils.hpp:29): blank, tab, newline, return, form feed, vertical tab. -/
def isWs (c : Char) : Bool :=
  c == ' ' || c == '\t' || c == '\n' || c == '\r' || c == Char.ofNat 12 || c == Char.ofNat 11

/-- `ltrim_` (include/INNC/utils/utils.hpp:31-33). -/
def ltrim (s : Str) : Str := s.dropWhile isWs

/-- `rtrim_` (include/INNC/utils/utils.hpp:35-37). -/
def rtrim (s : Str) : Str := (s.reverse.dropWhile isWs).reverse

/-- `trim_` (include/INNC/utils/utils.hpp:39). -/
def trim (s : Str) : Str := ltrim (rtrim s)

def isDigitC (c : Char) : Bool := decide ('0' ≤ c ∧ c ≤ '9')

/-- Value of a string of decimal digits. -/
def digitsVal (ds : Str) : Nat := ds.foldl (fun acc c => acc * 10 + (c.toNat - '0'.toNat)) 0

/-- `std::stoll(s)` in base 10 (called on src/INNC/tensorImpl.cpp:476, 493, 498, 521): skip white space,
optional sign, longest run of digits, ignore the rest; no digit: `std::invalid_argument`; value not a
`long long`: `std::out_of_range`. -/
def stoll (s : Str) : Res Int :=
  let s := s.dropWhile isWs
  let (neg, s) := match s with
    | '-' :: t => (true, t)
    | '+' :: t => (false, t)
    | t => (false, t)
  let ds := s.takeWhile isDigitC
  if ds = [] then .throw .invalidArgument
  else
    let v : Int := if neg then -(digitsVal ds : Int) else digitsVal ds
    if fitsS v then .ok v else .throw .outOfRange

/-- `long long` subtraction. -/
def sSub (a b : Int) : Res Int := if fitsS (a - b) then .ok (a - b) else .ub .overflow

/-- `std::abs(long long)`. -/
def sAbs (a : Int) : Res Int := if fitsS (-a) then .ok a.natAbs else .ub .overflow

/-- Step of a range slice (src/INNC/tensorImpl.cpp:492-496). -/
def sliceStep (p2 : Str) : Res Int :=
  if p2.length ≠ 0 then do
    let step ← stoll p2
    runExpect (decide (step ≠ 0))
    return step
  else return 1

/-- First position of a range slice (src/INNC/tensorImpl.cpp:497-519); `none` is the `continue` that makes the
axis empty. `beg += sizes[dim]` is computed in `size_t` and converted back. -/
def sliceBeg (p0 : Str) (step : Int) (n : Nat) : Res (Option Int) :=
  if p0.length ≠ 0 then do
    let beg ← stoll p0
    let beg := if beg < 0 then wrapS (beg + n) else beg
    if beg < 0 ∧ ¬ step > 0 then return none
    let beg := if beg < 0 then 0 else beg
    if beg ≥ wrapS n then
      if step > 0 then return none
      else return some (wrapS (n - 1 : Int))
    else return some beg
  else return some (if step > 0 then 0 else wrapS (n - 1 : Int))

/-- End position of a range slice (src/INNC/tensorImpl.cpp:520-542). -/
def sliceEnd (p1 : Str) (step : Int) (n : Nat) : Res (Option Int) :=
  if p1.length ≠ 0 then do
    let e ← stoll p1
    let e := if e < 0 then wrapS (e + n) else e
    if step > 0 then
      if e ≤ 0 then return none
      else if e > wrapS n then return some (wrapS n) else return some e
    else
      let e := if e < 0 then -1 else e
      if e ≥ wrapS n - 1 then return none else return some e
  else return some (if step > 0 then wrapS n else -1)

/-- One axis of size `n` and stride `st` of a range slice (src/INNC/tensorImpl.cpp:484-550):
new size, new stride and increment of the offset. -/
def sliceRange (p0 p1 p2 : Str) (n : Nat) (st : Int) : Res (Nat × Int × Int) :=
  if n = 0 then return (0, 0, 0)
  else do
    let step ← sliceStep p2
    match ← sliceBeg p0 step n with
    | none => return (0, 0, 0)
    | some beg =>
      match ← sliceEnd p1 step n with
      | none => return (0, 0, 0)
      | some e =>
        if (step > 0 ∧ beg ≥ e) ∨ (step < 0 ∧ beg ≤ e) then return (0, 0, 0)
        else
          let len ← sSub e beg
          let alen ← sAbs len
          let astep ← sAbs step
          let st' ← sMul step st
          let d ← sMul beg st
          return (wrapU (Int.tdiv (alen - 1) astep + 1), st', d)

/-- One axis indexed by a single number (src/INNC/tensorImpl.cpp:476-482): increment of the offset. -/
def sliceIndex (p : Str) (n : Nat) (st : Int) : Res Int := do
  let idx ← stoll p
  let idx := if idx < 0 then wrapS (idx + n) else idx
  runExpect (decide (idx ≥ 0 ∧ idx < wrapS n))
  sMul st idx

/-- Loop over the axes in `TensorImpl::operator[]` (src/INNC/tensorImpl.cpp:467-552). `each_dim` holds the
remaining comma-separated parts; axes without a part are sliced with empty start, stop and step. -/
def sliceGo : List Str → List Nat → List Int → Nat → Res (List Nat × List Int × Nat)
  | _, [], _, offset => .ok ([], [], offset)
  | _, _ :: _, [], _ => .ub .vecOob
  | eachDim, n :: ns, st :: sts, offset =>
    let parts : List Str :=
      match eachDim with
      | [] => [[], [], []]
      | d :: _ => (ssplit d ':').map trim
    match parts with
    | [p] => do
      let d ← sliceIndex p n st
      sliceGo eachDim.tail ns sts (wrapU (offset + d))
    | ps => do
      let (n', st', d) ← sliceRange (ps.getD 0 []) (ps.getD 1 []) (ps.getD 2 []) n st
      let (ns', sts', offset') ← sliceGo eachDim.tail ns sts (wrapU (offset + d))
      return (n' :: ns', st' :: sts', offset')

/-- Layout computed by `TensorImpl::operator[]` (src/INNC/tensorImpl.cpp:457-554). -/
def sliceLayout (v : Layout) (slice : Str) : Res Layout := do
  let eachDim := ssplit slice ','
  runExpect (decide (eachDim.length ≤ v.sizes.length))
  let (ns, sts, off) ← sliceGo eachDim v.sizes v.strides v.offset
  return ⟨ns, sts, off⟩

/-- Layout computed by `TensorImpl::transpose` (src/INNC/tensorImpl.cpp:570-586). -/
def transposeLayout (v : Layout) (dim0 dim1 : Nat) : Res Layout := do
  let dim := v.sizes.length
  runExpect (decide (dim0 < dim ∧ dim1 < dim))
  runExpect (decide (dim0 ≠ dim1))
  let a ← vecAt v.sizes dim0
  let b ← vecAt v.sizes dim1
  let c ← vecAt v.strides dim0
  let d ← vecAt v.strides dim1
  return ⟨(v.sizes.set dim0 b).set dim1 a, (v.strides.set dim0 d).set dim1 c, v.offset⟩

/-- First loop of `regularize_size` (src/INNC/tensorImpl.cpp:606-613): position of the `-1`, an exception if
there are two. -/
def findMinusOne : List Int → Nat → Option Nat → Res (Option Nat)
  | [], _, found => .ok found
  | z :: zs, i, found =>
    if z = -1 then do
      runExpect (!found.isSome)
      findMinusOne zs (i + 1) (some i)
    else findMinusOne zs (i + 1) found

/-- Second loop of `regularize_size` (src/INNC/tensorImpl.cpp:615-618): product of the other entries in `size_t`
arithmetic. -/
def prodExcept (mi : Nat) : List Int → Nat → Nat → Nat
  | [], _, s => s
  | z :: zs, i, s => prodExcept mi zs (i + 1) (if i ≠ mi then wrapU (s * z) else s)

/-- `regularize_size` (src/INNC/tensorImpl.cpp:596-627). `numel % s` with `s = 0` is undefined. -/
def regularizeSize (sizes : List Int) (numel : Nat) : Res (List Nat) :=
  if sizes.length = 0 then do
    runExpect (decide (numel = 1))
    return []
  else do
    match ← findMinusOne sizes 0 none with
    | some mi =>
      let s := prodExcept mi sizes 0 1
      if s = 0 then .ub .divZero
      else
        runExpect (decide (numel % s = 0))
        return (sizes.set mi (numel / s : Nat)).map wrapU
    | none => return sizes.map wrapU

/-- Loop of `TensorImpl::reshape` that decides whether the view can be kept (src/INNC/tensorImpl.cpp:674-676):
`strides[i - 1] == strides[i] * sizes_[i]` for all `i`. The preceding sort (lines 661-672) only copies `sizes`
and `strides` onto themselves. The product is a `long long` product. -/
def isometry : List Nat → List Int → Res Bool
  | _ :: s :: ss, st0 :: st1 :: sts => do
    let p ← sMul st1 (wrapS s)
    let rest ← isometry (s :: ss) (st1 :: sts)
    return (decide (st0 = p) && rest)
  | _, _ => return true

/-- Strides of a no-copy reshape (src/INNC/tensorImpl.cpp:682-686): the last stride is `last`,
`strides[idx - 1] = strides[idx] * sizes[idx]` computed modulo 2^64. -/
def scaledStrides (last : Int) : List Nat → List Int
  | [] => []
  | [_] => [last]
  | _ :: s :: rest =>
    match scaledStrides last (s :: rest) with
    | [] => []
    | st :: sts => wrapS (st * s) :: st :: sts

end INNC
