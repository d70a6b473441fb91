import Verif.Model.Ops
import Verif.Model.Parse
/-
`TensorImpl` members (src/INNC/tensorImpl.cpp) and the `Tensor` wrappers (src/INNC/tensor.cpp), except `backward`.
-/
namespace INNC.Tensor
section
variable {F : Type} [FOps F]

/-! ### Constructors -/

/-- `TensorImpl::create(std::intN_t)`, `create(float)`, `create(double)` (src/INNC/tensorImpl.cpp:107-141):
a 0-dimensional tensor holding `v`. -/
def createScalar (dtype : DType) (v : Val F) : M F Nat := do
  let t ← create dtype (Layout.contig []) true
  let i ← getT t
  store dtype i 0 v
  return t

/-- `Tensor::Tensor(const SizeVec&, types)` (src/INNC/tensor.cpp:28-29): uninitialised elements. -/
def emptyTensor (sizes : List Nat) (dtype : DType) : M F Nat := create dtype (Layout.contig sizes) true

/-- `TensorImpl::ones` (src/INNC/tensorImpl.cpp:204-211). -/
def ones (sizes : List Nat) (dtype : DType) : M F Nat := do
  let one ← createScalar .i8 (.i 1)
  let ret ← create dtype (Layout.contig sizes) true
  tensorFill dtype .i8 (← getT ret) (← getT one)
  return ret

/-- `TensorImpl::zeros` (src/INNC/tensorImpl.cpp:213-218). -/
def zeros (sizes : List Nat) (dtype : DType) : M F Nat := do
  let ret ← create dtype (Layout.contig sizes) true
  let i ← getT ret
  zeroS i.data
  return ret

/-- `TensorImpl::zeros_like` (src/INNC/tensorImpl.cpp:220-222). -/
def zerosLike (t : Nat) : M F Nat := do
  let i ← getT t
  zeros i.view.sizes i.dtype

/-- `TensorImpl::ones_like` (src/INNC/tensorImpl.cpp:224-226). -/
def onesLike (t : Nat) : M F Nat := do
  let i ← getT t
  ones i.view.sizes i.dtype

/-- `TensorImpl::full` (src/INNC/tensorImpl.cpp:228-242): `numType` is `i64` or `f64` by overload. -/
def full (sizes : List Nat) (numType : DType) (num : Val F) (dtype : DType) : M F Nat := do
  let tmp ← createScalar numType num
  let ret ← create dtype (Layout.contig sizes) true
  tensorFill dtype numType (← getT ret) (← getT tmp)
  return ret

/-- `TensorImpl::eye` (src/INNC/tensorImpl.cpp:244-253). -/
def eye (n m : Nat) (dtype : DType) : M F Nat := do
  let ret ← create dtype (Layout.contig [n, m]) true
  let i ← getT ret
  zeroS i.data
  tensorEye dtype i
  return ret

/-- `std::memcpy` of `from_blob`, element by element. -/
def blobGo (dtype : DType) (i : Impl) : Nat → List (Val F) → M F Unit
  | _, [] => pure ()
  | k, v :: vs => do
    store dtype i k v
    blobGo dtype i (k + 1) vs

/-- `TensorImpl::from_blob` (src/INNC/tensorImpl.cpp:255-261). `data` lists the elements the pointer points to; copying
`numel() * size_of(dtype)` bytes (in `size_t` arithmetic) from fewer elements is undefined. -/
def fromBlob (data : List (Val F)) (sizes : List Nat) (dtype : DType) : M F Nat := do
  let ret ← create dtype (Layout.contig sizes) true
  let i ← getT ret
  let n := wrapU (numel sizes * dtype.size) / dtype.size
  if data.length < n then M.undef .oob
  else blobGo dtype i 0 (data.take n)
  return ret

/-- Loop of `TensorImpl::randn` (src/INNC/tensorImpl.cpp:787-789, 795-797): element `i` of a blob of `size` bytes is
written with `w` bytes at byte position `w * i`. If `w` is not the element size the bytes written are not recorded:
the loop then leaves the allocation later on. -/
def randGo (i : Impl) (w : Nat) (size : Nat) : Nat → List F → M F Unit
  | _, [] => pure ()
  | k, x :: xs =>
    if w * (k + 1) > size then M.undef .oob
    else if w ≠ i.dtype.size then randGo i w size (k + 1) xs
    else do
      store i.dtype i k (.f x)
      randGo i w size (k + 1) xs

/-- `TensorImpl::randn` (src/INNC/tensorImpl.cpp:778-800). `rnd` is the stream of random numbers. Both branches create
an `f32` tensor; the second one writes `double`s into it. -/
def randn (rnd : Nat → F) (sizes : List Nat) (dtype : DType) : M F Nat := do
  expect dtype.isFloat
  let ret ← create .f32 (Layout.contig sizes) true
  let i ← getT ret
  let s ← getS i.data
  let w := if dtype = .f32 then 4 else 8
  randGo i w s.size 0 ((List.range (numel sizes)).map rnd)
  return ret

/-! ### Views -/

/-- `share_grad_storage` (src/INNC/tensorImpl.cpp:443-453). -/
def shareGradStorage (to frm : Nat) : M F Unit := do
  let f ← getT frm
  let g ← match f.grad with
    | some g => pure g
    | none => do
      let g ← create f.dtype f.view false
      let f ← getT frm
      setT frm { f with grad := some g }
      pure g
  let gi ← getT g
  let t ← getT to
  let g' ← createOn t.dtype t.view gi.data
  let t ← getT to
  setT to { t with grad := some g' }

/-- `x->requires_grad = true; x->grad_fn.reset(new ...Back(x, inputs, ...))`. -/
def setGradFn (t : Nat) (kind : BackKind) (inputs : List Nat) : M F Unit := do
  let i ← getT t
  setT t { i with requiresGrad := true, gradFn := some ⟨kind, inputs, 0, 0, 0⟩ }

/-- Common end of the view functions (src/INNC/tensorImpl.cpp:553-561, 584-593, 649-657, 696-701): a tensor on the
given storage, recorded as a `NoBack` view of `base` if `base` requires grad. -/
def makeView (dtype : DType) (view : Layout) (data : Nat) (base : Nat) : M F Nat := do
  let ret ← createOn dtype view data
  let b ← getT base
  if !b.requiresGrad then return ret
  setGradFn ret .noBack [base]
  shareGradStorage ret base
  return ret

/-- `TensorImpl::operator[]` (src/INNC/tensorImpl.cpp:455-565). -/
def slice (t : Nat) (s : Str) : M F Nat := do
  let i ← getT t
  let v ← M.lift (sliceLayout i.view s)
  makeView i.dtype v i.data t

/-- `TensorImpl::transpose` (src/INNC/tensorImpl.cpp:567-594). -/
def transpose (t : Nat) (dim0 dim1 : Nat) : M F Nat := do
  let i ← getT t
  let v ← M.lift (transposeLayout i.view dim0 dim1)
  makeView i.dtype v i.data t

/-- `TensorImpl::clone` (src/INNC/tensorImpl.cpp:731-739). -/
def clone (t : Nat) : M F Nat := do
  let i ← getT t
  let ret ← create i.dtype (Layout.contig i.view.sizes) true
  tensorClone i.dtype i.dtype (← getT ret) i
  if !i.requiresGrad then return ret
  setGradFn ret .clone [t]
  return ret

/-- `TensorImpl::reshape(input, const SizeVec&)` (src/INNC/tensorImpl.cpp:629-702). In the `numel == 1` case the
function returns early only if the input does not require grad (lines 653-654); otherwise the view just made is
dropped and the general code runs as well. The copy loop (lines 669-672) writes `sizes_[i]` for every stride, past the
end of `sizes_` if there are more strides than sizes. It visits the indices in the order found by `std::sort` (lines 664-668), which is
left out: each index is visited once, and the copies do not depend on each other. -/
def reshapeSizes (t : Nat) (sizes : List Nat) : M F Nat := do
  let n := numel sizes
  let i ← getT t
  expect (decide (n = numel i.view.sizes))
  let early ← if n = 1 then do
      let r ← makeView i.dtype ⟨sizes, List.replicate sizes.length 1, i.view.offset⟩ i.data t
      pure (if i.requiresGrad then none else some r)
    else pure none
  match early with
  | some r => return r
  | none =>
    if i.view.sizes.length < i.view.strides.length then M.undef .vecOob
    else
    let iso ← M.lift (isometry i.view.sizes i.view.strides)
    if iso then
      let strides ← if sizes.length ≠ 0 then do
          let last ← M.lift (vecAt i.view.strides (i.view.strides.length - 1))
          pure (scaledStrides last sizes)
        else pure i.view.strides
      makeView i.dtype ⟨sizes, strides, i.view.offset⟩ i.data t
    else do
      let m ← clone t
      let mi ← getT m
      makeView i.dtype (Layout.contig sizes) mi.data m

/-- `TensorImpl::reshape(input, const SignedVec&)` (src/INNC/tensorImpl.cpp:708-717), the overload behind
`Tensor::reshape` (src/INNC/tensor.cpp:148-154). -/
def reshape (t : Nat) (sizes : List Int) : M F Nat := do
  let i ← getT t
  let sz ← M.lift (regularizeSize sizes (numel i.view.sizes))
  reshapeSizes t sz

/-- `TensorImpl::reshape_as` (src/INNC/tensorImpl.cpp:719-721). -/
def reshapeAs (t u : Nat) : M F Nat := do
  let j ← getT u
  reshapeSizes t j.view.sizes

/-- `TensorImpl::contiguous` (src/INNC/tensorImpl.cpp:727-729, src/INNC/layouts.cpp:102-104): always a clone. -/
def contiguous (t : Nat) : M F Nat := clone t

/-- `TensorImpl::detach` (src/INNC/tensorImpl.cpp:741-743). -/
def detach (t : Nat) : M F Nat := do
  let i ← getT t
  createOn i.dtype i.view i.data

/-- `TensorImpl::type(types)` (src/INNC/tensorImpl.cpp:286-299). -/
def toType (t : Nat) (dtype : DType) : M F Nat := do
  let i ← getT t
  if i.requiresGrad && dtype.isInt then M.raise .runtime
  else if dtype = i.dtype then return t
  else do
    let ret ← create dtype (Layout.contig i.view.sizes) true
    tensorToType dtype i.dtype (← getT ret) i
    if !i.requiresGrad then return ret
    setGradFn ret .clone [t]
    return ret

/-! ### Arithmetic and comparison -/

/-- A binary kernel selected by `dispatch(l_t, r_t)` (include/INNC/dispatcher.hpp:57-82): the table entry
`[l_t][r_t]` is `op<l_t, r_t>`. -/
abbrev Kernel (F : Type) := DType → DType → Impl → Impl → Impl → M F Unit

/-- `apply_no_grad_binary_op(lhs, rhs, order)` (include/INNC/utils/utils.hpp:58-75). -/
def applyNoGradBinary (k : Kernel F) (l r : Nat) (order : Bool) : M F Nat := do
  let li ← getT l
  let ri ← getT r
  let lt := DType.larger li.dtype ri.dtype
  let range ← M.lift (broadcastRange li.view.sizes ri.view.sizes)
  let ret ← create lt (Layout.contig range) true
  let d ← getT ret
  if !order then
    if li.dtype = lt then k li.dtype ri.dtype d li ri
    else k ri.dtype li.dtype d ri li
  else k li.dtype ri.dtype d li ri
  return ret

/-- `apply_binary_operator` (include/INNC/utils/utils.hpp:94-106). -/
def applyBinary (k : Kernel F) (back : BackKind) (l r : Nat) (order : Bool) : M F Nat := do
  let ret ← applyNoGradBinary k l r order
  let li ← getT l
  let ri ← getT r
  if !li.requiresGrad && !ri.requiresGrad then return ret
  setGradFn ret back [l, r]
  return ret

/-- `operator+` (src/INNC/tensorImpl.cpp:151-154). -/
def addT (l r : Nat) : M F Nat := applyBinary tensorAdd .add l r false
/-- `operator-` (src/INNC/tensorImpl.cpp:156-159). -/
def subT (l r : Nat) : M F Nat := applyBinary tensorSub .sub l r true
/-- `operator*` (src/INNC/tensorImpl.cpp:161-164). -/
def mulT (l r : Nat) : M F Nat := applyBinary tensorMul .mul l r false
/-- `operator/` (src/INNC/tensorImpl.cpp:166-169). -/
def divT (l r : Nat) : M F Nat := applyBinary tensorDiv .div l r true

/-- Unary `operator+` (src/INNC/tensorImpl.cpp:143-145). -/
def posT (t : Nat) : M F Nat := pure t

/-- Unary `operator-` (src/INNC/tensorImpl.cpp:147-149): `create(char(0))` selects the `std::int32_t` overload
(integral promotion), then `0 - t`. -/
def negT (t : Nat) : M F Nat := do
  let z ← createScalar .i32 (.i 0)
  subT z t

/-- `apply_cmp_op` (include/INNC/utils/utils.hpp:77-85) and the comparison operators
(src/INNC/tensorImpl.cpp:171-193). -/
def cmp (op : COp) (l r : Nat) : M F Nat := do
  let li ← getT l
  let ri ← getT r
  let range ← M.lift (broadcastRange li.view.sizes ri.view.sizes)
  let ret ← create .i8 (Layout.contig range) true
  tensorCmp op li.dtype ri.dtype (← getT ret) li ri
  return ret

/-- `TensorImpl::operator+=` (src/INNC/tensorImpl.cpp:195-202). -/
def addAssign (t r : Nat) : M F Unit := do
  let i ← getT t
  expect (!i.requiresGrad)
  let j ← getT r
  tensorAdd i.dtype j.dtype i i j

/-! ### Reductions -/

/-- Accumulator type of `sum` and `mean` (src/INNC/tensorImpl.cpp:365-369). -/
def sumType (t : DType) : DType := if t.idx ≤ DType.i64.idx then .i64 else .f64

/-- `TensorImpl::sum` (src/INNC/tensorImpl.cpp:364-377). -/
def sumT (t : Nat) : M F Nat := do
  let i ← getT t
  let tf ← zeros [] (sumType i.dtype)
  tensorSum (sumType i.dtype) i.dtype (← getT tf) i
  if i.requiresGrad then setGradFn tf .sum [t]
  return tf

/-- `TensorImpl::mean` (src/INNC/tensorImpl.cpp:379-392). -/
def meanT (t : Nat) : M F Nat := do
  let i ← getT t
  let tf ← zeros [] (sumType i.dtype)
  tensorMean (sumType i.dtype) i.dtype (← getT tf) i
  if i.requiresGrad then setGradFn tf .mean [t]
  return tf

/-- `TensorImpl::abs` (src/INNC/tensorImpl.cpp:394-407): the result and the sign tensor reuse the input's layout on
storages of `numel` elements. -/
def absT (t : Nat) : M F Nat := do
  let i ← getT t
  let ret ← create i.dtype i.view true
  if !i.requiresGrad then
    tensorAbs i.dtype i.dtype (← getT ret) i none
  else
    let g ← create i.dtype i.view true
    tensorAbs i.dtype i.dtype (← getT ret) i (some (← getT g))
    setGradFn ret (.knownGrad g) [t]
  return ret

/-- `TensorImpl::max` (`keep = ge`, src/INNC/tensorImpl.cpp:409-421) and `TensorImpl::min`
(`keep = le`, lines 423-435). -/
def extreme (keep : COp) (t : Nat) : M F Nat := do
  let i ← getT t
  let ret ← zeros [] i.dtype
  if !i.requiresGrad then
    tensorExtreme keep i.dtype (← getT ret) i none
  else
    let g ← zerosLike t
    tensorExtreme keep i.dtype (← getT ret) i (some (← getT g))
    setGradFn ret (.knownGrad g) [t]
  return ret

def maxT (t : Nat) : M F Nat := extreme .ge t
def minT (t : Nat) : M F Nat := extreme .le t

/-- Byte at byte position `pos` of the blob, read as a `bool` (src/INNC/tensorImpl.cpp:763-764, 769-770): the
position is an element count that is not multiplied by the element size. -/
def loadBoolByte (t : Impl) (pos : Nat) : M F Bool := do
  let s ← getS t.data
  match s.blob with
  | none => M.undef .nullptr
  | some cells =>
    match cells[pos / s.dt.size]? with
    | none => M.undef .oob
    | some none => M.undef .uninit
    | some (some v) =>
      match byteOf s.dt v (pos % s.dt.size) with
      | 0 => return false
      | 1 => return true
      | _ => M.undef .badBool

/-- Loop of `TensorImpl::all` (src/INNC/tensorImpl.cpp:755-767). -/
def allGo (t : Impl) : Nat → List Nat → M F Bool
  | 0, _ => M.undef .fuel
  | n + 1, sv =>
    match carry t.view.sizes (t.view.sizes.length - 1) sv with
    | none => return true
    | some sv' => do
      let b ← loadBoolByte t (← M.lift (cntFromIndex t.view sv'))
      if !b then return false
      else allGo t n (sv'.set (t.view.sizes.length - 1) (sv'.getD (t.view.sizes.length - 1) 0 + 1))

/-- `TensorImpl::all` (src/INNC/tensorImpl.cpp:745-776). -/
def allT (t : Nat) : M F Bool := do
  let i ← getT t
  if i.view.sizes.any (fun r => r == 0) then return true
  else if i.view.sizes.length ≠ 0 then
    allGo i (odoFuel i.view.sizes) (List.replicate i.view.sizes.length 0)
  else loadBoolByte i (← M.lift (cntFromIndex i.view []))

/-! ### Concatenation -/

/-- `TensorImpl::size(int)` (src/INNC/tensorImpl.cpp:48-56) for a non-negative axis. -/
def sizeAt (i : Impl) (d : Nat) : Res Nat :=
  match i.view.sizes[d]? with
  | some s => .ok s
  | none => .throw .runtime

/-- Inner check of `cat` (src/INNC/tensorImpl.cpp:814-820) for axes `j, j+1, ...`. -/
def catCheckSizes (dim : Nat) : Nat → List Nat → List Nat → Bool
  | j, a :: as, b :: bs => (j == dim || a == b) && catCheckSizes dim (j + 1) as bs
  | _, _, _ => true

/-- Check loop of `cat` (src/INNC/tensorImpl.cpp:811-821). -/
def catCheck (dim : Nat) (first : Impl) : List Impl → M F Unit
  | [] => pure ()
  | i :: is => do
    expect (decide (first.view.sizes.length = i.view.sizes.length))
    expect (catCheckSizes dim 0 first.view.sizes i.view.sizes)
    catCheck dim first is

def getAll : List Nat → M F (List Impl)
  | [] => pure []
  | t :: ts => do
    let i ← getT t
    let is ← getAll ts
    return i :: is

/-- Copy loop of `cat` (src/INNC/tensorImpl.cpp:832-839). -/
def catGo (dim : Nat) (dtype : DType) (ret : Impl) : Nat → List Impl → M F Unit
  | _, [] => pure ()
  | sOffset, i :: is => do
    let st ← M.lift (vecAt ret.view.strides dim)
    tensorCat dtype i.dtype ret i (wrapU (sOffset * st))
    let s ← M.lift (sizeAt i dim)
    catGo dim dtype ret (wrapU (sOffset + s)) is

/-- `TensorImpl::cat` (src/INNC/tensorImpl.cpp:806-853). -/
def catT (ts : List Nat) (dim : Nat) : M F Nat := do
  match ts with
  | [] => M.undef .vecOob
  | t0 :: rest => do
    let first ← getT t0
    expect (decide (dim < first.view.sizes.length))
    let others ← getAll rest
    catCheck dim first others
    let is := first :: others
    let total := is.foldl (fun (n : Nat) (i : Impl) => wrapU (n + i.view.sizes.getD dim 0)) 0
    let sizes := first.view.sizes.set dim total
    let dtype := is.foldl (fun d i => DType.larger d i.dtype) first.dtype
    let ret ← create dtype (Layout.contig sizes) true
    catGo dim dtype (← getT ret) 0 is
    if is.any (fun i => i.requiresGrad) then
      setGradFn ret (.cat dim) (t0 :: rest)
      return ret
    else return ret

/-! ### Flags, gradients, queries -/

/-- `Tensor::requires_grad(bool)` (src/INNC/tensor.cpp:106-111). -/
def setRequiresGrad (t : Nat) (b : Bool) : M F Unit := do
  let i ← getT t
  if b then expect (decide (i.dtype = .f32) || decide (i.dtype = .f64))
  let i ← getT t
  setT t { i with requiresGrad := b }

/-- `Tensor::retain_grad(bool)` (src/INNC/tensor.cpp:114). -/
def setRetainGrad (t : Nat) (b : Bool) : M F Unit := do
  let i ← getT t
  setT t { i with retainGrad := b }

/-- `Tensor::grad` (src/INNC/tensor.cpp:116-120): `none` is the empty `Tensor`. -/
def gradOf (t : Nat) : M F (Option Nat) := do
  let i ← getT t
  return i.grad

/-- `TensorImpl::zero_grad` (src/INNC/tensorImpl.cpp:437-441). -/
def zeroGrad (t : Nat) : M F Unit := do
  let i ← getT t
  match i.grad with
  | none => pure ()
  | some g => do
    let gi ← getT g
    zeroS gi.data

/-- `TensorImpl::release` (src/INNC/tensorImpl.cpp:282). -/
def release (t : Nat) : M F Unit := do
  let i ← getT t
  releaseS i.data

/-- `TensorImpl::stride` (src/INNC/tensorImpl.cpp:58-64): the `typeid` of the static type `shared_ptr<Layout>` is
compared with that of `shared_ptr<StridedLayout>`, two distinct types, so the function always throws. -/
def stride (t : Nat) : M F (List Int) := do
  let _ ← getT t
  M.raise .runtime

/-- `TensorImpl::size`, `numel`, `type`, `is_contiguous` (src/INNC/tensorImpl.cpp:46, 280, 284, 723-725). -/
def sizeT (t : Nat) : M F (List Nat) := do
  let i ← getT t
  return i.view.sizes
def numelOf (t : Nat) : M F Nat := do
  let i ← getT t
  return numel i.view.sizes
def typeOf (t : Nat) : M F DType := do
  let i ← getT t
  return i.dtype
def isContiguousOf (t : Nat) : M F Bool := do
  let i ← getT t
  return isContiguous i.view

end
end INNC.Tensor
