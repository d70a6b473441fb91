import Verif.Model.Heap
/-
Kernels of include/INNC/ops.hpp. Template arguments are explicit `DType` arguments; the typed pointers
`reinterpret_cast<T*>(x->data_->get_blob())` are the `ty` arguments of `load` and `store`.
The checks for layouts other than `strided` are dropped: every layout is strided.
-/
namespace INNC
section
variable {F : Type} [FOps F]

/-- Common body of the element-wise binary kernels:
`*(D dst + dst[sv]) = f (*(L l + l[sv])) (*(R r + r[sv]))` for every `sv` of `range`; `S` is the type of the value of
`f`. -/
def zipLoop (D S L R : DType) (range : List Nat) (f : Val F → Val F → Res (Val F)) (dst l r : Impl) : M F Unit :=
  forEach range fun sv => do
    let x ← load L l (← M.lift (cntFromAugIndex l.view sv))
    let y ← load R r (← M.lift (cntFromAugIndex r.view sv))
    let z ← M.lift (f x y)
    let z ← M.lift (cConv S D z)
    store D dst (← M.lift (cntFromAugIndex dst.view sv)) z

/-- `tensor_add<L, R>` (include/INNC/ops.hpp:11-22): the range is the broadcast of the operand shapes, the result is
written as `L`. -/
def tensorAdd (L R : DType) (dst l r : Impl) : M F Unit := do
  let range ← M.lift (broadcastRange l.view.sizes r.view.sizes)
  zipLoop L (DType.arith L R) L R range (cArith .add L R) dst l r

/-- `tensor_sub<L, R>` (include/INNC/ops.hpp:24-36): written as `innc_common_t<L, R>`. -/
def tensorSub (L R : DType) (dst l r : Impl) : M F Unit := do
  let range ← M.lift (broadcastRange l.view.sizes r.view.sizes)
  zipLoop (DType.common L R) (DType.arith L R) L R range (cArith .sub L R) dst l r

/-- `tensor_mul<L, R>` (include/INNC/ops.hpp:38-48): the range is the destination's shape. -/
def tensorMul (L R : DType) (dst l r : Impl) : M F Unit :=
  zipLoop L (DType.arith L R) L R dst.view.sizes (cArith .mul L R) dst l r

/-- `tensor_div<L, R>` (include/INNC/ops.hpp:50-61). -/
def tensorDiv (L R : DType) (dst l r : Impl) : M F Unit :=
  zipLoop (DType.common L R) (DType.arith L R) L R dst.view.sizes (cArith .div L R) dst l r

/-- The element function of the comparison kernels: a `bool`, converted to `char` on assignment. -/
def cmpVal (op : COp) (L R : DType) (x y : Val F) : Res (Val F) := do
  let b ← cCmp op L R x y
  return .i (if b then 1 else 0)

/-- `tensor_lt`, `tensor_gt`, `tensor_le`, `tensor_ge`, `tensor_eq`, `tensor_ne`
(include/INNC/ops.hpp:289-359): the six kernels differ only in the operator; the result is written as `char`. -/
def tensorCmp (op : COp) (L R : DType) (dst l r : Impl) : M F Unit :=
  zipLoop .i8 .i8 L R dst.view.sizes (cmpVal op L R) dst l r

/-- `tensor_fill<TensorType, NumberType>` (include/INNC/ops.hpp:63-78). -/
def tensorFill (T N : DType) (tdata ndata : Impl) : M F Unit := do
  let num ← load N ndata 0
  let num ← M.lift (cConv N T num)
  if tdata.view.sizes.length ≠ 0 then
    forEach tdata.view.sizes fun sv => do
      store T tdata (← M.lift (cntFromIndex tdata.view sv)) num
  else store T tdata tdata.view.offset num

/-- Loop of `tensor_eye` (include/INNC/ops.hpp:84-86). -/
def eyeGo (T : DType) (tdata : Impl) : List Nat → M F Unit
  | [] => pure ()
  | i :: is => do
    let one ← M.lift (cConv .i32 T (.i 1 : Val F))
    store T tdata (← M.lift (cntFromIndex tdata.view [i, i])) one
    eyeGo T tdata is

/-- `tensor_eye<TensorType, NumberType>` (include/INNC/ops.hpp:80-87); `size(0)` and `size(1)` throw if there is no
such axis (src/INNC/tensorImpl.cpp:48-56). -/
def tensorEye (T : DType) (tdata : Impl) : M F Unit := do
  match tdata.view.sizes with
  | a :: b :: _ => eyeGo T tdata (List.range (min a b))
  | _ => M.raise .runtime

/-- Common body of `tensor_to_type` and `tensor_clone`. -/
def copyLoop (To From : DType) (to frm : Impl) : M F Unit :=
  forEach to.view.sizes fun sv => do
    let x ← load From frm (← M.lift (cntFromIndex frm.view sv))
    let x ← M.lift (cConv From To x)
    store To to (← M.lift (cntFromIndex to.view sv)) x

/-- `tensor_to_type<ToType, FromType>` (include/INNC/ops.hpp:89-96). -/
def tensorToType (To From : DType) (to frm : Impl) : M F Unit := copyLoop To From to frm

/-- `tensor_clone<ToType, FromType>` (include/INNC/ops.hpp:185-200). -/
def tensorClone (To From : DType) (to frm : Impl) : M F Unit := copyLoop To From to frm

/-- `*to_ptr += *(from_ptr + pos)` (include/INNC/ops.hpp:119, 156). -/
def accInto (To From : DType) (to frm : Impl) (sv : List Nat) : M F Unit := do
  let x ← load From frm (← M.lift (cntFromIndex frm.view sv))
  let acc ← load To to 0
  let z ← M.lift (cArith .add To From acc x)
  let z ← M.lift (cConv (DType.arith To From) To z)
  store To to 0 z

/-- Accumulation part of `tensor_sum` and `tensor_mean` (include/INNC/ops.hpp:103-129, 138-166), with the odometer
written out in both; the 0-dimensional case assigns instead of adding. -/
def sumBody (To From : DType) (to frm : Impl) : M F Unit :=
  if frm.view.sizes.length ≠ 0 then
    odo (M.undef .fuel) frm.view.sizes (accInto To From to frm) (odoFuel frm.view.sizes)
      (List.replicate frm.view.sizes.length 0)
  else do
    let x ← load From frm frm.view.offset
    let x ← M.lift (cConv From To x)
    store To to 0 x

/-- `tensor_sum<ToType, FromType>` (include/INNC/ops.hpp:98-130). -/
def tensorSum (To From : DType) (to frm : Impl) : M F Unit :=
  if numel frm.view.sizes = 0 then pure () else sumBody To From to frm

/-- `tensor_mean<ToType, FromType>` (include/INNC/ops.hpp:132-168): `ToType n = numel()`, finally
`*to_ptr = *to_ptr / n`. -/
def tensorMean (To From : DType) (to frm : Impl) : M F Unit :=
  if numel frm.view.sizes = 0 then pure ()
  else do
    let n ← M.lift (convTo To (.i (numel frm.view.sizes) : Val F))
    sumBody To From to frm
    let acc ← load To to 0
    let z ← M.lift (cArith .div To To acc n)
    let z ← M.lift (cConv (DType.arith To To) To z)
    store To to 0 z

/-- `tensor_mul_acc_f<D, L, R>` (include/INNC/ops.hpp:170-183): `dst += l * r` over the broadcast of the three shapes. -/
def tensorMulAccF (D L R : DType) (dst l r : Impl) : M F Unit := do
  let rg ← M.lift (broadcastRange dst.view.sizes l.view.sizes)
  let rg ← M.lift (broadcastRange rg r.view.sizes)
  forEach rg fun sv => do
    let x ← load L l (← M.lift (cntFromAugIndex l.view sv))
    let y ← load R r (← M.lift (cntFromAugIndex r.view sv))
    let p ← M.lift (cArith .mul L R x y)
    let pos ← M.lift (cntFromAugIndex dst.view sv)
    let d ← load D dst pos
    let z ← M.lift (cArith .add D (DType.arith L R) d p)
    let z ← M.lift (cConv (DType.arith D (DType.arith L R)) D z)
    store D dst pos z

/-- `tmp >= 0 ? tmp : -tmp`, a value of the promoted type, converted to `ToType` (include/INNC/ops.hpp:218). -/
def absVal (To From : DType) (tmp : Val F) : Res (Val F) := do
  let nonneg ← cCmp .ge From .i32 tmp (.i 0)
  let z ← if nonneg then cConv From (DType.arith From From) tmp else cNeg From tmp
  cConv (DType.arith From From) To z

/-- The value assigned on lines 226 and 229 of include/INNC/ops.hpp. -/
def absValGrad (To From : DType) (tmp : Val F) : Res (Val F) := do
  let nonneg ← cCmp .ge From .i32 tmp (.i 0)
  if nonneg then cConv From To tmp
  else do
    let z ← cNeg From tmp
    cConv (DType.arith From From) To z

/-- The sign assigned on lines 225 and 228 of include/INNC/ops.hpp. -/
def signVal (From : DType) (tmp : Val F) : Res (Val F) := do
  let nonneg ← cCmp .ge From .i32 tmp (.i 0)
  cConv .i32 From (.i (if nonneg then 1 else -1))

/-- `tensor_abs<ToType, FromType>` (include/INNC/ops.hpp:202-233). With a gradient tensor the sign is stored there. -/
def tensorAbs (To From : DType) (to frm : Impl) (grad : Option Impl) : M F Unit :=
  match grad with
  | none =>
    forEach to.view.sizes fun sv => do
      let tmp ← load From frm (← M.lift (cntFromIndex frm.view sv))
      let z ← M.lift (absVal To From tmp)
      store To to (← M.lift (cntFromIndex to.view sv)) z
  | some g =>
    forEach to.view.sizes fun sv => do
      let tmp ← load From frm (← M.lift (cntFromIndex frm.view sv))
      let s ← M.lift (signVal From tmp)
      store From g (← M.lift (cntFromIndex g.view sv)) s
      let z ← M.lift (absValGrad To From tmp)
      store To to (← M.lift (cntFromIndex to.view sv)) z

/-- `tensor_max<T>` (`keep = ge`, include/INNC/ops.hpp:235-260) and `tensor_min<T>` (`keep = le`, lines 262-287).
The running extreme starts at the first element *of the storage*; `max_sv` / `min_sv` is the extra state and starts
empty. -/
def tensorExtreme (keep : COp) (T : DType) (to frm : Impl) (grad : Option Impl) : M F Unit := do
  let first ← load T frm 0
  store T to 0 first
  let body : List Nat → StateT (List Nat) (M F) Unit := fun sv => do
    let t ← (do load T frm (← M.lift (cntFromIndex frm.view sv)) : M F (Val F))
    let cur ← (load T to 0 : M F (Val F))
    let k ← (M.lift (cCmp keep T T cur t) : M F Bool)
    if k then pure ()
    else do
      (store T to 0 t : M F Unit)
      set sv
  let (_, bestSv) ← (forEachWith (StateT.lift (M.undef .fuel)) frm.view.sizes body).run []
  match grad with
  | none => pure ()
  | some g => do
    let one ← M.lift (cConv .i32 T (.i 1 : Val F))
    store T g (← M.lift (cntFromIndex g.view bestSv)) one

/-- `tensor_div_back_numerator<D, L, R>` (include/INNC/ops.hpp:361-372). -/
def tensorDivBackNum (D L R : DType) (dst outGrad den : Impl) : M F Unit :=
  forEach outGrad.view.sizes fun sv => do
    let x ← load L outGrad (← M.lift (cntFromAugIndex outGrad.view sv))
    let y ← load R den (← M.lift (cntFromAugIndex den.view sv))
    let q ← M.lift (cArith .div L R x y)
    let pos ← M.lift (cntFromAugIndex dst.view sv)
    let d ← load D dst pos
    let z ← M.lift (cArith .add D (DType.arith L R) d q)
    let z ← M.lift (cConv (DType.arith D (DType.arith L R)) D z)
    store D dst pos z

/-- `tensor_div_back_denominator<Den, Quot>` (include/INNC/ops.hpp:374-388). The destination is indexed with
`cnt_from_index`, not with `cnt_from_aug_index`. -/
def tensorDivBackDen (Den Quot : DType) (dst outGrad quot den : Impl) : M F Unit :=
  forEach quot.view.sizes fun sv => do
    let g ← load Quot outGrad (← M.lift (cntFromAugIndex outGrad.view sv))
    let q ← load Quot quot (← M.lift (cntFromAugIndex quot.view sv))
    let gq ← M.lift (cArith .mul Quot Quot g q)
    let d ← load Den den (← M.lift (cntFromAugIndex den.view sv))
    let w ← M.lift (cArith .div (DType.arith Quot Quot) Den gq d)
    let pos ← M.lift (cntFromIndex dst.view sv)
    let old ← load Den dst pos
    let z ← M.lift (cArith .sub Den (DType.arith (DType.arith Quot Quot) Den) old w)
    let z ← M.lift (cConv (DType.arith Den (DType.arith (DType.arith Quot Quot) Den)) Den z)
    store Den dst pos z

/-- `tensor_cat<ToType, FromType>` (include/INNC/ops.hpp:391-407): `to_ptr + offset + pos` is pointer arithmetic. -/
def tensorCat (To From : DType) (to frm : Impl) (offset : Nat) : M F Unit :=
  forEach frm.view.sizes fun sv => do
    let x ← load From frm (← M.lift (cntFromIndex frm.view sv))
    let x ← M.lift (cConv From To x)
    let pos ← M.lift (cntFromIndex to.view sv)
    store To to (wrapU (offset + pos)) x

end
end INNC
