import Verif.Model.Tensor
/-
`to_string` (src/INNC/layouts.cpp:61-90).
-/
namespace INNC.Tensor
section
variable {F : Type} [FOps F]

/-- `*static_cast<T*>(data_.get_blob() + offset)` with a byte offset, as in `innc_type_to_string`
(src/INNC/types.cpp:29-47). An offset that is negative, past the end, or not a multiple of the element size is not
an element. -/
def loadByteOff (ty : DType) (t : Impl) (off : Int) : M F (Val F) := do
  if off < 0 ∨ off % ty.size ≠ 0 then M.undef .oob
  else load ty t (off / ty.size).toNat

/-- `innc_type_to_string(ptr, dtype)` (src/INNC/types.cpp:29-47). -/
def elemToString (t : Impl) (off : Int) : M F Str := do
  let v ← loadByteOff t.dtype t off
  return valToString v

/-- Loop of `to_string_from_helper` (src/INNC/layouts.cpp:71-80): `k` entries of the `n` are left; `sub` is the
recursive call, `sub_offset` is computed in `size_t` and converted to `ptrdiff_t`. -/
def strLoop (sub : Int → M F Str) (esize : Nat) (st : Int) (off : Int) (n : Nat) : Nat → M F Str
  | 0 => pure []
  | k + 1 => do
    let i := n - (k + 1)
    let s ← sub (wrapS (off + wrapU (i * st * esize)))
    let rest ← strLoop sub esize st off n k
    return (if i = 0 then s else [',', ' '] ++ s) ++ rest

/-- `StridedLayout::to_string_from_helper` (src/INNC/layouts.cpp:61-82). The recursion depth walks down the lists of
sizes and strides. -/
def strHelper (t : Impl) : List Nat → List Int → Int → M F Str
  | [], _, off => elemToString t off
  | _ :: _, [], _ => M.undef .vecOob
  | n :: ns, st :: sts, off => do
    let body ← strLoop (strHelper t ns sts) t.dtype.size st off n n
    return '[' :: (body ++ [']'])

/-- `TensorImpl::to_string` (src/INNC/tensorImpl.cpp:66-68) and `StridedLayout::to_string_from`
(src/INNC/layouts.cpp:84-90). -/
def toString (t : Nat) : M F Str := do
  let i ← getT t
  if i.view.sizes.length = 0 then elemToString i (wrapU (i.view.offset * i.dtype.size))
  else strHelper i i.view.sizes i.view.strides (wrapS (wrapU (i.view.offset * i.dtype.size)))

/-- `Tensor::to_string` (src/INNC/tensor.cpp:34-38): `none` is the empty `Tensor`. -/
def tensorToString : Option Nat → M F Str
  | none => pure ['[', ']']
  | some t => toString t

end
end INNC.Tensor
