import Verif.Spec.Scalar
import Verif.Model.Tensor
/-
Calls that copy a tensor (C63, C65).
-/
namespace INNC
open Spec
variable {F : Type} [FOps F]

/-- `t.clone()`, or `t.type(to)`. -/
inductive Copying where
  | clone | convert (to : DType)

/-- The call of the library (`clone` and `type`, /repo/src/INNC/tensorImpl.cpp). -/
def Copying.run : Copying → Nat → M F Nat
  | .clone, t => Tensor.clone t
  | .convert to, t => Tensor.toType t to

/-- The type of the copy of a tensor of type `dt`. -/
def Copying.type (dt : DType) : Copying → DType
  | .clone => dt
  | .convert to => to

/-- An element of the copy; `none` is undefined behaviour. -/
def Copying.elem (dt : DType) : Copying → Val F → Option (Val F)
  | .clone, x => some x
  | .convert to, x => Spec.convert dt to x

/-- The call makes a copy of a tensor of type `dt`: a conversion is to another type, and not to an integer type if the tensor requires
grad (`asks`). -/
def Copying.Proper (dt : DType) (asks : Bool) : Copying → Prop
  | .clone => True
  | .convert to => to ≠ dt ∧ ¬ (asks = true ∧ isInteger to = true)

end INNC
