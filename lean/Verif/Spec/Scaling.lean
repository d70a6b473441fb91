import Verif.Spec.Api
import Verif.Spec.Scalar
/-
Operations of a tensor with a scalar, and negation (C63, C65).
-/
namespace INNC
open Spec
variable {F : Type} [FOps F]

/-- The three ways to write an operation with the scalar `z` (of type `dz`, holding `v`) or the negation of a tensor of type `ds`. -/
inductive Scaling where
  | left (op : AOp) | right (op : AOp) | neg

/-- The call of the library (`operator+ - * /` of /repo/src/INNC/tensorImpl.cpp with a scalar operand, and the unary `operator-`). -/
def Scaling.run (z : Nat) : Scaling → Nat → M F Nat
  | .left op, x => arithT op z x
  | .right op, x => arithT op x z
  | .neg, x => Tensor.negT x

/-- The type of the result. -/
def Scaling.type (dz ds : DType) : Scaling → DType
  | .left _ => later dz ds
  | .right _ => later ds dz
  | .neg => later .i32 ds

/-- An element of the result; `none` is undefined behaviour. -/
def Scaling.elem (dz ds : DType) (v : Val F) : Scaling → Val F → Option (Val F)
  | .left op, x => elemBinary op dz ds v x
  | .right op, x => elemBinary op ds dz x v
  | .neg, x => elemArith .sub .i32 ds (.i 0) x

end INNC
