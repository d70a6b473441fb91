import Verif.Model.Call
import Verif.Spec.Heap
/-
Specification: which calls track gradients.
-/
namespace INNC.Spec
open Tensor
variable {F : Type}

/-- What `requires_grad()` answers (`false` for a handle that does not exist). -/
def requiresGrad (h : Heap F) (t : Nat) : Bool := match h.ts[t]? with | some i => i.requiresGrad | none => false

/-- What `type()` answers. -/
def dtypeOf (h : Heap F) (t : Nat) : Option DType := (h.ts[t]?).map (·.dtype)

/-- The tensors whose elements a differentiable function uses; `none` for functions that are not differentiable. The shape
argument of `reshape_as` is not an operand. -/
def tracked : Call F → Option (List Nat)
  | .slice t _ | .transpose t _ _ | .reshape t _ | .reshapeAs t _ | .clone t | .contiguous t | .toType t _
  | .neg t | .pos t | .sum t | .mean t | .abs t | .max t | .min t => some [t]
  | .add l r | .sub l r | .mul l r | .div l r => some [l, r]
  | .cat ts _ => some ts
  | _ => none

/-- The functions that return a tensor outside the graph of differentiable operations. -/
def Untracked : Call F → Bool
  | .scalar .. | .empty .. | .init .. | .ones .. | .zeros .. | .onesLike .. | .zerosLike .. | .fullInt .. | .fullReal ..
  | .eye .. | .fromBlob .. | .randn .. | .randnLike .. | .detach .. | .cmp .. => true
  | _ => false

/-- The tensor of which a call changes the `requires_grad` flag. -/
def flagged : Call F → Option Nat
  | .setRequiresGrad t _ => some t
  | _ => none

end INNC.Spec
