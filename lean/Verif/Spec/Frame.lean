import Verif.Model.Call
import Verif.Spec.Heap
/-
Specification: classes of calls, and sequences of in-place changes.
-/
namespace INNC.Spec
open Tensor
variable {F : Type}

/-- The functions that compute a new tensor from their operands. `type` is listed separately, because it returns its
operand when the type is already right. -/
def Computes : Call F → Bool
  | .scalar .. | .empty .. | .init .. | .ones .. | .zeros .. | .onesLike .. | .zerosLike .. | .fullInt .. | .fullReal ..
  | .eye .. | .fromBlob .. | .randn .. | .randnLike .. | .clone .. | .contiguous .. | .add .. | .sub .. | .mul ..
  | .div .. | .neg .. | .cmp .. | .sum .. | .mean .. | .abs .. | .max .. | .min .. | .cat .. => true
  | _ => false

/-- The functions that only read. -/
def Queries : Call F → Bool
  | .grad .. | .all .. | .toString .. | .stride .. | .query .. | .pos .. => true
  | _ => false

/-- The functions that return a view, and the two flags. -/
def ViewsOrFlags : Call F → Bool
  | .slice .. | .transpose .. | .reshape .. | .reshapeAs .. | .detach .. | .setRequiresGrad .. | .setRetainGrad .. => true
  | _ => false

/-- Any number of `u += r` (returning, or throwing after part of the work) on tensors `u` of the storage `d`. -/
inductive Edits [FOps F] (d : Nat) : Heap F → Heap F → Prop
  | refl (h : Heap F) : Edits d h h
  | returned {h h1 h2 : Heap F} {u r : Nat} {i : Impl} : Edits d h h1 → h1.ts[u]? = some i → i.data = d →
      addAssign u r h1 = .ok () h2 → Edits d h h2
  | threw {h h1 h2 : Heap F} {u r : Nat} {i : Impl} {e : Exc} : Edits d h h1 → h1.ts[u]? = some i → i.data = d →
      addAssign u r h1 = .throw e h2 → Edits d h h2

end INNC.Spec
