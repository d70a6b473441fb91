import Verif.Model.Handle
import Verif.Spec.Heap
import Mathlib.Data.List.Forall2
/-
Specification: two programs that share the library but no variable.
-/
namespace INNC.Spec
open Tensor
section
variable {F : Type}

/-- The statements of one of the two programs, in order. -/
def turnsOf (b : Bool) (p : List (Bool × HStmt F)) : List (HStmt F) := (p.filter fun s => s.1 == b).map (·.2)

/-- The two programs run statement by statement, in the given order, each with variables of its own. -/
def interleave [FOps F] : List (Bool × HStmt F) → List (Option Nat) → List (Option Nat) → M F (List (Option Nat) × List (Option Nat))
  | [], vs, us => return (vs, us)
  | (true, s) :: p, vs, us => do interleave p (← s.exec vs) us
  | (false, s) :: p, vs, us => do interleave p vs (← s.exec us)

/-- The tensor `t` of one state and the tensor `t'` of another: same type, shape and flags, same elements, and both or neither have a
gradient, and have been computed with gradients. -/
structure SameTensor (h h' : Heap F) (t t' : Nat) : Prop where
  found : ∃ i i', h.ts[t]? = some i ∧ h'.ts[t']? = some i' ∧ i'.dtype = i.dtype ∧ i'.view.sizes = i.view.sizes ∧
    i'.requiresGrad = i.requiresGrad ∧ i'.retainGrad = i.retainGrad ∧ i'.grad.isSome = i.grad.isSome ∧ i'.gradFn.isSome = i.gradFn.isSome
  elements : ∀ dt s f, Denotes h t dt s f ↔ Denotes h' t' dt s f

/-- The variables hold the same tensors, with the same gradients; the same ones are empty; the same ones hold one and the same tensor. -/
structure SameVars (h : Heap F) (vs : List (Option Nat)) (h' : Heap F) (vs' : List (Option Nat)) : Prop where
  each : List.Forall₂ (Option.Rel (SameTensor h h')) vs vs'
  grads : ∀ a t t' i i' g g', ptr vs a = some t → ptr vs' a = some t' → h.ts[t]? = some i → h'.ts[t']? = some i' →
    i.grad = some g → i'.grad = some g' → SameTensor h h' g g'
  shared : ∀ a b, ptr vs a = ptr vs b ↔ ptr vs' a = ptr vs' b

end
end INNC.Spec
