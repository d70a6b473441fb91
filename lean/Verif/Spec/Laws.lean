import Verif.Spec.Heap
/-
Specification: two calls with the same visible result.
-/
namespace INNC.Spec
variable {F : Type}

/-- Two calls, possibly in different memories, have the same visible result: both return a tensor, and the two tensors have the same
type, the same shape and the same elements; or both throw the same exception; or the behaviour of both is undefined. -/
def Agree (o o' : Out (Heap F) Nat) : Prop :=
  (∃ t h t' h' dt s f, o = .ok t h ∧ o' = .ok t' h' ∧ Denotes h t dt s f ∧ Denotes h' t' dt s f) ∨
  (∃ e h h', o = .throw e h ∧ o' = .throw e h') ∨
  (∃ u u', o = .ub u ∧ o' = .ub u')

end INNC.Spec
