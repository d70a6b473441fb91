import Verif.Spec.Forward
/-
Specification: programs that compute and back-propagate but do not look at gradients through `grad()`.
-/
namespace INNC.Spec
open Tensor
variable {F : Type}

/-- The states and variables of a program that makes any calls but `grad()`: calls that throw are caught, and results of calls
become variables. -/
inductive Ungraded [FOps F] : Heap F → List Nat → Prop
  | start : Ungraded Heap.empty []
  | returned {h h' : Heap F} {vs : List Nat} {c : Call F} {o : Option Nat} : Ungraded h vs → (∀ t, c ≠ .grad t) → (∀ a ∈ args c, a ∈ vs) →
      c.run h = .ok o h' → Ungraded h' (o.toList ++ vs)
  | threw {h h' : Heap F} {vs : List Nat} {c : Call F} {e : Exc} : Ungraded h vs → (∀ t, c ≠ .grad t) → (∀ a ∈ args c, a ∈ vs) →
      c.run h = .throw e h' → Ungraded h' vs

end INNC.Spec
