import Verif.Spec.Graph
/-
Specification: states that a program reaches from a given state.
-/
namespace INNC.Spec
open Tensor
variable {F : Type} [FOps F]

/-- The states that any number of calls reaches from `h`, whether they return or throw. -/
inductive Later (h : Heap F) : Heap F → Prop
  | now : Later h h
  | returned {h' h'' : Heap F} {c : Call F} {r : Option Nat} : Later h h' → c.run h' = .ok r h'' → Later h h''
  | threw {h' h'' : Heap F} {c : Call F} {e : Exc} : Later h h' → c.run h' = .throw e h'' → Later h h''

end INNC.Spec
