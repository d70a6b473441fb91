import Verif.Spec.Graph
/-
Quotients and constants in the graph of a program (C43).
-/
namespace INNC.Spec
variable {F : Type}

/-- `x` is the result of `a / b`. -/
def Quotient (h : Heap F) (x a b : Nat) : Prop := ∃ g, opOf h x = some g ∧ g.kind = .div ∧ g.inputs = [a, b]

/-- A tensor that does not require grad, is not a recorded result and has no gradient. -/
def Constant (h : Heap F) (a : Nat) : Prop :=
  ∃ i, h.ts[a]? = some i ∧ i.requiresGrad = false ∧ i.gradFn = none ∧ i.grad = none

end INNC.Spec
