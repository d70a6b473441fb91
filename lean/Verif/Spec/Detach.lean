import Verif.Spec.Deriv
/-
Specification: derivatives of computations in which means are held constant (for C42).
-/
namespace INNC.Spec
open Tensor
variable {F : Type} [Field F] [FOps F]

/-- `m` is the mean of the elements of `a` and not the end of the computation of `t`. -/
def InnerMean (h : Heap F) (t m a : Nat) : Prop := m ≠ t ∧ ∃ g, opOf h m = some g ∧ g.kind = .mean ∧ g.inputs = [a]

/-- `u` carries out the computation of `t` in the dual numbers as `Lift` does, but means inside the computation are constants:
at `ε = 0` it is the actual computation, and every operation is carried out on dual numbers, except that the means inside
have 0 as coefficient of `ε`. -/
structure Detached (h : Heap F) (t : Nat) (u : Nat → List Nat → DualNumber F) : Prop where
  value : ∀ x i, From h t x → h.ts[x]? = some i →
    ∃ f, Reads h i f ∧ ∀ idx, InBox i.view.sizes idx → (u x idx).fst = real (f idx)
  const : ∀ x i, From h t x → h.ts[x]? = some i → i.requiresGrad = false →
    ∀ idx, InBox i.view.sizes idx → (u x idx).snd = 0
  op : ∀ x g, From h t x → opOf h x = some g → (∀ a, ¬ InnerMean h t x a) → Computed h t u x g.kind g.inputs
  mean : ∀ m a, From h t m → InnerMean h t m a →
    Needs h t a ∧ shapeOf h m = [] ∧ (vol (shapeOf h a) : F) ≠ 0 ∧ (u m []).snd = 0

/-- The derivative of the mean `m` in the direction given by `u`: the mean of the derivatives of the elements of its operand. -/
def meanSlope (h : Heap F) (u : Nat → List Nat → DualNumber F) (m : Nat) : F :=
  match operands h m with
  | [a] => (boxSum (shapeOf h a) fun k => (u a k).snd) / (vol (shapeOf h a) : F)
  | _ => 0

end INNC.Spec
