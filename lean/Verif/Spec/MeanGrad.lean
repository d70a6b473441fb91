import Verif.Spec.Detach
import Verif.Spec.Forward
/-
Specification: computations with means inside (for C42).
-/
namespace INNC.Spec
open Tensor
variable {F : Type} [Field F] [FOps F]

/-- As `Smooth`, but means may occur anywhere in the computation of `t`: `t` is not a view, a quotient has a denominator of its
own shape without zeros and both operands require grad, a mean is not over 0 elements, and the computation does not read elements
of a gradient that it adds to. -/
structure MeansInside (h : Heap F) (t : Nat) : Prop where
  root : ¬ IsView h t
  small : ∀ x i, From h t x → h.ts[x]? = some i → Small i.view.sizes i.dtype
  quotient : ∀ x g a b, From h t x → opOf h x = some g → g.kind = .div → g.inputs = [a, b] →
    shapeOf h b = shapeOf h x ∧ requiresGrad h a = true ∧ requiresGrad h b = true ∧
    ∀ i f idx, h.ts[b]? = some i → Reads h i f → InBox i.view.sizes idx → real (f idx) ≠ 0
  mean : ∀ x g a, From h t x → opOf h x = some g → g.kind = .mean → g.inputs = [a] → (vol (shapeOf h a) : F) ≠ 0
  alone : ∀ x d, From h t x → gradStore h x = some d → ¬ ReadStore h t d

end INNC.Spec
