import Verif.Spec.Consult
import Verif.Spec.Detach
import Verif.Spec.Forward
/-
Specification: derivatives at the elements the tensors have now, which need not be those they were computed with (for C38 and C73).
-/
namespace INNC.Spec
open Tensor
variable {F : Type} [Field F] [FOps F]

/-- The coefficients of `ε` of `x` follow from those of its operands by the rule of differentiation for the operation that computed
`x`, applied to the elements given by `u` at `ε = 0`. The slopes of an absolute value, a maximum or a minimum are those that
were recorded when `x` was computed. (The side conditions are those of `Computed`.) -/
def Follow (h : Heap F) (t : Nat) (u : Nat → List Nat → DualNumber F) (x : Nat) : BackKind → List Nat → Prop
  | .add, [a, b] => Broadcasts (shapeOf h a) (shapeOf h b) (shapeOf h x) ∧ ∀ idx, InBox (shapeOf h x) idx →
      (u x idx).snd = (u a (project (shapeOf h a) idx)).snd + (u b (project (shapeOf h b) idx)).snd
  | .sub, [a, b] => Broadcasts (shapeOf h a) (shapeOf h b) (shapeOf h x) ∧ ∀ idx, InBox (shapeOf h x) idx →
      (u x idx).snd = (u a (project (shapeOf h a) idx)).snd - (u b (project (shapeOf h b) idx)).snd
  | .mul, [a, b] => Broadcasts (shapeOf h a) (shapeOf h b) (shapeOf h x) ∧ ∀ idx, InBox (shapeOf h x) idx →
      (u x idx).snd = (u a (project (shapeOf h a) idx)).snd * (u b (project (shapeOf h b) idx)).fst +
        (u a (project (shapeOf h a) idx)).fst * (u b (project (shapeOf h b) idx)).snd
  | .div, [a, b] => Broadcasts (shapeOf h a) (shapeOf h b) (shapeOf h x) ∧ shapeOf h b = shapeOf h x ∧
      Needs h t a ∧ Needs h t b ∧ ∀ idx, InBox (shapeOf h x) idx → (u b idx).fst ≠ 0 ∧
        (u x idx).snd = ((u a (project (shapeOf h a) idx)).snd - (u x idx).fst * (u b idx).snd) / (u b idx).fst
  | .sum, [a] => shapeOf h x = [] ∧ (u x []).snd = boxSum (shapeOf h a) fun k => (u a k).snd
  | .mean, [a] => x = t ∧ Needs h t a ∧ shapeOf h x = [] ∧ (vol (shapeOf h a) : F) ≠ 0 ∧
      (u x []).snd = (boxSum (shapeOf h a) fun k => (u a k).snd) / (vol (shapeOf h a) : F)
  | .clone, [a] => shapeOf h x = shapeOf h a ∧ ∀ idx, InBox (shapeOf h x) idx → (u x idx).snd = (u a idx).snd
  | .noBack, [b] => ViewOf h (fun y k => (u y k).snd) x b
  | .cat d, ins => (∃ i, h.ts[x]? = some i ∧ i.view = Layout.contig i.view.sizes) ∧
      Segments h (fun y k => (u y k).snd) x d 0 ins
  | .knownGrad k, [a] => ∃ i f, h.ts[k]? = some i ∧ i.view.sizes = shapeOf h a ∧ i.dtype.isFloat = true ∧ Reads h i f ∧
      Broadcasts (shapeOf h a) (shapeOf h x) (shapeOf h a) ∧ ∀ j, InBox (shapeOf h x) j →
        (u x j).snd = boxSum (shapeOf h a) fun idx => if project (shapeOf h x) idx = j then real (f idx) * (u a idx).snd else 0
  | _, _ => False

/-- `u` differentiates the computation of `t` at the elements the tensors have now: at `ε = 0` it gives these elements, tensors that
do not require grad have the derivative 0, and so have means inside the computation (C42), and for every other operation the
coefficients of `ε` follow from those of the operands. The elements of a result need not be what the operation gives for the
elements that its operands have now. -/
structure Tangent (h : Heap F) (t : Nat) (u : Nat → List Nat → DualNumber F) : Prop where
  value : ∀ x i, From h t x → h.ts[x]? = some i →
    ∃ f, Reads h i f ∧ ∀ idx, InBox i.view.sizes idx → (u x idx).fst = real (f idx)
  const : ∀ x i, From h t x → h.ts[x]? = some i → i.requiresGrad = false →
    ∀ idx, InBox i.view.sizes idx → (u x idx).snd = 0
  op : ∀ x g, From h t x → opOf h x = some g → (∀ a, ¬ InnerMean h t x a) → Follow h t u x g.kind g.inputs
  mean : ∀ m a, From h t m → InnerMean h t m a →
    Needs h t a ∧ shapeOf h m = [] ∧ (vol (shapeOf h a) : F) ≠ 0 ∧ (u m []).snd = 0

/-- The elements that `t` was computed with in `h` have been changed since, which gives `k`: the tensors are the same, those that `t`
was computed from still have elements, and so have the slopes that were recorded; gradients are as they were. -/
structure Revalued (h : Heap F) (t : Nat) (k : Heap F) : Prop where
  tensors : k.ts = h.ts
  version : k.gver = h.gver
  elements : ∀ x i, From h t x → h.ts[x]? = some i → ∃ f, Reads k i f
  slopes : ∀ x g a i, From h t x → opOf h x = some g → g.kind = .knownGrad a → h.ts[a]? = some i → ∃ f, Reads k i f
  gradients : ∀ x d, From h t x → gradStore h x = some d → k.st[d]? = h.st[d]?

/-- Any number of `c += r` on variables of a program that has reached `h`, such as `Addable` describes, where `c` does not lie on the storage
of a gradient of the computation of `t`. -/
inductive Advanced (h : Heap F) (vs : List Nat) (t : Nat) : Heap F → Prop
  | none : Advanced h vs t h
  | more {k k' : Heap F} {c r : Nat} : Advanced h vs t k → c ∈ vs → r ∈ vs → Addable k c r →
      (∀ x d, From h t x → gradStore h x = some d → storeOf h c ≠ some d) → addAssign c r k = .ok () k' → Advanced h vs t k'

end INNC.Spec
