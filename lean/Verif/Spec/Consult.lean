import Verif.Spec.Deriv
import Verif.Spec.Grad
/-
Specification: the elements that `backward()` looks at.
-/
namespace INNC.Spec
variable {F : Type}

/-- The storage of a tensor. -/
def storeOf (h : Heap F) (x : Nat) : Option Nat := (h.ts[x]?).map (·.data)

/-- `x` is a result of an operation in the computation of `t`, or a leaf of it, and `d` is the storage of
* the gradient of `x`, if it has one;
* a factor, if `x` is a product and the other factor requires grad;
* the denominator, or `x` itself, if `x` is a quotient;
* the slopes that were recorded when `x` was computed, if `x` is the result of `abs()`, `max()` or `min()`. -/
inductive Consults (h : Heap F) (t d : Nat) : Prop
  | gradient {x : Nat} : From h t x → gradStore h x = some d → Consults h t d
  | left {x a b : Nat} {g : GradFn} : From h t x → opOf h x = some g → g.kind = .mul → g.inputs = [a, b] → requiresGrad h b = true →
      storeOf h a = some d → Consults h t d
  | right {x a b : Nat} {g : GradFn} : From h t x → opOf h x = some g → g.kind = .mul → g.inputs = [a, b] → requiresGrad h a = true →
      storeOf h b = some d → Consults h t d
  | denominator {x a b : Nat} {g : GradFn} : From h t x → opOf h x = some g → g.kind = .div → g.inputs = [a, b] →
      storeOf h b = some d → Consults h t d
  | quotient {x : Nat} {g : GradFn} : From h t x → opOf h x = some g → g.kind = .div → storeOf h x = some d → Consults h t d
  | slope {x k : Nat} {g : GradFn} : From h t x → opOf h x = some g → g.kind = .knownGrad k → storeOf h k = some d → Consults h t d

/-- The states have the same tensors (types, shapes, flags, operations, gradients), and differ at most in the contents of
the storages of `D`. -/
structure DifferOn (D : Nat → Prop) (h k : Heap F) : Prop where
  tensors : h.ts = k.ts
  version : h.gver = k.gver
  size : h.st.length = k.st.length
  rest : ∀ d, ¬ D d → h.st[d]? = k.st[d]?

/-- The call ended in the same way in both states: it returned the same, threw the same exception, or its behaviour was
undefined for the same reason; and if it ended, `P` holds of the states it left. -/
def SameEnd {α : Type} (P : Heap F → Heap F → Prop) : Out (Heap F) α → Out (Heap F) α → Prop
  | .ok a H, .ok b K => a = b ∧ P H K
  | .throw e H, .throw e' K => e = e' ∧ P H K
  | .ub u, .ub v => u = v
  | _, _ => False

/-- The gradient of every tensor that `t` was computed from in `h` is the same in `H` and `K`: both have none, or both have one
with the same type, shape and elements. -/
def SameGradients (h : Heap F) (t : Nat) (H K : Heap F) : Prop :=
  ∀ x, From h t x → (∀ i, H.ts[x]? = some i → K.ts[x]? = some i) ∧
    ∀ i g, H.ts[x]? = some i → i.grad = some g → ∀ dt s f, Denotes H g dt s f ↔ Denotes K g dt s f

/-- What `backward()` on `t` left of the states `h` and `k` that differed on `D`: the states still have the same tensors, with the
same gradients, and differ on `D` only; and the storages of `D` are as they were. -/
structure Unaffected (D : Nat → Prop) (t : Nat) (h k H K : Heap F) : Prop where
  differ : DifferOn D H K
  grads : SameGradients h t H K
  left : ∀ d, D d → d < h.st.length → H.st[d]? = h.st[d]?
  right : ∀ d, D d → d < h.st.length → K.st[d]? = k.st[d]?

end INNC.Spec
