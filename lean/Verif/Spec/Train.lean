import Verif.Spec.Memory
import Verif.Spec.Graph
/-
Specification: memory safety of programs that also compute gradients.
-/
namespace INNC.Spec
open Tensor
variable {F : Type}

/-- What the caller has to observe for `backward()` on `t` to be memory safe:
* no part of the graph of `t` has been back-propagated before, and its interior tensors still require grad (`C47_backward_view_again`);
* the elements of `t` fill a storage of their number (`C45`);
* every other tensor of the graph that requires grad has a gradient already or fills a storage of its number of elements:
  `backward()` allocates the gradient of a view with the strides of the view (`C47_backward_strided_leaf`);
* the tensors of the graph have fewer than 2^62 bytes;
* the operands of each quotient require grad, and the divisor is not broadcast (`C43`). -/
structure Propagable (h : Heap F) (t : Nat) : Prop where
  unused : Unused h t
  root : ∀ i, h.ts[t]? = some i → Dense i.view ∧ Modest i.view.sizes i.dtype
  room : ∀ x i, From h t x → h.ts[x]? = some i → Modest i.view.sizes i.dtype ∧
    (i.requiresGrad = true → Dense i.view ∨ i.grad.isSome = true)
  quotients : ∀ x f a b, From h t x → opOf h x = some f → f.kind = .div → f.inputs = [a, b] →
    (∀ y ∈ [a, b], ∀ i, h.ts[y]? = some i → i.requiresGrad = true) ∧ shapeOf h b = shapeOf h x

/-- If `t` requires grad then it has a gradient already, or fills a storage of its number of elements: taking a view of `t`
allocates the gradient of `t` with the strides of `t` (`C59_view_of_strided`). -/
def Roomy (h : Heap F) (t : Nat) : Prop :=
  ∀ i, h.ts[t]? = some i → i.requiresGrad = true → i.grad.isSome = true ∨ Dense i.view ∧ Modest i.view.sizes i.dtype

/-- The gradient of `t`, if there is one, is not the empty one that `backward()` has yet to allocate
(`C59_unallocated_gradient`). -/
def GradReady (h : Heap F) (t : Nat) : Prop :=
  ∀ i g j, h.ts[t]? = some i → i.grad = some g → h.ts[g]? = some j → ∃ s c, h.st[j.data]? = some s ∧ s.blob = some c

/-- The calls of a program that computes gradients: those of a careful program, and `backward()` and `grad()`. -/
def Permitted (h : Heap F) : Call F → Prop
  | .backward t => Propagable h t
  | .grad t => GradReady h t
  | .slice t s => Allowed h (.slice t s) ∧ Roomy h t
  | .transpose t a b => Allowed h (.transpose t a b) ∧ Roomy h t
  | .reshape t s => Allowed h (.reshape t s) ∧ Roomy h t
  | .reshapeAs t u => Allowed h (.reshapeAs t u) ∧ Roomy h t
  | c => Allowed h c

/-- The states and variables of a program whose calls are all `Permitted`: calls that throw are caught, and results of calls
become variables. -/
inductive Trained [FOps F] : Heap F → List Nat → Prop
  | start : Trained Heap.empty []
  | returned {h h' : Heap F} {vs : List Nat} {c : Call F} {o : Option Nat} : Trained h vs → Permitted h c → (∀ a ∈ args c, a ∈ vs) →
      c.run h = .ok o h' → Trained h' (o.toList ++ vs)
  | threw {h h' : Heap F} {vs : List Nat} {c : Call F} {e : Exc} : Trained h vs → Permitted h c → (∀ a ∈ args c, a ∈ vs) →
      c.run h = .throw e h' → Trained h' vs

end INNC.Spec
