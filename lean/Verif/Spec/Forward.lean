import Verif.Spec.Deriv
import Verif.Spec.Grad
import Verif.Spec.Slice
import Verif.Spec.Init
import Verif.Spec.Scalar
import Verif.Spec.Accum
/-
Specification: programs that compute with variables, as a user writes them before calling `backward()`.
-/
namespace INNC.Spec
open Tensor
variable {F : Type}

/-- A tensor of this shape and type has fewer than 2^63 bytes. -/
def Small (s : List Nat) (dt : DType) : Prop := vol s * dt.size < 9223372036854775808

/-- The tensors a call takes as arguments. -/
def args : Call F → List Nat
  | .onesLike t | .zerosLike t | .randnLike _ t | .slice t _ | .transpose t _ _ | .reshape t _ | .detach t | .clone t
  | .contiguous t | .toType t _ | .pos t | .neg t | .sum t | .mean t | .abs t | .max t | .min t | .setRequiresGrad t _
  | .setRetainGrad t _ | .zeroGrad t | .release t | .backward t | .grad t | .all t | .toString t | .stride t
  | .query t => [t]
  | .reshapeAs t u | .addAssign t u => [t, u]
  | .add l r | .sub l r | .mul l r | .div l r | .cmp _ l r => [l, r]
  | .cat ts _ => ts
  | _ => []

/-- `t` is the gradient of a tensor. -/
def IsGrad (h : Heap F) (t : Nat) : Prop := ∃ (x : Nat) (i : Impl), h.ts[x]? = some i ∧ i.grad = some t

/-- The call computes with its arguments, and they fit together: shapes broadcast where they have to, tensors have fewer than
2^63 bytes, slices exist, conversions are to float types; `abs()` and `requires_grad(true)` are applied to dense tensors and
`max()` and `min()` to non-empty tensors that start at the beginning of their storage (see C24, C25 and C46 for what happens
otherwise); `requires_grad(true)` is not applied to a gradient itself. Calls that change elements, and calls that leave elements uninitialised, are not included. -/
def Fits (h : Heap F) : Call F → Prop
  | .scalar dt v => v.HasType dt
  | .init tree => ∃ dt s, Uniform dt s tree ∧ Typed tree ∧ Small s dt
  | .ones s dt | .zeros s dt => Small s dt
  | .onesLike t | .zerosLike t | .clone t | .contiguous t => ∀ i, h.ts[t]? = some i → Small i.view.sizes i.dtype
  | .fullInt s n dt => Small s dt ∧ InRange 64 n
  | .fullReal s _ dt => Small s dt ∧ dt.isFloat = true
  | .eye n m dt => Small [n, m] dt
  | .fromBlob data s dt => Small s dt ∧ vol s ≤ data.length ∧ ∀ v ∈ data, v.HasType dt
  | .slice t s => Viewable h t ∧ ∃ specs, Spells specs s ∧ Selects specs (shapeOf h t) ∧ (∀ x ∈ specs, x.Is64) ∧
      ∀ i, h.ts[t]? = some i → StepsFit specs i.view.strides
  | .transpose t a b => Viewable h t ∧ a < (shapeOf h t).length ∧ b < (shapeOf h t).length ∧ a ≠ b
  | .reshapeAs t u => Viewable h t ∧ (∀ i, h.ts[t]? = some i → Small i.view.sizes i.dtype) ∧
      vol (shapeOf h u) = vol (shapeOf h t) ∧ (shapeOf h t = [] ↔ shapeOf h u = [])
  | .reshape t sizes => Viewable h t ∧ (∀ i, h.ts[t]? = some i → Small i.view.sizes i.dtype) ∧
      ∃ s', vol s' = vol (shapeOf h t) ∧ (shapeOf h t = [] ↔ s' = []) ∧ (∀ n ∈ s', n < 18446744073709551616) ∧
        (sizes = s'.map (fun n : Nat => (n : Int)) ∨ ∃ a m b, s' = a ++ m :: b ∧ 0 < vol (a ++ b) ∧ vol (a ++ b) < 18446744073709551616 ∧
          sizes = a.map (fun n : Nat => (n : Int)) ++ -1 :: b.map (fun n : Nat => (n : Int)))
  | .randn _ s dt => dt = .f32 ∧ Small s .f32
  | .detach _ | .pos _ | .setRetainGrad _ _ => True
  | .toType t dt => dt.isFloat = true ∧ Small (shapeOf h t) dt
  | .add l r | .sub l r | .mul l r | .div l r | .cmp _ l r =>
      ∃ s, Broadcasts (shapeOf h l) (shapeOf h r) s ∧ Small s .f64
  | .neg t => Small (shapeOf h t) .f64
  | .sum t | .mean t => vol (shapeOf h t) < 9223372036854775808
  | .abs t => ∀ i, h.ts[t]? = some i → Dense i.view ∧ Small i.view.sizes i.dtype ∧ i.dtype.isFloat = true
  | .max t | .min t => ∀ i, h.ts[t]? = some i → i.view.offset = 0 ∧ vol i.view.sizes ≠ 0 ∧ Small i.view.sizes i.dtype
  | .cat ts d => ts ≠ [] ∧ ∃ (s : List Nat) (ns : List Nat), d < s.length ∧
      List.Forall₂ (fun t n => shapeOf h t = s.set d n) ts ns ∧ ns.sum < 9223372036854775808 ∧ Small (s.set d ns.sum) .f64
  | .setRequiresGrad t b => b = true ∧ (∀ i, h.ts[t]? = some i → i.requiresGrad = true ∨ Dense i.view) ∧ ¬ IsGrad h t
  | _ => False

/-- What is required of the computation of `t` before `t.backward()`, because the library is wrong otherwise: `t` is not a
view (C45), a quotient has a denominator of its own shape without zeros and both operands require grad (C43), a mean is the last
operation (C42), and the computation does not read elements of a gradient that it adds to. -/
structure Smooth [Field F] (h : Heap F) (t : Nat) : Prop where
  root : ¬ IsView h t
  small : ∀ x i, From h t x → h.ts[x]? = some i → Small i.view.sizes i.dtype
  quotient : ∀ x g a b, From h t x → opOf h x = some g → g.kind = .div → g.inputs = [a, b] →
    shapeOf h b = shapeOf h x ∧ requiresGrad h a = true ∧ requiresGrad h b = true ∧
    ∀ i f idx, h.ts[b]? = some i → Reads h i f → InBox i.view.sizes idx → real (f idx) ≠ 0
  mean : ∀ x g a, From h t x → opOf h x = some g → g.kind = .mean → g.inputs = [a] → x = t ∧ (vol (shapeOf h a) : F) ≠ 0
  alone : ∀ x d, From h t x → gradStore h x = some d → ¬ ReadStore h t d

/-- The same for tensors `l` with which the computation goes on: in particular there is no mean among the operations. -/
structure Inner [Field F] (h : Heap F) (l : List Nat) : Prop where
  small : ∀ t ∈ l, ∀ x i, From h t x → h.ts[x]? = some i → Small i.view.sizes i.dtype
  quotient : ∀ t ∈ l, ∀ x g a b, From h t x → opOf h x = some g → g.kind = .div → g.inputs = [a, b] →
    shapeOf h b = shapeOf h x ∧ requiresGrad h a = true ∧ requiresGrad h b = true ∧
    ∀ i f idx, h.ts[b]? = some i → Reads h i f → InBox i.view.sizes idx → real (f idx) ≠ 0
  mean : ∀ t ∈ l, ∀ x g, From h t x → opOf h x = some g → g.kind ≠ .mean
  alone : ∀ t ∈ l, ∀ x d, From h t x → gradStore h x = some d → ∀ t' ∈ l, ¬ ReadStore h t' d

/-- `t.backward()` can be called and differentiates correctly: `t` requires grad, was computed, and has one element. -/
def Starts [Field F] (h : Heap F) (t : Nat) : Prop :=
  requiresGrad h t = true ∧ Interior h t ∧ vol (shapeOf h t) = 1 ∧ Smooth h t

/-- `t` can be back-propagated again: it was computed from leaves by one operation, it is not told to keep its gradient, and it
has none (so it has no views). -/
def Repeatable (h : Heap F) (t : Nat) : Prop :=
  (∀ y, Uses h t y → ¬ Interior h y) ∧ ∀ i, h.ts[t]? = some i → i.retainGrad = false ∧ i.grad = none

/-- No result of an operation that `x` was computed by, directly or indirectly, takes part in the computation of `t`: they
have at most leaves in common; and `t` itself, if it can be back-propagated again. -/
def Separate (h : Heap F) (x t : Nat) : Prop := ∀ y, From h x y → From h t y → Interior h y → y = t ∧ Repeatable h t

/-- The call `t.backward()` does not change elements that `x` was computed from, or consists of: they do not lie on the storage
of a gradient of the graph of `t`. -/
def Aloof (h : Heap F) (x t : Nat) : Prop := ∀ y d, From h t y → gradStore h y = some d → ¬ ReadStore h x d

/-- No operation that `x` was computed by, directly or indirectly, reads or wrote elements on the storage of `t`, and it is not
the storage of a gradient of their arguments or results. (`x` may itself be a leaf on that storage.) -/
def Unread (h : Heap F) (x t : Nat) : Prop :=
  (∀ y g, From h x y → opOf h y = some g → ¬ SameStorage h y t ∧ (∀ z ∈ g.inputs, ¬ SameStorage h z t) ∧
    ∀ k, g.kind = .knownGrad k → ¬ SameStorage h k t) ∧
  ∀ y i, From h x y → h.ts[t]? = some i → gradStore h y ≠ some i.data

/-- `t += r` can be carried out: `t` is a float tensor that does not require grad, its elements lie at different places, `r` is
stored elsewhere, and the shapes broadcast. -/
def Addable (h : Heap F) (t r : Nat) : Prop :=
  requiresGrad h t = false ∧ (∀ i, h.ts[t]? = some i → i.dtype.isFloat = true) ∧ Distinct h t ∧ ¬ SameStorage h t r ∧
    ∃ s, Broadcasts (shapeOf h t) (shapeOf h r) s

/-- The states a program reaches that computes with variables, and the variables it can still use: each call takes variables
as arguments and its result becomes a variable.
* After `t.backward()` the results of the operations of the graph of `t`, and what was computed from them, are not used any
  more (C39), except `t` itself if it was computed from leaves by one operation. Neither are gradients taken before that the call changed (they can be taken again).
* After `t.zero_grad()` the gradient of `t`, if it was taken before, and views of it are not used any more.
* After `t += r` tensors that were computed from elements on the storage of `t` are not used any more.
These are the rules of a training loop: differentiate, take the gradients, update the parameters, start again. -/
inductive Forward [Field F] [FOps F] : Heap F → List Nat → Prop
  | start : Forward Heap.empty []
  | returns {h h' : Heap F} {vs : List Nat} {c : Call F} {t : Nat} : Forward h vs → Fits h c → (∀ a ∈ args c, a ∈ vs) →
      c.run h = .ok (some t) h' → Forward h' (t :: vs)
  | changes {h h' : Heap F} {vs : List Nat} {c : Call F} : Forward h vs → Fits h c → (∀ a ∈ args c, a ∈ vs) →
      c.run h = .ok none h' → Forward h' vs
  | back {h h' : Heap F} {vs vs' : List Nat} {t : Nat} : Forward h vs → t ∈ vs → Starts h t →
      (Call.backward t).run h = .ok none h' → (∀ x ∈ vs', x ∈ vs ∧ Separate h x t ∧ Aloof h x t) → Forward h' vs'
  | gradient {h h' : Heap F} {vs : List Nat} {t g : Nat} {a : List Nat → F} : Forward h vs → t ∈ vs → GradIs h t a →
      (Call.grad t).run h = .ok (some g) h' → Forward h' (g :: vs)
  | zero {h h' : Heap F} {vs vs' : List Nat} {t : Nat} : Forward h vs → t ∈ vs → (Call.zeroGrad t).run h = .ok none h' →
      (∀ x ∈ vs', x ∈ vs ∧ ∀ d, gradStore h t = some d → ¬ ReadStore h x d) → Forward h' vs'
  | update {h h' : Heap F} {vs vs' : List Nat} {t r : Nat} : Forward h vs → t ∈ vs → r ∈ vs → Addable h t r →
      (Call.addAssign t r).run h = .ok none h' → (∀ x ∈ vs', x ∈ vs ∧ Unread h x t) → Forward h' vs'

/-- `d` is the partial derivative of the element of `t` with respect to the element `idx` of the leaf `x`: the coefficient of
`ε` when the computation of `t` is carried out in the dual numbers with `ε` added to that element; 0 if `t` was not computed
from `x`. -/
def Partial [Field F] [FOps F] (h : Heap F) (t x : Nat) (idx : List Nat) (d : F) : Prop :=
  (Leaf h t x → ∃ u r, Lift h t u ∧ Direction h t u x idx ∧ InBox (shapeOf h t) r ∧ d = (u t r).snd) ∧ (¬ Leaf h t x → d = 0)

/-- `t.backward()` for each `t` of the list, in order. -/
def backwardAll [FOps F] : List Nat → M F Unit
  | [] => pure ()
  | t :: l => do backward t; backwardAll l

end INNC.Spec
