import Verif.Spec.Forward
/-
Specification: training by gradient descent, as a user of the library writes it.
-/
namespace INNC.Spec
open Tensor
variable {F : Type}

/-- One step of gradient descent for the parameter `w`:
`auto p = w.grad() * rate; auto d = w.detach(); d += p; w.zero_grad();`
where the tensor `rate` holds minus the learning rate. (A parameter without gradient has an empty `grad()`.) -/
def descend [FOps F] (rate w : Nat) : M F Unit := do
  match ← gradOf w with
  | none => M.undef .nullptr
  | some g =>
    let p ← mulT g rate
    let d ← detach w
    addAssign d p
    zeroGrad w

/-- The same for every parameter. -/
def descendAll [FOps F] (rate : Nat) : List Nat → M F Unit
  | [] => pure ()
  | w :: ws => do descend rate w; descendAll rate ws

/-- One step of training: `t.backward()`, and a step of gradient descent for every parameter. -/
def trainStep [FOps F] (rate : Nat) (ws : List Nat) (t : Nat) : M F Unit := do
  backward t
  descendAll rate ws

/-- Training: `n` times, compute the loss and make a step. -/
def train [FOps F] (loss : M F Nat) (rate : Nat) (ws : List Nat) : Nat → M F Unit
  | 0 => pure ()
  | n + 1 => do
    let t ← loss
    trainStep rate ws t
    train loss rate ws n

/-- The elements of `x`, of shape `s`, are the numbers `a`. -/
def Values [Field F] (h : Heap F) (x : Nat) (s : List Nat) (a : List Nat → F) : Prop :=
  ∃ dt f, Denotes h x dt s f ∧ ∀ idx, InBox s idx → real (f idx) = a idx

/-- No gradient is stored where the elements of `x` are. -/
def OffGradients (h : Heap F) (x : Nat) : Prop := ∀ i, h.ts[x]? = some i → ∀ y, gradStore h y ≠ some i.data

/-- The variables with which the training works: parameters `ws`, a learning rate and data `ds`. They are not results of
operations that are tracked, and not stored on gradients. The parameters require grad, have fewer than 2^60 elements and lie on storages of their own;
`rate` is a scalar of value `c` that does not require grad. -/
structure TrainBase [Field F] (h : Heap F) (ws : List Nat) (rate : Nat) (c : F) (ds : List Nat) : Prop where
  leaf : ∀ x ∈ ws ++ rate :: ds, ¬ Interior h x ∧ OffGradients h x
  params : ∀ w ∈ ws, requiresGrad h w = true ∧ Small (shapeOf h w) .f64
  apart : ws.Pairwise fun a b => ¬ SameStorage h a b
  others : ∀ x ∈ rate :: ds, ∀ w ∈ ws, ¬ SameStorage h x w
  scale : requiresGrad h rate = false
  value : Values h rate [] fun _ => c

/-- `loss` computes a function of the parameters, whose partial derivatives at `θ` are `D θ`: whenever the parameters have the
values `θ` and no gradients, and the data have the values `a`, it returns a result that can be back-propagated, computed from the
parameters, with these derivatives, and leaves parameters and data as they are. -/
def Objective [Field F] [FOps F] (loss : M F Nat) (ws : List Nat) (rate : Nat) (c : F) (ds : List Nat) (shape : Nat → List Nat)
    (a : Nat → List Nat → F) (D : (Nat → List Nat → F) → Nat → List Nat → F) : Prop :=
  ∀ (h : Heap F) (θ : Nat → List Nat → F), Forward h (ws ++ rate :: ds) → TrainBase h ws rate c ds →
    (∀ w ∈ ws, Values h w (shape w) (θ w) ∧ GradOrZero h w fun _ => 0) → (∀ x ∈ ds, Values h x (shape x) (a x)) →
    ∃ t h' us, loss h = .ok t h' ∧ Forward h' us ∧ (∀ x ∈ t :: (ws ++ rate :: ds), x ∈ us) ∧ Starts h' t ∧ TrainBase h' ws rate c ds ∧
      (∀ w ∈ ws, Leaf h' t w ∧ Values h' w (shape w) (θ w) ∧ (GradOrZero h' w fun _ => 0) ∧
        ∀ idx, InBox (shape w) idx → Partial h' t w idx (D θ w idx)) ∧
      ∀ x ∈ ds, Values h' x (shape x) (a x)

/-- Gradient descent on the numbers: `n` times, every parameter changes by `c` times its partial derivative. -/
def descent [Field F] (c : F) (D : (Nat → List Nat → F) → Nat → List Nat → F) : Nat → (Nat → List Nat → F) → Nat → List Nat → F
  | 0, θ => θ
  | n + 1, θ => descent c D n fun w idx => θ w idx + c * D θ w idx

/-- The sum of squares `auto e = w * x - y; return (e * e).sum();` -/
def sumOfSquares [FOps F] (w x y : Nat) : M F Nat := do
  let m ← mulT w x
  let e ← subT m y
  let q ← mulT e e
  sumT q

end INNC.Spec
