import Verif.Spec.Graph
import Verif.Spec.Heap
import Verif.Spec.Reduce
import Mathlib.Algebra.DualNumber
/-
Specification: derivatives. The derivative of a computation is defined by carrying out the same operations in the dual
numbers `a + b ε` with `ε² = 0` (forward-mode differentiation): the coefficient of `ε` of the result is the derivative in
the direction given by the coefficients of `ε` of the leaves. Nothing here refers to gradients or to back-propagation,
except `GradIs` and `Prepared`, which describe the gradients stored in a state.
-/
namespace INNC.Spec
open Tensor
variable {F : Type}

/-- Float arithmetic without rounding: the claim about derivatives is a claim about exact arithmetic. -/
class Exact (F : Type) [Field F] [FOps F] : Prop where
  zero : (FOps.zero : F) = 0
  ofInt : ∀ (d : DType) (n : Int), FOps.ofInt d n = (n : F)
  cvt : ∀ (d : DType) (x : F), FOps.cvt d x = x
  add : ∀ (d : DType) (x y : F), FOps.add d x y = x + y
  sub : ∀ (d : DType) (x y : F), FOps.sub d x y = x - y
  mul : ∀ (d : DType) (x y : F), FOps.mul d x y = x * y
  div : ∀ (d : DType) (x y : F), FOps.div d x y = x / y
  neg : ∀ x : F, FOps.neg x = -x

/-- The number an element stands for. -/
def real [Field F] : Val F → F
  | .i n => (n : F)
  | .f x => x

/-- Sum over all indices of a shape. -/
def boxSum {R : Type} [AddCommMonoid R] (s : List Nat) (f : List Nat → R) : R := ((rowMajor s).map f).sum

/-- The shape of a tensor. -/
def shapeOf (h : Heap F) (x : Nat) : List Nat := ((h.ts[x]?).map (·.view.sizes)).getD []

/-- The tensor is part of the graph of `t` and requires grad. -/
def Needs (h : Heap F) (t x : Nat) : Prop := From h t x ∧ ∃ i, h.ts[x]? = some i ∧ i.requiresGrad = true

/-- The tensor is a view (slice, transposition, reshape) of its operand. -/
def IsView (h : Heap F) (x : Nat) : Prop := ∃ g, opOf h x = some g ∧ g.kind = .noBack

/-- The shapes broadcast to `s`, and no axis of size 1 meets an empty axis (the library rejects that, see C14). -/
def Broadcasts (u v s : List Nat) : Prop := bshape u v = some s ∧ ¬ stretched u v

/-- The operands `ins` are consecutive segments, starting at `k`, of axis `d` of `x`. -/
def Segments {R : Type} (h : Heap F) (u : Nat → List Nat → R) (x d : Nat) : Nat → List Nat → Prop
  | k, [] => (shapeOf h x)[d]? = some k
  | k, a :: ins => ∃ n, shapeOf h a = (shapeOf h x).set d n ∧
      (∀ idx, InBox (shapeOf h a) idx → u x (idx.modify d (· + k)) = u a idx) ∧ Segments h u x d (k + n) ins

/-- Every element of `x` is an element of `b`, at the same position of the storage. -/
def ViewOf {R : Type} (h : Heap F) (u : Nat → List Nat → R) (x b : Nat) : Prop :=
  ∃ i j, h.ts[x]? = some i ∧ h.ts[b]? = some j ∧ ∀ idx, InBox i.view.sizes idx →
    ∃ idx', InBox j.view.sizes idx' ∧ position j.view idx' = position i.view idx ∧ u x idx = u b idx'

variable [Field F] [FOps F]
open DualNumber

/-- `f` are slopes of `x` as a function of the elements of `a`: those of an absolute value, the signs of the elements, or those
of a maximum (minimum), which are 1 at one element that is `>=` (`<=`) all others and 0 elsewhere. -/
def Slopes (h : Heap F) (x a : Nat) (f : List Nat → Val F) : Prop :=
  ∃ i g, h.ts[a]? = some i ∧ Reads h i g ∧
    ((shapeOf h x = i.view.sizes ∧ ∀ idx, InBox i.view.sizes idx → f idx = elemSign i.dtype (g idx)) ∨
     (shapeOf h x = [] ∧ ∃ keep p, (keep = COp.ge ∨ keep = COp.le) ∧ InBox i.view.sizes p ∧
       (Ordered keep i.dtype i.view.sizes g → ∀ idx, InBox i.view.sizes idx →
         elemCompare keep i.dtype i.dtype (g p) (g idx) = true) ∧
       ∀ idx, InBox i.view.sizes idx → real (f idx) = if idx = p then 1 else 0))

/-- The dual numbers `u` of `x` are computed from those of its operands by the operation that computed `x`.
(Where the library is known to compute wrong gradients a side condition excludes the case: the denominator of a quotient has
the shape of the quotient and both operands require grad, see C43; a mean is the end of the computation, see C42.) -/
def Computed (h : Heap F) (t : Nat) (u : Nat → List Nat → DualNumber F) (x : Nat) : BackKind → List Nat → Prop
  | .add, [a, b] => Broadcasts (shapeOf h a) (shapeOf h b) (shapeOf h x) ∧ ∀ idx, InBox (shapeOf h x) idx →
      u x idx = u a (project (shapeOf h a) idx) + u b (project (shapeOf h b) idx)
  | .sub, [a, b] => Broadcasts (shapeOf h a) (shapeOf h b) (shapeOf h x) ∧ ∀ idx, InBox (shapeOf h x) idx →
      u x idx = u a (project (shapeOf h a) idx) - u b (project (shapeOf h b) idx)
  | .mul, [a, b] => Broadcasts (shapeOf h a) (shapeOf h b) (shapeOf h x) ∧ ∀ idx, InBox (shapeOf h x) idx →
      u x idx = u a (project (shapeOf h a) idx) * u b (project (shapeOf h b) idx)
  | .div, [a, b] => Broadcasts (shapeOf h a) (shapeOf h b) (shapeOf h x) ∧ shapeOf h b = shapeOf h x ∧
      Needs h t a ∧ Needs h t b ∧ ∀ idx, InBox (shapeOf h x) idx →
        (u b idx).fst ≠ 0 ∧ u x idx * u b idx = u a (project (shapeOf h a) idx)
  | .sum, [a] => shapeOf h x = [] ∧ u x [] = boxSum (shapeOf h a) (u a)
  | .mean, [a] => x = t ∧ Needs h t a ∧ shapeOf h x = [] ∧ (vol (shapeOf h a) : F) ≠ 0 ∧
      (vol (shapeOf h a) : DualNumber F) * u x [] = boxSum (shapeOf h a) (u a)
  | .clone, [a] => shapeOf h x = shapeOf h a ∧ ∀ idx, InBox (shapeOf h x) idx → u x idx = u a idx
  | .noBack, [b] => ViewOf h u x b
  | .cat d, ins => (∃ i, h.ts[x]? = some i ∧ i.view = Layout.contig i.view.sizes) ∧
      Segments h u x d 0 ins
  | .knownGrad k, [a] => ∃ i f, h.ts[k]? = some i ∧ i.view.sizes = shapeOf h a ∧ i.dtype.isFloat = true ∧ Reads h i f ∧
      Slopes h x a f ∧ Broadcasts (shapeOf h a) (shapeOf h x) (shapeOf h a) ∧ ∀ j, InBox (shapeOf h x) j →
        u x j = boxSum (shapeOf h a) fun idx => if project (shapeOf h x) idx = j then real (f idx) • u a idx else 0
  | _, _ => False

/-- `u` carries out the computation of `t` in the dual numbers: at `ε = 0` it is the actual computation, tensors that do not
require grad are constants, and every operation of the graph of `t` is carried out on dual numbers. The coefficients of `ε`
of the leaves that require grad are arbitrary: they are the direction of differentiation. -/
structure Lift (h : Heap F) (t : Nat) (u : Nat → List Nat → DualNumber F) : Prop where
  value : ∀ x i, From h t x → h.ts[x]? = some i →
    ∃ f, Reads h i f ∧ ∀ idx, InBox i.view.sizes idx → (u x idx).fst = real (f idx)
  const : ∀ x i, From h t x → h.ts[x]? = some i → i.requiresGrad = false →
    ∀ idx, InBox i.view.sizes idx → (u x idx).snd = 0
  op : ∀ x g, From h t x → opOf h x = some g → Computed h t u x g.kind g.inputs

/-- The storage of the gradient of `x`. -/
def gradStore (h : Heap F) (x : Nat) : Option Nat :=
  (h.ts[x]?).bind fun i => i.grad.bind fun g => (h.ts[g]?).map (·.data)

/-- Storage `d` holds the gradient `a` of a tensor of type `dt` with the elements of the view `v`: either the library has
not allocated it yet and `a` is 0, or the cells hold `a`. -/
def GradCells (h : Heap F) (d : Nat) (dt : DType) (v : Layout) (a : List Nat → F) : Prop :=
  ∃ s, h.st[d]? = some s ∧ s.dt = dt ∧
    ((s.blob = none ∧ s.size = dt.size * vol v.sizes ∧ ∀ idx, InBox v.sizes idx → a idx = 0) ∨
     ∃ c, s.blob = some c ∧ c.length < 9223372036854775808 ∧
       ∀ idx, InBox v.sizes idx → c[(position v idx).toNat]? = some (some (.f (a idx))))

/-- The gradient of `x` is a tensor of the same type and shape with the elements `a`. -/
def GradIs (h : Heap F) (x : Nat) (a : List Nat → F) : Prop :=
  ∃ i g f, h.ts[x]? = some i ∧ i.grad = some g ∧ Denotes h g i.dtype i.view.sizes f ∧
    ∀ idx, InBox i.view.sizes idx → real (f idx) = a idx

/-- `x` has no gradient, or one that is not allocated yet. -/
def NoGrad (h : Heap F) (x : Nat) : Prop :=
  ∃ i, h.ts[x]? = some i ∧ ∀ g j s, i.grad = some g → h.ts[g]? = some j → h.st[j.data]? = some s → s.blob = none

/-- The gradient of `x` is `a`, where no gradient counts as 0. -/
def GradOrZero (h : Heap F) (x : Nat) (a : List Nat → F) : Prop :=
  GradIs h x a ∨ NoGrad h x ∧ ∀ idx, InBox (shapeOf h x) idx → a idx = 0

/-- A leaf of the computation of `t` that requires grad. -/
def Leaf (h : Heap F) (t x : Nat) : Prop := Needs h t x ∧ ¬ Interior h x

/-- The direction of differentiation is the element `idx` of the leaf `x`: `ε` has the coefficient 1 there and 0 at every
other element of a leaf. -/
def Direction (h : Heap F) (t : Nat) (u : Nat → List Nat → DualNumber F) (x : Nat) (idx : List Nat) : Prop :=
  ∀ y, Leaf h t y → ∀ k, InBox (shapeOf h y) k →
    (y = x → k = idx → (u y k).snd = 1) ∧ (¬ (y = x ∧ k = idx) → (u y k).snd = 0)

/-- The storage is read by the computation of `t` or its back-propagation: it holds the elements of a tensor of the graph,
or slopes saved by `abs()`, `max()` or `min()`. -/
def ReadStore (h : Heap F) (t d : Nat) : Prop :=
  (∃ x i, From h t x ∧ h.ts[x]? = some i ∧ i.data = d) ∨
  ∃ x g k i, From h t x ∧ opOf h x = some g ∧ g.kind = .knownGrad k ∧ h.ts[k]? = some i ∧ i.data = d

/-- The state is ready for `t.backward()`: tensors that require grad are float and, unless they
are views, dense; no tensor has 2^63 bytes; existing gradients have the type and layout of their tensors, lie on storages of
their own that are not otherwise used, and are 0 for the results of operations; views share the gradient of the viewed tensor. -/
structure Prepared (h : Heap F) (t : Nat) : Prop where
  float : ∀ x i, Needs h t x → h.ts[x]? = some i → i.dtype.isFloat = true
  bytes : ∀ x i, From h t x → h.ts[x]? = some i → vol i.view.sizes * i.dtype.size < 9223372036854775808
  dense : ∀ x i, Needs h t x → ¬ IsView h x → h.ts[x]? = some i → Dense i.view
  grad : ∀ x i g, Needs h t x → x ≠ t → h.ts[x]? = some i → i.grad = some g →
    ∃ j, h.ts[g]? = some j ∧ j.dtype = i.dtype ∧ j.view = i.view ∧ j.requiresGrad = false
  cells : ∀ x i d, Needs h t x → ¬ IsView h x → x ≠ t → h.ts[x]? = some i → gradStore h x = some d →
    ∃ a, GradCells h d i.dtype i.view a ∧ (Interior h x → ∀ idx, a idx = 0)
  view : ∀ x b, Needs h t x → IsView h x → Uses h x b →
    Needs h t b ∧ (gradStore h x).isSome = true ∧ gradStore h x = gradStore h b ∧
    (h.ts[x]?).map (·.dtype) = (h.ts[b]?).map (·.dtype)
  apart : ∀ x y d, Needs h t x → Needs h t y → ¬ IsView h x → ¬ IsView h y → x ≠ t → y ≠ t →
    gradStore h x = some d → gradStore h y = some d → x = y
  aside : ∀ x d, Needs h t x → ¬ IsView h x → x ≠ t → gradStore h x = some d → ¬ ReadStore h t d

end INNC.Spec
