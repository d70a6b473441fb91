import Verif.Model.Call
/-
Specification: the graph of differentiable operations. Apart from `Program`, only the state of the model is used here, none of its operations.
-/
namespace INNC.Spec
open Tensor
variable {F : Type}

/-- The record of the operation that computed `x`, if `x` is the result of a differentiable operation. -/
def opOf (h : Heap F) (x : Nat) : Option GradFn := (h.ts[x]?).bind (·.gradFn)

/-- `x` is the result of a differentiable operation (an interior tensor of the graph). -/
def Interior (h : Heap F) (x : Nat) : Prop := (opOf h x).isSome = true

/-- The operands `x` was computed from, with repetitions (`[a, a]` for `a + a`); none for a leaf. -/
def operands (h : Heap F) (x : Nat) : List Nat :=
  match opOf h x with
  | some g => g.inputs
  | none => []

/-- `y` is an operand of the operation that computed `x`. -/
def Uses (h : Heap F) (x y : Nat) : Prop := y ∈ operands h x

/-- `t` was computed, directly or indirectly, from `x` (or is `x`). -/
inductive From (h : Heap F) (t : Nat) : Nat → Prop
  | root : From h t t
  | step {x y : Nat} : From h t x → Uses h x y → From h t y

/-- Number of operands of each kind of operation. -/
def Arity : BackKind → Nat → Prop
  | .add, n | .sub, n | .mul, n | .div, n => n = 2
  | .sum, n | .mean, n | .noBack, n | .clone, n | .knownGrad _, n => n = 1
  | .cat _, _ => True

/-- The graph is well formed: operands were created before results, operations have the right number of operands, and
no operation was visited in a back-propagation that has not happened yet. Every history of calls keeps this
(`C37_histories`). -/
structure Graph (h : Heap F) : Prop where
  older : ∀ x y, Uses h x y → y < x
  arity : ∀ x g, opOf h x = some g → Arity g.kind g.inputs.length
  version : ∀ x g, opOf h x = some g → g.backVersion ≤ h.gver

/-- No part of the graph of `t` has been back-propagated before, and its interior tensors require grad. -/
def Unused (h : Heap F) (t : Nat) : Prop :=
  ∀ x g, From h t x → x ≠ t → opOf h x = some g → g.accOutway = 0 ∧ ∀ i, h.ts[x]? = some i → i.requiresGrad = true

/-- The list contains exactly the interior tensors of the graph of `t`, each once, and each after all tensors computed
from it. -/
structure Schedule (h : Heap F) (t : Nat) (l : List Nat) : Prop where
  once : l.Nodup
  all : ∀ x, x ∈ l ↔ From h t x ∧ Interior h x
  after : l.Pairwise fun a b => ¬ Uses h b a

/-- A tensor without the number of uses and the version of the last visit noted in its operation. -/
def uncounted (i : Impl) : Impl :=
  { i with gradFn := i.gradFn.map fun g => { g with nOutway := 0, backVersion := 0 } }

/-- The states agree except for the numbers of uses and the versions of the last visit. -/
def SameButCounters (h h' : Heap F) : Prop := h'.st = h.st ∧ h'.ts.map uncounted = h.ts.map uncounted

/-- All calls except `backward()` and `requires_grad(false)`. -/
def Builds : Call F → Bool
  | .backward _ | .setRequiresGrad _ false => false
  | _ => true

/-- The states a program reaches from the start without `backward()` and `requires_grad(false)`. -/
inductive Program [FOps F] : Heap F → Prop
  | start : Program Heap.empty
  | returned {h h' : Heap F} {c : Call F} {t : Option Nat} : Program h → Builds c = true → c.run h = .ok t h' → Program h'
  | threw {h h' : Heap F} {c : Call F} {e : Exc} : Program h → Builds c = true → c.run h = .throw e h' → Program h'

/-- `backward()` on `t` ends in `h'`, by returning or by an exception. -/
def Propagates [FOps F] (t : Nat) (h h' : Heap F) : Prop := backward t h = .ok () h' ∨ ∃ e, backward t h = .throw e h'

end INNC.Spec
