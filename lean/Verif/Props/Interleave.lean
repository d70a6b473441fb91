import Verif.Lemmas.Interleave
import Verif.Lemmas.Examples
import Verif.Spec.Toy
/-
C74: computations that share no tensor do not influence each other.
-/
namespace INNC
open Spec Tensor
variable {F : Type} [FOps F]

/-- **C74**, every interleaving: two programs, each with variables of its own, run in turns in one process, in any order `p` of their
statements. If each of them returns when it runs alone in a new process, they return together, and every variable of each holds the same
tensor - type, shape, elements, flags, gradient - as when it runs alone, although they share the library's state (all objects and the
counter of back-propagations). The statements include every call of the interface, `backward()` among them. -/
theorem C74_interleaved (p : List (Bool × HStmt F)) {vs us : List (Option Nat)} {h g : Heap F}
    (e : execAll (turnsOf true p) [] Heap.empty = .ok vs h) (e' : execAll (turnsOf false p) [] Heap.empty = .ok us g) :
    ∃ vs' us' k, interleave p [] [] Heap.empty = .ok (vs', us') k ∧ SameVars h vs k vs' ∧ SameVars g us k us' := by
  have hW := inside_empty (Naming.any Heap.empty) (Heap.empty : Heap F)
  have nil : Held (Heap.empty : Heap F) [] := fun t ht => by cases ht
  obtain ⟨_, _, _, _, hh, _⟩ := execAll_moved _ hW .start nil e
  obtain ⟨_, _, _, _, hg, _⟩ := execAll_moved _ hW .start nil e'
  obtain ⟨W, U, k, hr, hI, hJ, hv, hu⟩ := interleave_inside p hW hW .start .start nil nil
    ⟨fun x y hx => by simp [Heap.empty] at hx, fun x y hx => by simp [Heap.empty] at hx⟩ e e'
  exact ⟨_, _, k, hr, hI.vars (existing_history hh) hv, hJ.vars (existing_history hg) hu⟩

/-- **C74**, any state: a program that returns in a new process returns in any state `k` whatever, holds the same tensors there, and leaves
every tensor and every storage of that state exactly as it was. -/
theorem C74_any_state (p : List (HStmt F)) {vs : List (Option Nat)} {h : Heap F} (e : execAll p [] Heap.empty = .ok vs h) (k : Heap F) :
    ∃ vs' k', execAll p [] k = .ok vs' k' ∧ SameVars h vs k' vs' ∧ Extends k k' := by
  obtain ⟨W, k', hr, hI, hh, hv, rT, rS⟩ := execAll_moved p (inside_empty (Naming.any k) k) .start (fun t ht => by cases ht) e
  refine ⟨_, k', hr, hI.vars (existing_history hh) hv, fun t i hi => ?_, fun d s hs => ?_⟩
  · exact (rT t (lt_of_get hi) fun x hx => by simp [Heap.empty] at hx).trans hi
  · refine (rS d ?_ fun x hx => by simp [Heap.empty] at hx).trans hs
    by_contra hc
    rw [List.getElem?_eq_none (by omega)] at hs
    cases hs

/-- **C74**, exceptions: a program that ends with an exception in a new process ends with the same exception in any state. -/
theorem C74_throws (p : List (HStmt F)) {x : Exc} {h : Heap F} (e : execAll p [] Heap.empty = .throw x h) (k : Heap F) :
    ∃ k', execAll p [] k = .throw x k' :=
  execAll_throws p (inside_empty (Naming.any k) k) .start (fun t ht => by cases ht) e

/-- **C74**, undefined behaviour: a program whose behaviour is undefined in a new process has the same undefined behaviour in any state. So a
program returns in some state iff it does in a new process: what other computations did before neither breaks it nor saves it. -/
theorem C74_undefined (p : List (HStmt F)) {u : UB} (e : execAll p [] Heap.empty = .ub u) (k : Heap F) : execAll p [] k = .ub u :=
  execAll_ub p (inside_empty (Naming.any k) k) .start (fun t ht => by cases ht) e

/-- **C74**, the converse: however the two programs end together, it is due to one of them alone. If they return together, each returns
alone; if they end with an exception or with undefined behaviour, one of them does so alone. -/
theorem C74_blame (p : List (Bool × HStmt F)) :
    (∀ r k, interleave p [] [] Heap.empty = .ok r k → ∀ b, ∃ vs h, execAll (turnsOf b p) [] (Heap.empty : Heap F) = .ok vs h) ∧
    (∀ x k, interleave p [] [] Heap.empty = .throw x k → ∃ b h, execAll (turnsOf b p) [] (Heap.empty : Heap F) = .throw x h) ∧
    (∀ u, interleave p [] [] Heap.empty = .ub u → ∃ b, execAll (turnsOf b p) [] (Heap.empty : Heap F) = .ub u) := by
  have hW := inside_empty (Naming.any Heap.empty) (Heap.empty : Heap F)
  have nil : Held (Heap.empty : Heap F) [] := fun t ht => by cases ht
  have H := interleave_blame p hW hW .start .start nil nil
    ⟨fun x y hx => by simp [Heap.empty] at hx, fun x y hx => by simp [Heap.empty] at hx⟩
  refine ⟨fun r k e b => ?_, fun x k e => ?_, fun u e => ?_⟩ <;>
    rw [show interleave p ([].map _) ([].map _) Heap.empty = _ from e] at H
  · cases b
    · exact H.2
    · exact H.1
  · rcases H with ⟨h, H⟩ | ⟨h, H⟩
    · exact ⟨true, h, H⟩
    · exact ⟨false, h, H⟩
  · rcases H with H | H
    · exact ⟨true, H⟩
    · exact ⟨false, H⟩

/-! ### Examples -/

/-- Two programs that both back-propagate twice, in turns: `x = [2, 3]`, `s = (x * x).sum()`, `s.backward()`, and
`u = [5, 7]`, `r = (u * u + u).sum()`, `r.backward()`; `true` marks the statements of the first one. -/
def inTurns : List (Bool × HStmt Int) :=
  [(true, .call (.fromBlob [.f 2, .f 3] [2] .f32)), (false, .call (.fromBlob [.f 5, .f 7] [2] .f64)),
   (false, .call (.setRequiresGrad 0 true)), (true, .call (.setRequiresGrad 0 true)),
   (true, .call (.mul 0 0)), (false, .call (.mul 0 0)), (true, .call (.sum 1)), (false, .call (.add 1 0)),
   (true, .call (.backward 2)), (false, .call (.sum 2)), (false, .call (.backward 3)), (true, .call (.grad 0)),
   (true, .attempt (.backward 1)), (false, .call (.grad 0))]

/-- The elements of the tensor that a variable holds, if its storage holds nothing else. -/
def elementsOf (h : Heap Int) (vs : List (Option Nat)) (v : Nat) : Option (List (Option (Val Int))) :=
  (ptr vs v).bind fun t => (h.ts[t]?).bind fun i => (h.st[i.data]?).bind fun s => s.blob

def aloneAt (v : Nat) : Out (Heap Int) (List (Option Nat)) → Option (List (Option (Val Int)))
  | .ok vs h => elementsOf h vs v
  | _ => none

def togetherAt (v u : Nat) : Out (Heap Int) (List (Option Nat) × List (Option Nat)) →
    Option (List (Option (Val Int))) × Option (List (Option (Val Int)))
  | .ok (vs, us) h => (elementsOf h vs v, elementsOf h us u)
  | _ => (none, none)

/-- Non-vacuity: both programs return when they run alone, one of them after an attempt that throws; the gradients are `2 * x` and
`2 * u + 1`, alone and together. -/
example : aloneAt 3 (execAll (turnsOf true inTurns) [] Heap.empty) = some [some (.f 4), some (.f 6)] ∧
    aloneAt 4 (execAll (turnsOf false inTurns) [] Heap.empty) = some [some (.f 11), some (.f 15)] ∧
    togetherAt 3 4 (interleave inTurns [] [] Heap.empty) = (some [some (.f 4), some (.f 6)], some [some (.f 11), some (.f 15)]) := by
  refine ⟨?_, ?_, ?_⟩ <;> decide +kernel

/-- Non-vacuity of `C74_throws`: `backward()` of a tensor that does not require grad. -/
example : thrown (execAll [HStmt.call (.fromBlob [.f 2] [1] .f32), .call (.backward 0)] [] (Heap.empty : Heap Int)) = some .runtime := by
  rfl

/-- Non-vacuity of `C74_undefined`: `backward()` through a quotient whose numerator does not require grad dereferences a null pointer. -/
example : (match execAll [HStmt.call (.fromBlob [.f 6] [1] .f32), .call (.fromBlob [.f 3] [1] .f32), .call (.setRequiresGrad 1 true),
    .call (.div 0 1), .call (.backward 2)] [] (Heap.empty : Heap Int) with
    | .ub u => some u
    | _ => none) = some .nullptr := by
  decide +kernel

/-- Non-vacuity of `C74_blame`: the first program throws, beside one that returns; the first one divides by zero, beside one that returns. -/
example : (thrown (interleave [(false, HStmt.call (.fromBlob [.f 2] [1] .f32)), (true, .call (.fromBlob [.f 2] [1] .f32)),
      (true, .call (.backward 0))] [] [] (Heap.empty : Heap Int)) = some .runtime) ∧
    (match interleave [(true, HStmt.call (.fromBlob [.i 2] [1] .i32)), (false, .call (.fromBlob [.f 2] [1] .f32)),
      (true, .call (.fromBlob [.i 0] [1] .i32)), (true, .call (.div 0 1))] [] [] (Heap.empty : Heap Int) with
    | .ub u => some u
    | _ => none) = some .divZero := by
  refine ⟨?_, ?_⟩ <;> decide +kernel

end INNC
