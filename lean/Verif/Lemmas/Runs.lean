import Verif.Model.Call
import Verif.Spec.Toy
/-
Running a list of calls, to exhibit reachable states in the examples.
-/
namespace INNC
open Tensor
variable {F : Type} [FOps F]

/-- The state after a list of calls, exceptions being caught; `none` on undefined behaviour. -/
def runs : List (Call F) → Heap F → Option (Heap F)
  | [], h => some h
  | c :: cs, h =>
    match c.run h with
    | .ok _ h' => runs cs h'
    | .throw _ h' => runs cs h'
    | .ub _ => none

theorem history_runs : ∀ (cs : List (Call F)) {h h' : Heap F}, History h → runs cs h = some h' → History h'
  | [], h, h', hh, e => by
    obtain rfl : h = h' := by simpa [runs] using e
    exact hh
  | c :: cs, h, h', hh, e => by
    unfold runs at e
    cases hr : c.run h with
    | ok r h1 => rw [hr] at e; exact history_runs cs (hh.returned hr) e
    | throw r h1 => rw [hr] at e; exact history_runs cs (hh.threw hr) e
    | ub u => rw [hr] at e; simp at e

/-- A reachable state with a decidable property. -/
theorem reachable {P : Heap F → Bool} (cs : List (Call F)) (hp : (runs cs Heap.empty).any P = true) :
    ∃ h, History h ∧ P h = true := by
  cases hr : runs cs Heap.empty with
  | none => rw [hr] at hp; simp at hp
  | some h => exact ⟨h, history_runs cs .start hr, by rw [hr] at hp; simpa using hp⟩

end INNC
