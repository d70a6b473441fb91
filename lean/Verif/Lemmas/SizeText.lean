import Verif.Model.SizeText
import Verif.Lemmas.Print
/-
The text of lists of numbers determines them.
-/
namespace INNC
open Spec Tensor

theorem iterLoop_false : ∀ (l : List Int) (s : Str),
    iterLoop false s l = s ++ (l.map fun i => [',', ' '] ++ (toString i).toList).flatten
  | [], s => by simp [iterLoop]
  | i :: l, s => by simp [iterLoop, iterLoop_false l]

theorem commas_flat : ∀ (i : Int) (l : List Int), commas ((i :: l).map fun i => (toString i).toList) =
    (toString i).toList ++ (l.map fun i => [',', ' '] ++ (toString i).toList).flatten
  | i, [] => by simp [commas]
  | i, j :: l => by
    have := commas_flat j l
    simp only [List.map_cons, commas] at this ⊢
    rw [this]
    simp

theorem iterToString_eq (l : List Int) : iterToString l = ['['] ++ commas (l.map fun i => (toString i).toList) ++ [']'] := by
  unfold iterToString
  cases l with
  | nil => rfl
  | cons i l => rw [iterLoop, iterLoop_false, commas_flat]; simp

theorem joined_inj : ∀ (l m : List Int) (r r' : Str), l ≠ [] → m ≠ [] →
    commas (l.map fun i => (toString i).toList) ++ ']' :: r = commas (m.map fun i => (toString i).toList) ++ ']' :: r' → l = m
  | [], _, _, _, h, _, _ => absurd rfl h
  | _, [], _, _, _, h, _ => absurd rfl h
  | i :: l, j :: m, r, r', _, _, h => by
    have stop : ∀ (l : List Int) (r : Str), Stop ((l.map fun i => [',', ' '] ++ (toString i).toList).flatten ++ ']' :: r) := by
      intro l r c x hx
      cases l with
      | nil => injection hx with hx _; subst hx; rfl
      | cons i l =>
        simp only [List.map_cons, List.flatten_cons, List.cons_append, List.append_assoc] at hx
        injection hx with hx _; subst hx; rfl
    rw [commas_flat, commas_flat, List.append_assoc, List.append_assoc] at h
    obtain ⟨h1, h2⟩ := prefix_split (int_text i).2 (int_text j).2 (stop l r) (stop m r') h
    obtain rfl : i = j := Int.repr_injective (String.toList_inj.1 h1)
    cases l with
    | nil =>
      cases m with
      | nil => rfl
      | cons j m => simp at h2
    | cons i l =>
      cases m with
      | nil => simp at h2
      | cons j m =>
        rw [List.map_cons, List.map_cons, List.flatten_cons, List.flatten_cons, List.append_assoc, List.append_assoc,
          List.append_assoc, List.append_assoc] at h2
        have h3 := List.append_cancel_left h2
        rw [joined_inj (i :: l) (j :: m) r r' (by simp) (by simp) (by
          rw [commas_flat, commas_flat, List.append_assoc, List.append_assoc]; exact h3)]

theorem iterToString_inj {l m : List Int} (h : iterToString l = iterToString m) : l = m := by
  rw [iterToString_eq, iterToString_eq] at h
  simp only [List.cons_append, List.nil_append, List.cons.injEq, true_and] at h
  have first : ∀ (i : Int) (l : List Int), commas ((i :: l).map fun i => (toString i).toList) ++ [']'] ≠ [']'] := by
    intro i l e
    rw [commas_flat, List.append_assoc] at e
    obtain ⟨h1, h2⟩ := int_text i
    cases ht : (toString i).toList with
    | nil => exact h1 ht
    | cons c x =>
      rw [ht] at e
      injection e with e _
      have := h2 c (by rw [ht]; simp)
      rw [e] at this
      exact absurd this (by decide)
  cases l with
  | nil =>
    cases m with
    | nil => rfl
    | cons j m => exact absurd h.symm (first j m)
  | cons i l =>
    cases m with
    | nil => exact absurd h (first i l)
    | cons j m => exact joined_inj (i :: l) (j :: m) [] [] (by simp) (by simp) h

end INNC
