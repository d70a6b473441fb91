import Verif.Spec.Rounding
import Verif.Lemmas.LinkedRun
import Mathlib.Tactic.Linarith
import Mathlib.Tactic.Ring
import Mathlib.Tactic.FieldSimp
import Mathlib.Tactic.Positivity
/-
Arithmetic on balls is sound: it contains the rounded results, and its centres are the exact results.
-/
namespace INNC
open Spec Tensor
section
variable {F K : Type} [FOps F] [Field K] [LinearOrder K] [IsStrictOrderedRing K]

theorem round_within {r : Rounding F K} {t : DType} {tiny c e p : K} {x : F} (htiny : 0 ≤ tiny) (hp : |p - c| ≤ e)
    (hx : |p| ≤ r.top t → r.finite x ∧ |r.val x - p| ≤ r.u t * |p| + tiny ∧ (r.repr t p = true → r.val x = p)) :
    InBall r x (Ball.round r t tiny c e) := by
  intro c₁ e₁ he
  change Ball.round r t tiny c e = .around c₁ e₁ at he
  unfold Ball.round at he
  have hpc : |p| ≤ |c| + e := by
    have : |p| ≤ |p - c| + |c| := by simpa using abs_add_le (p - c) c
    linarith
  have hu := r.u_nonneg t
  split at he
  · rename_i htop
    obtain ⟨hf, hv, hr⟩ := hx (le_trans hpc htop)
    split at he
    · rename_i h0
      cases he
      rw [h0.1] at hp
      have hpe : p = c := sub_eq_zero.1 (abs_nonpos_iff.1 hp)
      refine ⟨hf, ?_⟩
      rw [hr (hpe ▸ h0.2), hpe]
      simp
    · cases he
      refine ⟨hf, ?_⟩
      have : |r.val x - c| ≤ |r.val x - p| + |p - c| := abs_sub_le _ _ _
      have : r.u t * |p| ≤ r.u t * (|c| + e) := mul_le_mul_of_nonneg_left hpc hu
      linarith
  · cases he

omit [IsStrictOrderedRing K] in
theorem round_centre {r : Rounding F K} {t : DType} {tiny c e c' e' : K} (h : Ball.round r t tiny c e = .around c' e') : c' = c := by
  unfold Ball.round at h
  split at h
  · split at h <;> (cases h; rfl)
  · cases h

theorem abs_mul_error {a b c c' e e' : K} (ha : |a - c| ≤ e) (hb : |b - c'| ≤ e') :
    |a * b - c * c'| ≤ |c| * e' + |c'| * e + e * e' := by
  have h1 : a * b - c * c' = c * (b - c') + c' * (a - c) + (a - c) * (b - c') := by ring
  rw [h1]
  have he : 0 ≤ e := le_trans (abs_nonneg _) ha
  refine le_trans (abs_add_le _ _) (add_le_add (le_trans (abs_add_le _ _) (add_le_add ?_ ?_)) ?_)
  · rw [abs_mul]; exact mul_le_mul_of_nonneg_left hb (abs_nonneg _)
  · rw [abs_mul]; exact mul_le_mul_of_nonneg_left ha (abs_nonneg _)
  · rw [abs_mul]; exact mul_le_mul ha hb (abs_nonneg _) he

theorem abs_div_error {a b c c' e e' : K} (ha : |a - c| ≤ e) (hb : |b - c'| ≤ e') (hc : e' < |c'|) :
    b ≠ 0 ∧ |a / b - c / c'| ≤ (|c| * e' + |c'| * e) / (|c'| * (|c'| - e')) := by
  have he' : 0 ≤ e' := le_trans (abs_nonneg _) hb
  have hc' : 0 < |c'| := lt_of_le_of_lt he' hc
  have hbl : |c'| - e' ≤ |b| := by
    have : |c'| ≤ |c' - b| + |b| := by simpa using abs_add_le (c' - b) b
    rw [abs_sub_comm] at this
    linarith
  have hbp : 0 < |b| := lt_of_lt_of_le (by linarith) hbl
  have hb0 : b ≠ 0 := abs_pos.1 hbp
  have hc0 : c' ≠ 0 := abs_pos.1 hc'
  refine ⟨hb0, ?_⟩
  have h1 : a / b - c / c' = ((a - c) * c' - c * (b - c')) / (c' * b) := by
    field_simp
    ring
  rw [h1, abs_div, abs_mul]
  have hn : |(a - c) * c' - c * (b - c')| ≤ |c| * e' + |c'| * e := by
    refine le_trans (abs_sub _ _) ?_
    rw [abs_mul, abs_mul, add_comm]
    refine add_le_add (mul_le_mul_of_nonneg_left hb (abs_nonneg _)) ?_
    rw [mul_comm]
    exact mul_le_mul_of_nonneg_left ha (abs_nonneg _)
  refine div_le_div₀ (le_trans (abs_nonneg _) hn) hn (mul_pos hc' (by linarith)) ?_
  exact mul_le_mul_of_nonneg_left hbl (abs_nonneg _)

theorem abs_add_error {a b c c' e e' : K} (ha : |a - c| ≤ e) (hb : |b - c'| ≤ e') : |a + b - (c + c')| ≤ e + e' := by
  have : a + b - (c + c') = (a - c) + (b - c') := by ring
  rw [this]
  exact le_trans (abs_add_le _ _) (add_le_add ha hb)

theorem abs_sub_error {a b c c' e e' : K} (ha : |a - c| ≤ e) (hb : |b - c'| ≤ e') : |a - b - (c - c')| ≤ e + e' := by
  have : a - b - (c - c') = (a - c) - (b - c') := by ring
  rw [this]
  exact le_trans (abs_sub _ _) (add_le_add ha hb)

omit [IsStrictOrderedRing K] in
theorem within_none (r : Rounding F K) (x : F) : InBall r x .unknown := fun _ _ e => by cases e

theorem within_preserved (r : Rounding F K) : Preserved (fun _ => InBall r) where
  zero := fun _ c e h => by
    cases h
    exact ⟨r.zero.1, by rw [r.zero.2]; simp⟩
  ofInt := fun t n => by
    refine round_within (p := (n : K)) le_rfl (by simp) fun h => ?_
    rw [add_zero]
    exact r.ofInt t n h
  cvt := fun _ t x b h => by
    cases b with
    | unknown => exact within_none r _
    | around c e =>
      obtain ⟨hf, hv⟩ := h _ _ rfl
      exact round_within (r.tiny_nonneg t) hv fun h => r.cvt t x hf h
  add := fun t a a' b b' ha hb => by
    cases a' with
    | unknown => exact within_none r _
    | around c e =>
      cases b' with
      | unknown => exact within_none r _
      | around c' e' =>
        obtain ⟨hf, hv⟩ := ha _ _ rfl
        obtain ⟨hf', hv'⟩ := hb _ _ rfl
        exact round_within (r.slack_nonneg t) (abs_add_error hv hv') fun h => r.add t a b hf hf' h
  sub := fun t a a' b b' ha hb => by
    cases a' with
    | unknown => exact within_none r _
    | around c e =>
      cases b' with
      | unknown => exact within_none r _
      | around c' e' =>
        obtain ⟨hf, hv⟩ := ha _ _ rfl
        obtain ⟨hf', hv'⟩ := hb _ _ rfl
        exact round_within (r.slack_nonneg t) (abs_sub_error hv hv') fun h => r.sub t a b hf hf' h
  mul := fun t a a' b b' ha hb => by
    cases a' with
    | unknown => exact within_none r _
    | around c e =>
      cases b' with
      | unknown => exact within_none r _
      | around c' e' =>
        obtain ⟨hf, hv⟩ := ha _ _ rfl
        obtain ⟨hf', hv'⟩ := hb _ _ rfl
        exact round_within (r.tiny_nonneg t) (abs_mul_error hv hv') fun h => r.mul t a b hf hf' h
  div := fun t a a' b b' ha hb => by
    cases a' with
    | unknown => exact within_none r _
    | around c e =>
      cases b' with
      | unknown => exact within_none r _
      | around c' e' =>
        obtain ⟨hf, hv⟩ := ha _ _ rfl
        obtain ⟨hf', hv'⟩ := hb _ _ rfl
        show InBall r _ (if e' < |c'| then Ball.round r t (r.tiny t) (c / c') ((|c| * e' + |c'| * e) / (|c'| * (|c'| - e'))) else .unknown)
        by_cases hlt : e' < |c'|
        · rw [if_pos hlt]
          obtain ⟨h0, hd⟩ := abs_div_error hv hv' hlt
          exact round_within (r.tiny_nonneg t) hd fun h => r.div t a b hf hf' h0 h
        · rw [if_neg hlt]
          exact within_none r _
  neg := fun _ x b h => by
    cases b with
    | unknown => exact within_none r _
    | around c e =>
      intro c₁ e₁ he
      cases he
      obtain ⟨hf, hv⟩ := h _ _ rfl
      obtain ⟨hf', hv'⟩ := r.neg x hf
      refine ⟨hf', ?_⟩
      rw [hv', neg_sub_neg, abs_sub_comm]
      exact hv
  toInt := fun _ x b n _ h => by cases h

variable [FOps K] [Exact K]

omit [IsStrictOrderedRing K] in
theorem centre_preserved (r : Rounding F K) : Preserved (fun _ => Centre r) where
  zero := fun _ c e h => by
    cases h
    exact Exact.zero
  ofInt := fun t n c e h => by
    rw [round_centre h]
    exact Exact.ofInt t n
  cvt := fun _ t x b h => by
    rw [Exact.cvt]
    cases b with
    | unknown => exact fun _ _ e => by cases e
    | around c e => exact fun c₁ e₁ he => by rw [round_centre he]; exact h _ _ rfl
  add := fun t a a' b b' ha hb => by
    rw [Exact.add]
    cases a' with
    | unknown => exact fun _ _ e => by cases e
    | around c e =>
      cases b' with
      | unknown => exact fun _ _ e => by cases e
      | around c' e' => exact fun c₁ e₁ he => by rw [round_centre he, ← ha _ _ rfl, ← hb _ _ rfl]
  sub := fun t a a' b b' ha hb => by
    rw [Exact.sub]
    cases a' with
    | unknown => exact fun _ _ e => by cases e
    | around c e =>
      cases b' with
      | unknown => exact fun _ _ e => by cases e
      | around c' e' => exact fun c₁ e₁ he => by rw [round_centre he, ← ha _ _ rfl, ← hb _ _ rfl]
  mul := fun t a a' b b' ha hb => by
    rw [Exact.mul]
    cases a' with
    | unknown => exact fun _ _ e => by cases e
    | around c e =>
      cases b' with
      | unknown => exact fun _ _ e => by cases e
      | around c' e' => exact fun c₁ e₁ he => by rw [round_centre he, ← ha _ _ rfl, ← hb _ _ rfl]
  div := fun t a a' b b' ha hb => by
    rw [Exact.div]
    cases a' with
    | unknown => exact fun _ _ e => by cases e
    | around c e =>
      cases b' with
      | unknown => exact fun _ _ e => by cases e
      | around c' e' =>
        intro c₁ e₁ he
        change (if e' < |c'| then Ball.round r t (r.tiny t) (c / c') ((|c| * e' + |c'| * e) / (|c'| * (|c'| - e')))
          else .unknown) = .around c₁ e₁ at he
        split at he
        · rw [round_centre he, ← ha _ _ rfl, ← hb _ _ rfl]
        · cases he
  neg := fun _ x b h => by
    rw [Exact.neg]
    cases b with
    | unknown => exact fun _ _ e => by cases e
    | around c e => exact fun c₁ e₁ he => by cases he; rw [← h _ _ rfl]
  toInt := fun _ x b n _ h => by cases h

end
end INNC
