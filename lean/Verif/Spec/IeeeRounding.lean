import Mathlib.Algebra.Order.Field.Rat
import Mathlib.Tactic.Linarith
import Mathlib.Tactic.FieldSimp
import Mathlib.Tactic.Positivity
import Mathlib.Tactic.Ring
import Mathlib.Data.Nat.Log
import Verif.Spec.Ieee
import Verif.Spec.Rounding
/-
IEEE arithmetic meets the standard model of floating-point arithmetic (`Rounding`).
-/
namespace INNC.Spec
namespace Ieee

theorem one_pos : (0 : ℚ) < one := by
  unfold one; exact_mod_cast Nat.two_pow_pos 1074

theorem one_eq : one = 2 ^ 1074 := rfl

attribute [local irreducible] one

theorem nearest_error (a : Nat) {b : Nat} (hb : 0 < b) :
    2 * ((nearest a b * b : Nat) : Int) ≤ 2 * a + b ∧ 2 * (a : Int) ≤ 2 * ((nearest a b * b : Nat) : Int) + b := by
  have h1 : (b : Int) * (a / b : Nat) + (a % b : Nat) = a := by exact_mod_cast Nat.div_add_mod a b
  have h2 : ((a % b : Nat) : Int) < b := by exact_mod_cast Nat.mod_lt a hb
  have h3 : (0 : Int) ≤ (a % b : Nat) := Int.natCast_nonneg _
  unfold nearest
  split
  · rename_i h
    have h : 2 * ((a % b : Nat) : Int) < b := by exact_mod_cast h
    push_cast at *
    constructor <;> nlinarith
  · rename_i h
    have h : (b : Int) ≤ 2 * ((a % b : Nat) : Int) := by exact_mod_cast Nat.le_of_not_lt h
    split
    · push_cast at *
      constructor <;> nlinarith
    · rename_i h'
      have h' : 2 * ((a % b : Nat) : Int) ≤ b := by exact_mod_cast Nat.le_of_not_lt h'
      split <;> (push_cast at *; constructor <;> nlinarith)

theorem roundUnits_error (t : DType) (a : Nat) {b : Nat} (hb : 0 < b) :
    |(roundUnits t a b : ℚ) - a / b| ≤ 2 ^ place t a b / 2 := by
  have hd : 0 < b * 2 ^ place t a b := Nat.mul_pos hb (Nat.two_pow_pos _)
  obtain ⟨h1, h2⟩ := nearest_error a hd
  have h1' : 2 * ((nearest a (b * 2 ^ place t a b) * (b * 2 ^ place t a b) : Nat) : ℚ) ≤ 2 * a + (b * 2 ^ place t a b : Nat) := by
    exact_mod_cast h1
  have h2' : 2 * (a : ℚ) ≤ 2 * ((nearest a (b * 2 ^ place t a b) * (b * 2 ^ place t a b) : Nat) : ℚ) + (b * 2 ^ place t a b : Nat) := by
    exact_mod_cast h2
  have hb' : (0 : ℚ) < b := by exact_mod_cast hb
  unfold roundUnits
  push_cast at *
  rw [abs_le]
  constructor
  · rw [neg_le, neg_sub, sub_le_iff_le_add, div_le_iff₀ hb']; nlinarith
  · rw [sub_le_iff_le_add, ← sub_le_iff_le_add', le_div_iff₀ hb']; nlinarith

theorem digits_pos (t : DType) : 24 ≤ digits t := by unfold digits; split <;> decide

theorem div_le_div_cast (a b : Nat) : ((a / b : Nat) : ℚ) ≤ (a : ℚ) / b := by
  rcases Nat.eq_zero_or_pos b with rfl | hb
  · simp
  · have hb' : (0 : ℚ) < b := by exact_mod_cast hb
    rw [le_div_iff₀ hb']
    exact_mod_cast Nat.div_mul_le_self a b

/-- The last place is that of the leading bit, or the smallest. -/
theorem place_le (t : DType) (a : Nat) {b : Nat} (hb : 0 < b) :
    (2 : ℚ) ^ place t a b / 2 ≤ 1 / 2 ^ digits t * (a / b) ∨ place t a b = low t ∧ ((a / b).log2 + 1 - digits t) ≤ low t := by
  by_cases h : (a / b).log2 + 1 - digits t ≤ low t
  · exact .inr ⟨by unfold place; omega, h⟩
  · refine .inl ?_
    have hp := digits_pos t
    have hpl : place t a b = (a / b).log2 + 1 - digits t := by unfold place; omega
    have h0 : a / b ≠ 0 := fun h0 => by rw [h0] at h; simp at h; omega
    have h1 : (2 : ℚ) ^ (a / b).log2 ≤ (a / b : Nat) := by exact_mod_cast Nat.log2_self_le h0
    have h2 : ((a / b : Nat) : ℚ) ≤ a / b := div_le_div_cast _ _
    have h3 : (2 : ℚ) ^ place t a b * 2 ^ digits t = 2 * 2 ^ (a / b).log2 := by
      rw [← pow_add, ← pow_succ', hpl]; congr 1; omega
    have h4 : (0 : ℚ) < 2 ^ digits t := by positivity
    rw [one_div_mul_eq_div, le_div_iff₀ h4]
    nlinarith

theorem place_high {t : DType} {a b : Nat} (h : a / b < 2 ^ high t) : place t a b ≤ high t - digits t := by
  have h2 : low t ≤ high t - digits t := by unfold low high digits; split <;> decide
  have h1 : (a / b).log2 < high t := by
    by_cases h0 : a / b = 0
    · rw [h0]; unfold high; split <;> decide
    · exact (Nat.log2_lt h0).2 h
  unfold place
  omega

/-- The largest number of the format, in units. -/
def maxUnits (t : DType) : ℚ := 2 ^ high t - 2 ^ (high t - digits t)

theorem roundUnits_fits {t : DType} {a b : Nat} (hb : 0 < b) (h : (a : ℚ) / b ≤ maxUnits t) : roundUnits t a b < 2 ^ high t := by
  have h0 : (0 : ℚ) < 2 ^ (high t - digits t) := by positivity
  have h1 : a / b < 2 ^ high t := by
    have : ((a / b : Nat) : ℚ) < 2 ^ high t := by
      refine lt_of_le_of_lt (div_le_div_cast _ _) (lt_of_le_of_lt h ?_)
      unfold maxUnits; linarith
    exact_mod_cast this
  have h2 := (abs_le.1 (roundUnits_error t a hb)).2
  have h3 : (2 : ℚ) ^ place t a b ≤ 2 ^ (high t - digits t) := pow_le_pow_right₀ (by norm_num) (place_high h1)
  have h4 : (roundUnits t a b : ℚ) < 2 ^ high t := by unfold maxUnits at h; linarith
  exact_mod_cast h4

theorem nearest_mul (k : Nat) {b d : Nat} (hb : 0 < b) : nearest (k * b) (b * d) = nearest k d := by
  have h1 : k * b / (b * d) = k / d := by rw [Nat.mul_comm k b, Nat.mul_div_mul_left _ _ hb]
  have h2 : k * b % (b * d) = b * (k % d) := by rw [Nat.mul_comm k b, Nat.mul_mod_mul_left]
  unfold nearest
  rw [h1, h2]
  have e1 : 2 * (b * (k % d)) < b * d ↔ 2 * (k % d) < d := by
    rw [Nat.mul_left_comm]; exact Nat.mul_lt_mul_left hb
  have e2 : b * d < 2 * (b * (k % d)) ↔ d < 2 * (k % d) := by
    rw [Nat.mul_left_comm]; exact Nat.mul_lt_mul_left hb
  simp only [e1, e2]

/-- Only the value counts, not the fraction it is written as. -/
theorem roundUnits_mul (t : DType) (k : Nat) {b : Nat} (hb : 0 < b) : roundUnits t (k * b) b = roundUnits t k 1 := by
  have hp : place t (k * b) b = place t k 1 := by
    unfold place; rw [Nat.mul_div_cancel _ hb, Nat.div_one]
  unfold roundUnits
  rw [hp, nearest_mul k hb, Nat.one_mul]

/-- The number a finite float stands for. -/
def value : Ieee → ℚ
  | .fin s k => signed s k / one
  | _ => 0

def isFinite : Ieee → Prop
  | .fin _ _ => True
  | _ => False

instance : DecidablePred isFinite
  | .fin _ _ => .isTrue trivial
  | .inf _ => .isFalse id
  | .nan => .isFalse id

/-- The format has this number. -/
def represents (t : DType) (c : ℚ) : Bool :=
  decide ((c * one).den = 1) && decide (roundUnits t (c * one).num.natAbs 1 = (c * one).num.natAbs)

theorem value_fin (s : Bool) (k : Nat) : value (.fin s k) = (if s then -1 else 1) * ((k : ℚ) / one) := by
  unfold value signed
  cases s <;> simp [neg_div]

theorem abs_sign (s : Bool) (x : ℚ) : |(if s then (-1 : ℚ) else 1) * x| = |x| := by cases s <;> simp

/-- What rounding does to `c = ± a / b · 2^-1074`. -/
theorem pack_ok {t : DType} {s : Bool} {a b : Nat} (hb : 0 < b) {c : ℚ} (hc : c = (if s then -1 else 1) * ((a : ℚ) / b / one))
    (ht : |c| ≤ maxUnits t / one) :
    isFinite (pack t s a b) ∧
      |value (pack t s a b) - c| = |(roundUnits t a b : ℚ) - a / b| / one ∧ (represents t c = true → value (pack t s a b) = c) := by
  have hU : (0 : ℚ) < one := one_pos
  have hq : (0 : ℚ) ≤ (a : ℚ) / b := by positivity
  have habs : |c| = (a : ℚ) / b / one := by rw [hc, abs_sign, abs_of_nonneg (by positivity)]
  have hfit : roundUnits t a b < 2 ^ high t := by
    refine roundUnits_fits hb ?_
    rw [habs] at ht
    exact (div_le_div_iff_of_pos_right hU).1 ht
  have hp : pack t s a b = .fin s (roundUnits t a b) := by unfold pack; rw [if_pos hfit]
  rw [hp, value_fin]
  refine ⟨trivial, ?_, fun hr => ?_⟩
  · rw [hc, ← mul_sub, abs_sign, ← sub_div, abs_div, abs_of_pos hU]
  · unfold represents at hr
    rw [Bool.and_eq_true, decide_eq_true_eq, decide_eq_true_eq] at hr
    obtain ⟨h1, h2⟩ := hr
    have hcn : c * one = ((c * one).num : ℚ) := (Rat.den_eq_one_iff _).1 h1 |>.symm
    generalize (c * one).num = n at h2 hcn
    have hab : (a : ℚ) / b = n.natAbs := by
      have : |c * one| = (a : ℚ) / b := by
        rw [abs_mul, habs, abs_of_pos hU, div_mul_cancel₀ _ (ne_of_gt hU)]
      rw [← this, hcn, Nat.cast_natAbs, Int.cast_abs]
    have hb' : (b : ℚ) ≠ 0 := by exact_mod_cast ne_of_gt hb
    have ha : a = n.natAbs * b := by
      rw [div_eq_iff hb'] at hab
      exact_mod_cast hab
    have hru : roundUnits t a b = n.natAbs := by rw [ha, roundUnits_mul t _ hb, h2]
    rw [hru, hc, hab]

/-- Relative error where the last place is not the smallest, absolute error otherwise. -/
theorem error_bound (t : DType) (a : Nat) {b : Nat} (hb : 0 < b) {c : ℚ} (habs : |c| = (a : ℚ) / b / one) :
    |(roundUnits t a b : ℚ) - a / b| / one ≤ 1 / 2 ^ digits t * |c| + 2 ^ low t / 2 / one := by
  have hU : (0 : ℚ) < one := one_pos
  have h3 : (0 : ℚ) ≤ 2 ^ low t / 2 / one := by positivity
  have h4 : 0 ≤ 1 / 2 ^ digits t * |c| := mul_nonneg (by positivity) (abs_nonneg _)
  have h5 := (div_le_div_iff_of_pos_right hU).2 (roundUnits_error t a hb)
  rcases place_le t a hb with h | ⟨h, _⟩
  · have : (2 : ℚ) ^ place t a b / 2 / one ≤ 1 / 2 ^ digits t * |c| := by
      rw [habs, ← mul_div_assoc]; exact (div_le_div_iff_of_pos_right hU).2 h
    linarith
  · rw [h] at h5; linarith

/-- Numbers far from underflow have a relative error only. -/
theorem error_bound_normal (t : DType) (a : Nat) {b : Nat} (hb : 0 < b) {c : ℚ} (habs : |c| = (a : ℚ) / b / one)
    (hn : low t < (a / b).log2 + 1 - digits t) : |(roundUnits t a b : ℚ) - a / b| / one ≤ 1 / 2 ^ digits t * |c| := by
  have hU : (0 : ℚ) < one := one_pos
  refine ((div_le_div_iff_of_pos_right hU).2 (roundUnits_error t a hb)).trans ?_
  rcases place_le t a hb with h | ⟨_, h⟩
  · rw [habs, ← mul_div_assoc]; exact (div_le_div_iff_of_pos_right hU).2 h
  · omega

theorem nearest_one (a : Nat) : nearest a 1 = a := by
  unfold nearest
  rw [Nat.mod_one, Nat.div_one, if_pos (by decide)]

theorem signed_eq (s : Bool) (k : Nat) : (signed s k : ℚ) = (if s then -1 else 1) * (k : ℚ) := by
  unfold signed; cases s <;> simp

theorem decide_sign (n : Int) : (n : ℚ) = (if decide (n < 0) then -1 else 1) * ((n.natAbs : Nat) : ℚ) := by
  by_cases h : n < 0
  · rw [if_pos (by simpa using h), Nat.cast_natAbs, abs_of_neg h]; push_cast; ring
  · rw [if_neg (by simpa using h), Nat.cast_natAbs, abs_of_nonneg (by omega)]; simp

/-- Absolute error of an addition: none in `f64`, whose smallest number divides all others. -/
def addSlack (t : DType) : ℚ := if t = .f32 then 2 ^ low t / 2 / one else 0

theorem xor_sign (s s' : Bool) : (if (s != s') then (-1 : ℚ) else 1) = (if s then -1 else 1) * (if s' then -1 else 1) := by
  cases s <;> cases s' <;> simp

theorem fin_of {x : Ieee} (h : isFinite x) : ∃ s k, x = .fin s k := by
  cases x with
  | fin s k => exact ⟨s, k, rfl⟩
  | inf s => exact h.elim
  | nan => exact h.elim

theorem error_bound_int (t : DType) (a : Nat) {c : ℚ} (habs : |c| = (a : ℚ) / (1 : Nat) / one) :
    |(roundUnits t a 1 : ℚ) - a / (1 : Nat)| / one ≤ 1 / 2 ^ digits t * |c| + addSlack t := by
  have hU : (0 : ℚ) < one := one_pos
  by_cases hf : t = .f32
  · have := error_bound t a Nat.one_pos habs
    unfold addSlack; rw [if_pos hf]; exact this
  · unfold addSlack
    rw [if_neg hf, add_zero]
    have hl : low t = 0 := by unfold low; rw [if_neg hf]
    by_cases hn : low t < (a / 1).log2 + 1 - digits t
    · exact error_bound_normal t a Nat.one_pos habs hn
    · have hp : place t a 1 = 0 := by unfold place; omega
      have hr : roundUnits t a 1 = a := by
        unfold roundUnits; rw [hp, pow_zero, Nat.mul_one, Nat.mul_one, nearest_one]
      rw [hr, Nat.cast_one, div_one, sub_self, abs_zero, zero_div]
      exact mul_nonneg (by positivity) (abs_nonneg _)

theorem plus_fin (t : DType) (s s' : Bool) (k k' : Nat) : plus t (.fin s k) (.fin s' k') =
    if signed s k + signed s' k' = 0 then .fin (s && s') 0
    else pack t (decide (signed s k + signed s' k' < 0)) (signed s k + signed s' k').natAbs 1 := rfl

theorem int_frac (z : Int) : (z : ℚ) / one = (if decide (z < 0) then -1 else 1) * ((z.natAbs : ℚ) / (1 : Nat) / one) := by
  conv_lhs => rw [decide_sign z]
  rw [Nat.cast_one, div_one, mul_div_assoc]

theorem plus_ok (t : DType) (x y : Ieee) (hx : isFinite x) (hy : isFinite y) (ht : |value x + value y| ≤ maxUnits t / one) :
    isFinite (plus t x y) ∧ |value (plus t x y) - (value x + value y)| ≤ 1 / 2 ^ digits t * |value x + value y| + addSlack t ∧
      (represents t (value x + value y) = true → value (plus t x y) = value x + value y) := by
  obtain ⟨s, k, rfl⟩ := fin_of hx
  obtain ⟨s', k', rfl⟩ := fin_of hy
  have hU : (0 : ℚ) < one := one_pos
  have hv : value (.fin s k) + value (.fin s' k') = ((signed s k + signed s' k' : Int) : ℚ) / one := by
    unfold value; push_cast; ring
  have hsl : 0 ≤ addSlack t := by unfold addSlack; split <;> positivity
  rw [hv] at ht ⊢
  rw [plus_fin]
  generalize signed s k + signed s' k' = z at ht ⊢
  by_cases hz : z = 0
  · subst hz
    rw [if_pos rfl]
    have h0 : value (.fin (s && s') 0) = 0 := by rw [value_fin]; simp
    rw [h0]
    refine ⟨trivial, ?_, fun _ => by simp⟩
    simpa using hsl
  · rw [if_neg hz]
    obtain ⟨h1, h2, h3⟩ := pack_ok (t := t) Nat.one_pos (int_frac z) ht
    refine ⟨h1, h2.trans_le (error_bound_int t _ ?_), h3⟩
    rw [int_frac, abs_sign, abs_of_nonneg (by positivity)]

theorem opposite_ok (x : Ieee) (hx : isFinite x) : isFinite (opposite x) ∧ value (opposite x) = -value x := by
  obtain ⟨s, k, rfl⟩ := fin_of hx
  refine ⟨trivial, ?_⟩
  show value (.fin (!s) k) = _
  rw [value_fin, value_fin]
  cases s <;> simp

theorem times_ok (t : DType) (x y : Ieee) (hx : isFinite x) (hy : isFinite y) (ht : |value x * value y| ≤ maxUnits t / one) :
    isFinite (times t x y) ∧ |value (times t x y) - value x * value y| ≤ 1 / 2 ^ digits t * |value x * value y| + 2 ^ low t / 2 / one ∧
      (represents t (value x * value y) = true → value (times t x y) = value x * value y) := by
  obtain ⟨s, k, rfl⟩ := fin_of hx
  obtain ⟨s', k', rfl⟩ := fin_of hy
  have hU : (0 : ℚ) < one := one_pos
  have hc : value (.fin s k) * value (.fin s' k') =
      (if (s != s') then -1 else 1) * (((k * k' : Nat) : ℚ) / (one : Nat) / one) := by
    rw [value_fin, value_fin, xor_sign]; push_cast; ring
  show isFinite (pack t (s != s') (k * k') one) ∧ |value (pack t (s != s') (k * k') one) - _| ≤ _ ∧
    (_ → value (pack t (s != s') (k * k') one) = _)
  obtain ⟨h1, h2, h3⟩ := pack_ok (t := t) (by exact_mod_cast hU) hc ht
  refine ⟨h1, h2.trans_le (error_bound t _ (by exact_mod_cast hU) ?_), h3⟩
  rw [hc, abs_sign, abs_of_nonneg (by positivity)]

theorem over_ok (t : DType) (x y : Ieee) (hx : isFinite x) (hy : isFinite y) (h0 : value y ≠ 0) (ht : |value x / value y| ≤ maxUnits t / one) :
    isFinite (over t x y) ∧ |value (over t x y) - value x / value y| ≤ 1 / 2 ^ digits t * |value x / value y| + 2 ^ low t / 2 / one ∧
      (represents t (value x / value y) = true → value (over t x y) = value x / value y) := by
  obtain ⟨s, k, rfl⟩ := fin_of hx
  obtain ⟨s', k', rfl⟩ := fin_of hy
  have hU : (0 : ℚ) < one := one_pos
  have hk : k' ≠ 0 := fun h => h0 (by rw [value_fin, h]; simp)
  have hk' : (k' : ℚ) ≠ 0 := by exact_mod_cast hk
  have hinv : (if s' then (-1 : ℚ) else 1)⁻¹ = if s' then -1 else 1 := by cases s' <;> norm_num
  have hc : value (.fin s k) / value (.fin s' k') =
      (if (s != s') then -1 else 1) * (((k * one : Nat) : ℚ) / (k' : Nat) / one) := by
    rw [value_fin, value_fin, xor_sign, div_eq_mul_inv, mul_inv, hinv]
    push_cast
    field_simp
  have he : over t (.fin s k) (.fin s' k') = pack t (s != s') (k * one) k' := by
    show (if k' = 0 then _ else _) = _
    rw [if_neg hk]
  rw [he]
  obtain ⟨h1, h2, h3⟩ := pack_ok (t := t) (Nat.pos_of_ne_zero hk) hc ht
  refine ⟨h1, h2.trans_le (error_bound t _ (Nat.pos_of_ne_zero hk) ?_), h3⟩
  rw [hc, abs_sign, abs_of_nonneg (by positivity)]

theorem ofInt_ok (t : DType) (n : Int) (ht : |(n : ℚ)| ≤ maxUnits t / one) :
    isFinite (FOps.ofInt t n : Ieee) ∧ |value (FOps.ofInt t n) - n| ≤ 1 / 2 ^ digits t * |(n : ℚ)| ∧
      (represents t n = true → value (FOps.ofInt t n) = n) := by
  have hU : (0 : ℚ) < one := one_pos
  have hc : (n : ℚ) = (if decide (n < 0) then -1 else 1) * (((n.natAbs * one : Nat) : ℚ) / (1 : Nat) / one) := by
    conv_lhs => rw [decide_sign n]
    push_cast
    field_simp
  show isFinite (pack t (decide (n < 0)) (n.natAbs * one) 1) ∧ |value (pack t (decide (n < 0)) (n.natAbs * one) 1) - n| ≤ _ ∧
    (_ → value (pack t (decide (n < 0)) (n.natAbs * one) 1) = n)
  have habs : |(n : ℚ)| = ((n.natAbs * one : Nat) : ℚ) / (1 : Nat) / one := by
    conv_lhs => rw [hc, abs_sign, abs_of_nonneg (by positivity)]
  obtain ⟨h1, h2, h3⟩ := pack_ok (t := t) Nat.one_pos hc ht
  refine ⟨h1, h2.trans_le ?_, h3⟩
  by_cases hn : n = 0
  · subst hn
    have : roundUnits t (Int.natAbs 0 * one) 1 = 0 := by
      rw [Int.natAbs_zero, Nat.zero_mul]
      unfold roundUnits nearest
      simp
    rw [this]
    simp
  · refine error_bound_normal t _ Nat.one_pos habs ?_
    have h4 : 1074 ≤ (n.natAbs * one / 1).log2 := by
      rw [Nat.div_one]
      have h5 : 1 ≤ n.natAbs := by omega
      rw [Nat.le_log2 (by have : 0 < one := by exact_mod_cast hU
                          exact Nat.mul_ne_zero (by omega) (by omega))]
      calc 2 ^ 1074 = 1 * one := by rw [Nat.one_mul, one_eq]
        _ ≤ _ := Nat.mul_le_mul_right _ h5
    have h6 : low t + digits t ≤ 1000 := by unfold low digits; split <;> decide
    omega

theorem cvt_ok (t : DType) (x : Ieee) (hx : isFinite x) (ht : |value x| ≤ maxUnits t / one) :
    isFinite (FOps.cvt t x) ∧ |value (FOps.cvt t x) - value x| ≤ 1 / 2 ^ digits t * |value x| + 2 ^ low t / 2 / one ∧
      (represents t (value x) = true → value (FOps.cvt t x) = value x) := by
  obtain ⟨s, k, rfl⟩ := fin_of hx
  have hU : (0 : ℚ) < one := one_pos
  have hc : value (.fin s k) = (if s then -1 else 1) * ((k : ℚ) / (1 : Nat) / one) := by rw [value_fin, Nat.cast_one, div_one]
  show isFinite (pack t s k 1) ∧ |value (pack t s k 1) - _| ≤ _ ∧ (_ → value (pack t s k 1) = _)
  obtain ⟨h1, h2, h3⟩ := pack_ok (t := t) Nat.one_pos hc ht
  refine ⟨h1, h2.trans_le (error_bound t _ Nat.one_pos ?_), h3⟩
  rw [hc, abs_sign, abs_of_nonneg (by positivity)]

end Ieee

open Ieee in
/-- IEEE arithmetic meets the standard model: relative error `2^-24` (`f32`) or `2^-53` (`f64`), underflow error `2^-150` or
`2^-1075`, up to the largest finite number. -/
def ieeeRounding : Rounding Ieee ℚ where
  val := value
  finite := isFinite
  u t := 1 / 2 ^ digits t
  tiny t := 2 ^ low t / 2 / one
  slack := addSlack
  top t := maxUnits t / one
  repr := represents
  u_nonneg t := by positivity
  tiny_nonneg t := by positivity
  slack_nonneg t := by unfold addSlack; split <;> positivity
  slack_f64 := rfl
  zero := ⟨trivial, by show value (.fin false 0) = 0; rw [value_fin]; simp⟩
  ofInt := ofInt_ok
  cvt := cvt_ok
  neg := opposite_ok
  add := plus_ok
  sub t x y hx hy ht := by
    obtain ⟨h1, h2⟩ := opposite_ok y hy
    have := plus_ok t x (opposite y) hx h1
    rw [h2, ← sub_eq_add_neg] at this
    exact this ht
  mul := times_ok
  div := over_ok

instance : FComm Ieee where
  add_comm t a b := by
    show Ieee.plus t a b = Ieee.plus t b a
    cases a <;> cases b <;> simp only [Ieee.plus]
    · rw [Int.add_comm, Bool.and_comm]
    · rename_i s s'; cases s <;> cases s' <;> rfl
  mul_comm t a b := by
    show Ieee.times t a b = Ieee.times t b a
    have hx : ∀ s s' : Bool, (s != s') = (s' != s) := by decide
    cases a <;> cases b <;> simp only [Ieee.times]
    · rw [Nat.mul_comm, hx]
    · rw [hx]
    · rw [hx]
    · rw [hx]

end INNC.Spec
