import Verif.Spec.Rounding
import Verif.Spec.Rational
import Mathlib.Data.Int.Log
import Mathlib.Data.Rat.Floor
import Mathlib.Algebra.Order.Round
import Mathlib.Tactic.Linarith
import Mathlib.Tactic.FieldSimp
/-
A rounded arithmetic for the worked examples: binary floating-point numbers with 24 (`f32`) or 53 (`f64`) significant bits,
rounded to nearest (ties upwards), with an unlimited exponent. It shows that the standard model of `Spec/Rounding.lean` can be met.
-/
namespace INNC.Spec

/-- `q` rounded to `p` significant bits. -/
def roundTo (p : Nat) (q : ℚ) : ℚ :=
  round (q * 2 ^ ((p : ℤ) - 1 - Int.log 2 |q|)) / 2 ^ ((p : ℤ) - 1 - Int.log 2 |q|)

/-- Significant bits of the formats. -/
def precision (t : DType) : Nat := if t = .f32 then 24 else 53

/-- A binary floating-point number. -/
structure Bin where
  q : ℚ
  deriving DecidableEq

/-- The exact operation followed by rounding. -/
instance binFloat : FOps Bin where
  zero := ⟨0⟩
  ofInt t n := ⟨roundTo (precision t) n⟩
  toInt x := some (x.q.num.tdiv x.q.den)
  cvt t x := ⟨roundTo (precision t) x.q⟩
  add t x y := ⟨roundTo (precision t) (x.q + y.q)⟩
  sub t x y := ⟨roundTo (precision t) (x.q - y.q)⟩
  mul t x y := ⟨roundTo (precision t) (x.q * y.q)⟩
  div t x y := ⟨roundTo (precision t) (x.q / y.q)⟩
  neg x := ⟨-x.q⟩
  lt x y := decide (x.q < y.q)
  le x y := decide (x.q ≤ y.q)
  eq x y := decide (x.q = y.q)
  toStr x := (toString x.q).toList
  byte _ _ _ := 0

/-- Rounding to `p` bits changes a number by at most the fraction `2^-p` of it. -/
theorem roundTo_error (p : Nat) (q : ℚ) : |roundTo p q - q| ≤ 1 / 2 ^ p * |q| := by
  unfold roundTo
  by_cases h0 : q = 0
  · simp [h0]
  · have hq : 0 < |q| := abs_pos.2 h0
    set s : ℚ := 2 ^ ((p : ℤ) - 1 - Int.log 2 |q|) with hs
    have hs0 : 0 < s := zpow_pos (by norm_num) _
    have h1 : (round (q * s) : ℚ) / s - q = (round (q * s) - q * s) / s := by field_simp
    rw [h1, abs_div, abs_of_pos hs0, abs_sub_comm]
    have h2 := abs_sub_round (q * s)
    have h3 : (2 : ℚ) ^ Int.log 2 |q| ≤ |q| := by
      have := Int.zpow_log_le_self (b := 2) (by norm_num) hq
      simpa using this
    have h4 : 1 / 2 / s = 1 / 2 ^ p * 2 ^ Int.log 2 |q| := by
      rw [hs, zpow_sub₀ (by norm_num), zpow_sub₀ (by norm_num), zpow_natCast, zpow_one]
      field_simp
    refine le_trans (div_le_div_of_nonneg_right h2 hs0.le) ?_
    rw [h4]
    exact mul_le_mul_of_nonneg_left h3 (by positivity)

/-- Binary floating-point numbers meet the standard model; overflow is assumed beyond `2^127` and `2^1023`. -/
def binRounding : Rounding Bin ℚ where
  val x := x.q
  finite _ := True
  u t := 1 / 2 ^ precision t
  tiny _ := 0
  slack _ := 0
  top t := if t = .f32 then 2 ^ 127 else 2 ^ 1023
  repr t c := decide (roundTo (precision t) c = c)
  u_nonneg t := by positivity
  tiny_nonneg _ := le_rfl
  slack_nonneg _ := le_rfl
  slack_f64 := rfl
  zero := ⟨trivial, rfl⟩
  ofInt t n _ := ⟨trivial, roundTo_error _ _, fun h => of_decide_eq_true h⟩
  cvt t x _ _ := ⟨trivial, by rw [add_zero]; exact roundTo_error _ _, fun h => of_decide_eq_true h⟩
  neg x _ := ⟨trivial, rfl⟩
  add t x y _ _ _ := ⟨trivial, by rw [add_zero]; exact roundTo_error _ _, fun h => of_decide_eq_true h⟩
  sub t x y _ _ _ := ⟨trivial, by rw [add_zero]; exact roundTo_error _ _, fun h => of_decide_eq_true h⟩
  mul t x y _ _ _ := ⟨trivial, by rw [add_zero]; exact roundTo_error _ _, fun h => of_decide_eq_true h⟩
  div t x y _ _ _ _ := ⟨trivial, by rw [add_zero]; exact roundTo_error _ _, fun h => of_decide_eq_true h⟩

example : roundTo 53 3 = 3 := by decide +kernel
example : roundTo 53 (1/10) = 3602879701896397/36028797018963968 := by decide +kernel
example : roundTo 24 (16777217) = 16777218 := by decide +kernel

end INNC.Spec
