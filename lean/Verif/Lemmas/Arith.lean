import Verif.Model.Layout
import Verif.Model.Scalar
import Mathlib.Tactic.Ring
import Mathlib.Tactic.Linarith
/-
Machine arithmetic: `wrapU`, `wrapS`, `fitsS`.
-/
namespace INNC

theorem wrapU_cast (z : Int) : ((wrapU z : Nat) : Int) = z % 18446744073709551616 := by
  unfold wrapU
  exact Int.toNat_of_nonneg (Int.emod_nonneg _ (by decide))

theorem wrapU_lt (z : Int) : wrapU z < 18446744073709551616 := by
  have h := wrapU_cast z
  have := Int.emod_lt_of_pos z (show (0 : Int) < 18446744073709551616 by decide)
  omega

theorem wrapU_eq_toNat {z : Int} (h0 : 0 ≤ z) (h1 : z < 18446744073709551616) : wrapU z = z.toNat := by
  have h := wrapU_cast z
  rw [Int.emod_eq_of_lt h0 h1] at h
  omega

theorem wrapU_natCast {n : Nat} (h : n < 18446744073709551616) : wrapU (n : Int) = n := by
  rw [wrapU_eq_toNat (by omega) (by omega)]; simp

theorem wrapU_congr {a b : Int} (h : a % 18446744073709551616 = b % 18446744073709551616) : wrapU a = wrapU b := by
  unfold wrapU; rw [h]

theorem wrapU_add_wrapU (a b : Int) : wrapU (a + (wrapU b : Int)) = wrapU (a + b) := by
  apply wrapU_congr; rw [wrapU_cast]; simp

theorem wrapU_wrapU_add (a b : Int) : wrapU ((wrapU a : Int) + b) = wrapU (a + b) := by
  apply wrapU_congr; rw [wrapU_cast]; simp

theorem wrapU_mul_wrapU (a b : Int) : wrapU (a * (wrapU b : Int)) = wrapU (a * b) := by
  apply wrapU_congr; rw [wrapU_cast]; simp [Int.mul_emod]

theorem wrapU_wrapU_mul (a b : Int) : wrapU ((wrapU a : Int) * b) = wrapU (a * b) := by
  apply wrapU_congr; rw [wrapU_cast]; simp [Int.mul_emod]

theorem wrapS_emod (z : Int) : wrapS z % 18446744073709551616 = z % 18446744073709551616 := by
  unfold wrapS; exact_mod_cast Int.bmod_emod (x := z) (m := 18446744073709551616)

theorem wrapS_eq_self {z : Int} (h0 : -9223372036854775808 ≤ z) (h1 : z < 9223372036854775808) : wrapS z = z := by
  unfold wrapS; rw [Int.bmod_eq_of_le_mul_two] <;> omega

theorem wrapS_lt (z : Int) : wrapS z < 9223372036854775808 := by
  have := Int.bmod_lt (x := z) (m := 18446744073709551616) (by decide)
  unfold wrapS; omega

theorem wrapS_ge (z : Int) : -9223372036854775808 ≤ wrapS z := by
  have := Int.le_bmod (x := z) (m := 18446744073709551616) (by decide)
  unfold wrapS; omega

theorem wrapS_congr {a b : Int} (h : a % 18446744073709551616 = b % 18446744073709551616) : wrapS a = wrapS b := by
  unfold wrapS
  rw [← Int.emod_bmod (x := a), ← Int.emod_bmod (x := b)]
  exact congrArg (fun z => Int.bmod z _) (by exact_mod_cast h)

theorem wrapS_wrapS_mul (a b : Int) : wrapS (wrapS a * b) = wrapS (a * b) := by
  apply wrapS_congr; rw [Int.mul_emod, wrapS_emod, ← Int.mul_emod]

theorem fitsS_iff {z : Int} : fitsS z = true ↔ -9223372036854775808 ≤ z ∧ z < 9223372036854775808 := by
  simp [fitsS]

theorem sMul_ok {a b : Int} (h : fitsS (a * b) = true) : sMul a b = .ok (a * b) := by simp [sMul, h]

end INNC
