import Verif.Model.Ops
import Verif.Spec.Scalar
import Verif.Lemmas.Layout
import Mathlib.Tactic.Ring
/-
The model's element operations satisfy the specification.
-/
namespace INNC
open Spec
variable {F : Type} [FOps F]

/-- Spell an outcome of the specification as an outcome of the model. -/
def ofOption {α : Type} (u : UB) : Option α → Res α
  | some a => .ok a
  | none => .ub u

theorem larger_eq_later (a b : DType) : DType.larger a b = later a b := by cases a <;> cases b <;> rfl
theorem isInt_eq (a : DType) : a.isInt = isInteger a := by cases a <;> rfl
theorem isFloat_eq (a : DType) : a.isFloat = !isInteger a := by cases a <;> rfl
theorem bits_eq (a : DType) : a.bits = width a := by cases a <;> rfl
theorem width_pos (a : DType) : 0 < width a := by cases a <;> decide
theorem later_comm (a b : DType) : later a b = later b a := by cases a <;> cases b <;> rfl
theorem later_self (a : DType) : later a a = a := by cases a <;> rfl
theorem later_idem (a b : DType) : later a (later a b) = later a b := by cases a <;> cases b <;> rfl

theorem fitsInt_iff {t : DType} {n : Int} : fitsInt t n = true ↔ InRange (width t) n := by
  unfold fitsInt InRange; rw [bits_eq]; simp

theorem two_pow_pred {b : Nat} (hb : 0 < b) : (2 : Int) ^ b = 2 * 2 ^ (b - 1) := by
  obtain ⟨k, rfl⟩ : ∃ k, b = k + 1 := ⟨b - 1, by omega⟩
  simp [Int.pow_succ, Int.mul_comm]

theorem reduce_eq {b : Nat} (hb : 0 < b) (n : Int) : wrapBits b n = reduce b n := by
  unfold wrapBits reduce
  have hp := two_pow_pred hb
  have hpos : (0 : Int) < 2 ^ (b - 1) := by positivity
  generalize hK : (2 : Int) ^ (b - 1) = K at *
  have hc : ((2 ^ b : Nat) : Int) = 2 * K := by push_cast; exact hp
  rw [Int.bmod_eq_emod, hp, hc]
  have h1 := Int.emod_nonneg n (show (2 * K : Int) ≠ 0 by omega)
  have h2 := Int.emod_lt_of_pos n (show (0 : Int) < 2 * K by omega)
  have h3 : ((2 * K + 1) / 2 : Int) = K := by omega
  split
  · rw [Int.add_emod, Int.emod_eq_of_lt (show (0:Int) ≤ K by omega) (by omega)]
    have : (n % (2 * K) + K) % (2 * K) = n % (2 * K) + K - 2 * K := by
      rw [show n % (2 * K) + K = (n % (2 * K) + K - 2 * K) + 2 * K by ring, Int.add_emod_right]
      rw [Int.emod_eq_of_lt] <;> omega
    omega
  · rw [Int.add_emod, Int.emod_eq_of_lt (show (0:Int) ≤ K by omega) (by omega)]
    rw [Int.emod_eq_of_lt (a := n % (2 * K) + K) (by omega) (by omega)]
    omega

theorem reduce_self {b : Nat} (hb : 0 < b) {n : Int} (h : InRange b n) : reduce b n = n := by
  unfold reduce InRange at *
  have hp := two_pow_pred hb
  rw [hp, Int.emod_eq_of_lt] <;> omega

theorem reduce_inRange {b : Nat} (hb : 0 < b) (n : Int) : InRange b (reduce b n) := by
  unfold reduce InRange
  have hp := two_pow_pred hb
  have hpos : (0 : Int) < 2 ^ (b - 1) := by positivity
  have h1 := Int.emod_nonneg (n + 2 ^ (b - 1)) (show (2 ^ b : Int) ≠ 0 by omega)
  have h2 := Int.emod_lt_of_pos (n + 2 ^ (b - 1)) (show (0 : Int) < 2 ^ b by omega)
  omega

theorem hasType_i {t : DType} {n : Int} : Val.HasType (F := F) t (.i n) ↔ isInteger t = true ∧ InRange (width t) n := by
  show (t.isInt = true ∧ fitsInt t n = true) ↔ _
  rw [isInt_eq, fitsInt_iff]

omit [FOps F] in
theorem hasType_f {t : DType} {x : F} : Val.HasType t (.f x) ↔ isInteger t = false := by
  show (t.isFloat = true) ↔ _
  rw [isFloat_eq]; simp

theorem cConv_eq {s t : DType} {v : Val F} (hv : v.HasType s) : cConv s t v = ofOption .floatToInt (convert s t v) := by
  unfold cConv convTo convert
  rw [isInt_eq, bits_eq]
  cases v with
  | i n =>
    rw [hasType_i] at hv
    by_cases hst : s = t
    · subst hst
      rw [if_pos rfl, if_pos hv.1]
      simp only [ofOption]
      rw [reduce_self (width_pos _) hv.2]
    · rw [if_neg hst]
      by_cases ht : isInteger t = true
      · rw [ht]; simp only [if_true, ofOption]; rw [reduce_eq (width_pos _)]
      · have ht' : isInteger t = false := by simpa using ht
        rw [ht']; rfl
  | f x =>
    rw [hasType_f] at hv
    by_cases hst : s = t
    · subst hst
      rw [if_pos rfl, hv]; simp [ofOption]
    · rw [if_neg hst]
      by_cases ht : isInteger t = true
      · rw [ht]; simp only [if_true]
        cases FOps.toInt x with
        | none => rfl
        | some n =>
          simp only
          by_cases hr : InRange (width t) n
          · rw [if_pos (fitsInt_iff.2 hr), if_pos hr]; rfl
          · rw [if_neg (fun h => hr (fitsInt_iff.1 h)), if_neg hr]; rfl
      · have ht' : isInteger t = false := by simpa using ht
        rw [ht']; simp [ofOption, hst]

theorem convert_hasType {s t : DType} {v w : Val F} (h : convert s t v = some w) : w.HasType t := by
  unfold convert at h
  by_cases ht : isInteger t = true
  · rw [if_pos ht] at h
    cases v with
    | i n => simp only [Option.some.injEq] at h; rw [← h, hasType_i]; exact ⟨ht, reduce_inRange (width_pos _) _⟩
    | f x =>
      simp only at h
      cases hx : FOps.toInt x with
      | none => rw [hx] at h; simp at h
      | some n =>
        rw [hx] at h; simp only at h
        split at h
        · next hr => simp only [Option.some.injEq] at h; rw [← h, hasType_i]; exact ⟨ht, hr⟩
        · simp at h
  · rw [if_neg ht] at h
    have ht' : isInteger t = false := by simpa using ht
    cases v <;> (simp only [Option.some.injEq] at h; rw [← h, hasType_f]; exact ht')

theorem convert_self {s : DType} {v : Val F} (hv : v.HasType s) : convert s s v = some v := by
  have h := cConv_eq (t := s) hv
  unfold cConv at h; rw [if_pos rfl] at h
  cases hc : convert s s v with
  | none => rw [hc] at h; simp [ofOption] at h
  | some w => rw [hc] at h; simp [ofOption] at h; rw [h]

theorem arith_float {l r : DType} (h : ¬ (isInteger l = true ∧ isInteger r = true)) : DType.arith l r = later l r := by
  cases l <;> cases r <;> first | rfl | (exact absurd ⟨rfl, rfl⟩ h)
theorem arith_int {l r : DType} (hl : isInteger l = true) (hr : isInteger r = true) :
    isInteger (DType.arith l r) = true ∧ width (DType.arith l r) = max 32 (max (width l) (width r)) := by
  cases l <;> cases r <;> first | exact ⟨rfl, rfl⟩ | (exact absurd hl (by decide)) | (exact absurd hr (by decide))
theorem common_eq (l r : DType) : DType.common l r = later l r := by cases l <;> cases r <;> rfl
theorem width_le_arith {l r : DType} (hl : isInteger l = true) (hr : isInteger r = true) :
    width l ≤ width (DType.arith l r) ∧ width r ≤ width (DType.arith l r) := by
  rw [(arith_int hl hr).2]; omega

theorem inRange_mono {a b : Nat} (h : a ≤ b) {n : Int} (hn : InRange a n) : InRange b n := by
  unfold InRange at *
  have : (2 : Int) ^ (a - 1) ≤ 2 ^ (b - 1) := pow_le_pow_right₀ (by decide) (by omega)
  omega

theorem cConv_int {s t : DType} {n : Int} (hs : isInteger s = true) (ht : isInteger t = true) (hn : InRange (width s) n)
    (hw : width s ≤ width t) : cConv s t (.i n : Val F) = .ok (.i n) := by
  rw [cConv_eq (hasType_i.2 ⟨hs, hn⟩)]
  unfold convert
  rw [if_pos ht]
  simp only [ofOption]
  rw [reduce_self (width_pos _) (inRange_mono hw hn)]

theorem cConv_float {s t : DType} {v : Val F} (hv : v.HasType s) (ht : isInteger t = false) :
    cConv s t v = .ok (.f (asFloat s t v)) := by
  rw [cConv_eq hv]; unfold convert; rw [if_neg (by simp [ht])]
  cases v <;> rfl

theorem iArith_eq (op : AOp) (t : DType) (a b : Int) :
    (match exact op a b with
      | some n => if InRange (width t) n then iArith op t a b = .ok n else iArith op t a b = .ub .overflow
      | none => iArith op t a b = .ub .divZero) := by
  cases op <;> simp only [exact, iArith]
  case div =>
    split
    · next n h => 
      by_cases hb : b = 0
      · simp [hb] at h
      · simp only [hb, if_false, Option.some.injEq] at h
        subst h
        simp only [hb, if_false, fitsInt_iff]
        split <;> rfl
    · next h =>
      by_cases hb : b = 0
      · simp [hb]
      · simp [hb] at h
  all_goals
    simp only [fitsInt_iff]
    split <;> rfl

/-- The value computed by a binary kernel for operands of element types `l`, `r` stored as type `later l r`. -/
theorem kernelArith_eq (op : AOp) {l r : DType} {x y : Val F} (hx : x.HasType l) (hy : y.HasType r) :
    (match elemArith op l r x y with
      | some z => (cArith op l r x y >>= fun z => cConv (DType.arith l r) (later l r) z) = .ok z ∧ z.HasType (later l r)
      | none => (cArith op l r x y >>= fun z => cConv (DType.arith l r) (later l r) z) = .ub .overflow ∨
          (cArith op l r x y >>= fun z => cConv (DType.arith l r) (later l r) z) = .ub .divZero) := by
  unfold elemArith
  by_cases hi : isInteger l = true ∧ isInteger r = true
  · rw [if_pos hi]
    cases x with
    | f x => rw [hasType_f] at hx; simp [hx] at hi
    | i a =>
      cases y with
      | f y => rw [hasType_f] at hy; simp [hy] at hi
      | i b =>
        have hA := arith_int hi.1 hi.2
        have hW := width_le_arith hi.1 hi.2
        rw [hasType_i] at hx hy
        have key : cArith op l r (.i a : Val F) (.i b) =
            (iArith op (DType.arith l r) a b >>= fun n => .ok (.i n)) := by
          unfold cArith
          simp only [cConv_int hx.1 hA.1 hx.2 hW.1, cConv_int hy.1 hA.1 hy.2 hW.2, Res.ok_bind]
          rfl
        rw [key]
        have hI := iArith_eq op (DType.arith l r) a b
        rw [← hA.2]
        dsimp only
        generalize he : exact op a b = e at hI ⊢
        cases e with
        | none => simp only at hI; simp only; rw [hI]; right; rfl
        | some n =>
          simp only at hI ⊢
          by_cases hr : InRange (width (DType.arith l r)) n
          · rw [if_pos hr] at hI; rw [if_pos hr, hI]
            have hl : isInteger (later l r) = true := by
              unfold later; split
              · exact hi.1
              · exact hi.2
            simp only [Res.ok_bind]
            rw [cConv_eq (hasType_i.2 ⟨hA.1, hr⟩)]
            refine ⟨by unfold convert; rw [if_pos hl]; rfl, hasType_i.2 ⟨hl, reduce_inRange (width_pos _) _⟩⟩
          · rw [if_neg hr] at hI; rw [if_neg hr, hI]; left; rfl
  · rw [if_neg hi]
    have hA := arith_float hi
    have hl : isInteger (later l r) = false := by
      revert hi; cases l <;> cases r <;> decide
    unfold cArith
    rw [hA]
    simp only [cConv_float hx hl, cConv_float hy hl, Res.ok_bind]
    refine ⟨?_, hasType_f.2 hl⟩
    show cConv _ _ _ = _
    rw [cConv_eq (hasType_f.2 hl), convert_self (hasType_f.2 hl)]
    cases op <;> rfl

theorem elemCompare_i {op : COp} {s t : DType} {a b : Int} :
    elemCompare (F := F) op s t (.i a) (.i b) = true ↔ icompare op a b := by
  unfold elemCompare
  exact decide_eq_true_iff

theorem cmp_eq (op : COp) {l r : DType} {x y : Val F} (hx : x.HasType l) (hy : y.HasType r) :
    cCmp op l r x y = .ok (elemCompare op l r x y) := by
  unfold cCmp elemCompare
  by_cases hi : isInteger l = true ∧ isInteger r = true
  · cases x with
    | f x => rw [hasType_f] at hx; simp [hx] at hi
    | i a =>
      cases y with
      | f y => rw [hasType_f] at hy; simp [hy] at hi
      | i b =>
        have hA := arith_int hi.1 hi.2
        have hW := width_le_arith hi.1 hi.2
        rw [hasType_i] at hx hy
        simp only [cConv_int hx.1 hA.1 hx.2 hW.1, cConv_int hy.1 hA.1 hy.2 hW.2, Res.ok_bind]
        cases op <;> rfl
  · have hA := arith_float hi
    have hl : isInteger (later l r) = false := by
      revert hi; cases l <;> cases r <;> decide
    rw [hA]
    simp only [cConv_float hx hl, cConv_float hy hl, Res.ok_bind]
    cases x with
    | f x => cases op <;> rfl
    | i a =>
      cases y with
      | f y => cases op <;> rfl
      | i b =>
        rw [hasType_i] at hx hy
        exact absurd ⟨hx.1, hy.1⟩ hi

end INNC
