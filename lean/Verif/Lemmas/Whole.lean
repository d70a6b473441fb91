import Verif.Spec.Whole
import Verif.Lemmas.Ring
import Verif.Props.Ieee
/-
Whole numbers in IEEE floats.
-/
namespace INNC
open Spec

theorem natAbs_signed (s : Bool) (k : Nat) : (Ieee.signed s k).natAbs = k := by
  unfold Ieee.signed
  cases s <;> simp

theorem place_whole {t : DType} {m : Nat} (hm : m < 2 ^ Ieee.digits t) : Ieee.place t (m * Ieee.one) 1 ≤ 1074 := by
  have hl : Ieee.low t ≤ 1074 := by unfold Ieee.low; split <;> omega
  have hd : Ieee.digits t ≤ 53 := by unfold Ieee.digits; split <;> omega
  unfold Ieee.place
  refine Nat.max_le.2 ⟨?_, hl⟩
  rw [Nat.div_one, Ieee.one_eq]
  by_cases h0 : m = 0
  · rw [h0, Nat.zero_mul, show Nat.log2 0 = 0 by decide]; omega
  · have h2 : m * 2 ^ 1074 ≠ 0 := Nat.mul_ne_zero h0 (ne_of_gt (Nat.two_pow_pos _))
    have h1 : (m * 2 ^ 1074).log2 < Ieee.digits t + 1074 := by
      rw [Nat.log2_lt h2, Nat.pow_add]
      generalize 2 ^ 1074 = b at h2 ⊢
      exact Nat.mul_lt_mul_of_pos_right hm (Nat.pos_of_ne_zero fun h => h2 (by rw [h, Nat.mul_zero]))
    generalize (m * 2 ^ 1074).log2 = l at *
    omega

theorem below_high {t : DType} {m : Nat} (hm : m < 2 ^ Ieee.digits t) : m * Ieee.one < 2 ^ Ieee.high t := by
  have h1 : m * Ieee.one < 2 ^ (Ieee.digits t + 1074) := by
    rw [Nat.pow_add, Ieee.one_eq]
    exact Nat.mul_lt_mul_of_pos_right hm (Nat.two_pow_pos _)
  refine Nat.lt_of_lt_of_le h1 (Nat.pow_le_pow_right (by decide) ?_)
  unfold Ieee.digits Ieee.high
  split <;> omega

theorem pack_whole {t : DType} {m : Nat} (hm : m < 2 ^ Ieee.digits t) (s : Bool) : Ieee.pack t s (m * Ieee.one) 1 = .fin s (m * Ieee.one) := by
  have e : Ieee.roundUnits t (m * Ieee.one) 1 = m * Ieee.one :=
    roundUnits_exact (Nat.dvd_mul_left_of_dvd (by rw [Ieee.one_eq]; exact Nat.pow_dvd_pow _ (place_whole hm)) _)
  unfold Ieee.pack
  rw [e, if_pos (below_high hm)]

theorem pack_product {t : DType} {m : Nat} (hm : m < 2 ^ Ieee.digits t) (s : Bool) :
    Ieee.pack t s (m * Ieee.one * Ieee.one) Ieee.one = .fin s (m * Ieee.one) := by
  have h0 : 0 < Ieee.one := by rw [Ieee.one_eq]; exact Nat.two_pow_pos _
  have hp : Ieee.place t (m * Ieee.one * Ieee.one) Ieee.one = Ieee.place t (m * Ieee.one) 1 := by
    unfold Ieee.place
    rw [Nat.mul_div_cancel _ h0, Nat.div_one]
  have e : Ieee.roundUnits t (m * Ieee.one * Ieee.one) Ieee.one = m * Ieee.one := by
    unfold Ieee.roundUnits
    rw [hp]
    have hd : 2 ^ Ieee.place t (m * Ieee.one) 1 ∣ m * Ieee.one :=
      Nat.dvd_mul_left_of_dvd (by rw [Ieee.one_eq]; exact Nat.pow_dvd_pow _ (place_whole hm)) _
    obtain ⟨c, hc⟩ := hd
    generalize hP : 2 ^ Ieee.place t (m * Ieee.one) 1 = P at *
    have hPpos : 0 < P := by rw [← hP]; exact Nat.two_pow_pos _
    rw [hc, show P * c * Ieee.one = Ieee.one * P * c by ring]
    have hpos : 0 < Ieee.one * P := Nat.mul_pos h0 hPpos
    have := nearest_exact (a := Ieee.one * P * c) hpos ⟨c, rfl⟩
    have h3 : Ieee.nearest (Ieee.one * P * c) (Ieee.one * P) = c := by
      rw [Nat.mul_comm] at this
      exact Nat.eq_of_mul_eq_mul_left hpos this
    rw [h3, Nat.mul_comm]
  unfold Ieee.pack
  rw [e, if_pos (below_high hm)]

theorem whole_abs {s : Bool} {k : Nat} {n : Int} (h : Ieee.signed s k = n * (Ieee.one : Nat)) : k = n.natAbs * Ieee.one := by
  rw [← natAbs_signed s k, h, Int.natAbs_mul, Int.natAbs_natCast]

theorem signed_decide {n : Int} {m : Nat} (h : n.natAbs = m) : Ieee.signed (decide (n < 0)) m = n := by
  unfold Ieee.signed
  by_cases h0 : n < 0
  · simp only [h0, decide_true, if_true]; omega
  · simp only [h0, decide_false, Bool.false_eq_true, if_false]; omega

theorem whole_plus {t : DType} {x y : Ieee} {a b : Int} (hx : x.IsWhole a) (hy : y.IsWhole b) (h : Ieee.Small t (a + b)) :
    (Ieee.plus t x y).IsWhole (a + b) := by
  obtain ⟨s, k, rfl, h1⟩ := hx
  obtain ⟨s', k', rfl, h2⟩ := hy
  have e : Ieee.signed s k + Ieee.signed s' k' = (a + b) * (Ieee.one : Nat) := by rw [h1, h2]; ring
  unfold Ieee.plus
  simp only
  rw [e]
  by_cases h0 : (a + b) * (Ieee.one : Nat) = 0
  · rw [if_pos h0]
    exact ⟨_, _, rfl, by rw [h0]; unfold Ieee.signed; cases (s && s') <;> rfl⟩
  · rw [if_neg h0, Int.natAbs_mul, Int.natAbs_natCast, pack_whole h]
    exact ⟨_, _, rfl, signed_decide (by rw [Int.natAbs_mul, Int.natAbs_natCast])⟩

theorem whole_opposite {y : Ieee} {b : Int} (hy : y.IsWhole b) : (Ieee.opposite y).IsWhole (-b) := by
  obtain ⟨s, k, rfl, h⟩ := hy
  refine ⟨!s, k, rfl, ?_⟩
  rw [Int.neg_mul, ← h]
  unfold Ieee.signed
  cases s <;> simp

theorem whole_times {t : DType} {x y : Ieee} {a b : Int} (hx : x.IsWhole a) (hy : y.IsWhole b) (h : Ieee.Small t (a * b)) :
    (Ieee.times t x y).IsWhole (a * b) := by
  obtain ⟨s, k, rfl, h1⟩ := hx
  obtain ⟨s', k', rfl, h2⟩ := hy
  have e : k * k' = (a * b).natAbs * Ieee.one * Ieee.one := by
    rw [whole_abs h1, whole_abs h2, Int.natAbs_mul]; ring
  unfold Ieee.times
  simp only
  rw [e, pack_product h]
  refine ⟨_, _, rfl, ?_⟩
  have h0 : ((Ieee.one : Nat) : Int) ≠ 0 := by
    rw [Ieee.one_eq]
    exact_mod_cast ne_of_gt (Nat.two_pow_pos 1074)
  have hs : Ieee.signed (s != s') (k * k') = Ieee.signed s k * Ieee.signed s' k' := by
    unfold Ieee.signed
    cases s <;> cases s' <;> simp
  rw [h1, h2, e] at hs
  have hl : ∀ (u : Bool) (p q : Nat), Ieee.signed u (p * q) = Ieee.signed u p * q := fun u p q => by
    unfold Ieee.signed
    cases u <;> simp
  rw [hl] at hs
  apply mul_right_cancel₀ h0
  rw [hs]
  ring

theorem whole_fop {t : DType} {op : AOp} (ho : op ≠ .div) {x y : Ieee} {a b n : Int} (hx : x.IsWhole a) (hy : y.IsWhole b)
    (hn : exact op a b = some n) (h : Ieee.Small t n) : (fop op t x y).IsWhole n := by
  cases op with
  | add => cases hn; exact whole_plus hx hy h
  | sub =>
    cases hn
    rw [Int.sub_eq_add_neg] at h ⊢
    exact whole_plus hx (whole_opposite hy) h
  | mul => cases hn; exact whole_times hx hy h
  | div => exact absurd rfl ho

/-- Whole numbers are equal as floats exactly if they are equal. -/
theorem whole_compare (op : COp) {x y : Ieee} {a b : Int} (hx : x.IsWhole a) (hy : y.IsWhole b) :
    fcompare op x y = decide (icompare op a b) := by
  obtain ⟨s, k, rfl, h1⟩ := hx
  obtain ⟨s', k', rfl, h2⟩ := hy
  have h0 : (0 : Int) < ((Ieee.one : Nat) : Int) := by
    rw [Ieee.one_eq]
    exact_mod_cast Nat.two_pow_pos 1074
  have hc : ∀ u v : Int, Ord.compare (u * ((Ieee.one : Nat) : Int)) (v * ((Ieee.one : Nat) : Int)) = Ord.compare u v := fun u v => by
    rcases Int.lt_trichotomy u v with h | h | h
    · rw [compare_lt_iff_lt.2 h, compare_lt_iff_lt.2 (Int.mul_lt_mul_of_pos_right h h0)]
    · rw [h]
      simp
    · rw [compare_gt_iff_gt.2 h, compare_gt_iff_gt.2 (Int.mul_lt_mul_of_pos_right h h0)]
  have hab : Ieee.compare (.fin s k) (.fin s' k') = some (Ord.compare a b) := by
    unfold Ieee.compare
    simp only
    rw [h1, h2, hc]
  have hba : Ieee.compare (.fin s' k') (.fin s k) = some (Ord.compare b a) := by
    unfold Ieee.compare
    simp only
    rw [h1, h2, hc]
  rcases Int.lt_trichotomy a b with h | h | h
  · have e1 := compare_lt_iff_lt.2 h
    have e2 : Ord.compare b a = .gt := compare_gt_iff_gt.2 h
    cases op <;> simp only [fcompare, FOps.lt, FOps.le, FOps.eq, hab, hba, e1, e2, icompare] <;> symm <;> first
      | exact decide_eq_true (by omega)
      | exact decide_eq_false (by omega)
  · subst h
    have e1 : Ord.compare a a = .eq := by simp
    cases op <;> simp only [fcompare, FOps.lt, FOps.le, FOps.eq, hab, hba, e1, icompare] <;> simp
  · have e1 : Ord.compare a b = .gt := compare_gt_iff_gt.2 h
    have e2 := compare_lt_iff_lt.2 h
    cases op <;> simp only [fcompare, FOps.lt, FOps.le, FOps.eq, hab, hba, e1, e2, icompare] <;> symm <;> first
      | exact decide_eq_true (by omega)
      | exact decide_eq_false (by omega)

theorem signed_scaled (n : Int) (o : Nat) : Ieee.signed (decide (n < 0)) (n.natAbs * o) = n * (o : Int) := by
  unfold Ieee.signed
  by_cases h0 : n < 0
  · rw [decide_eq_true h0, if_pos rfl, Nat.cast_mul, ← Int.neg_mul, show -((n.natAbs : Nat) : Int) = n by omega]
  · rw [decide_eq_false h0, if_neg (by decide), Nat.cast_mul, show ((n.natAbs : Nat) : Int) = n by omega]

theorem whole_ofInt {t : DType} {n : Int} (h : Ieee.Small t n) : (FOps.ofInt t n : Ieee).IsWhole n := by
  have e : (FOps.ofInt t n : Ieee) = Ieee.pack t (decide (n < 0)) (n.natAbs * Ieee.one) 1 := rfl
  rw [e, pack_whole h]
  exact ⟨_, _, rfl, signed_scaled n _⟩

theorem signed_mul (u : Bool) (p q : Nat) : Ieee.signed u (p * q) = Ieee.signed u p * q := by
  unfold Ieee.signed
  cases u <;> simp

theorem signed_cancel {s : Bool} {k o : Nat} {n : Int} (h0 : 0 < o) (h : Ieee.signed s k = n * (o : Int)) :
    Ieee.signed s (k / o) = n := by
  have hk : k = n.natAbs * o := by
    rw [← natAbs_signed s k, h, Int.natAbs_mul, Int.natAbs_natCast]
  have h1 : (o : Int) ≠ 0 := by omega
  rw [hk, signed_mul] at h
  rw [hk, Nat.mul_div_cancel _ h0]
  exact mul_right_cancel₀ h1 h

theorem whole_toInt {x : Ieee} {n : Int} (h : x.IsWhole n) : FOps.toInt x = some n := by
  obtain ⟨s, k, rfl, h⟩ := h
  have e : FOps.toInt (Ieee.fin s k) = some (Ieee.signed s (k / Ieee.one)) := rfl
  rw [e, signed_cancel (by rw [Ieee.one_eq]; exact Nat.two_pow_pos _) h]

theorem cast_div_iff {z n : Int} {o : Nat} (h0 : 0 < o) : (z : ℚ) / (o : ℚ) = (n : ℚ) ↔ z = n * (o : Int) := by
  have h1 : (o : ℚ) ≠ 0 := by exact_mod_cast ne_of_gt h0
  rw [div_eq_iff h1]
  constructor
  · intro h
    exact_mod_cast h
  · intro h
    rw [h]
    push_cast
    rfl

theorem whole_iff {x : Ieee} {n : Int} : x.IsWhole n ↔ x.isFinite ∧ x.value = n := by
  have h0 : 0 < Ieee.one := by rw [Ieee.one_eq]; exact Nat.two_pow_pos _
  constructor
  · rintro ⟨s, k, rfl, h⟩
    exact ⟨trivial, (cast_div_iff h0).2 h⟩
  · rintro ⟨h1, h2⟩
    cases x with
    | fin s k => exact ⟨s, k, rfl, (cast_div_iff h0).1 h2⟩
    | inf s => exact h1.elim
    | nan => exact h1.elim

theorem pack_scaled {t : DType} {m d : Nat} (h0 : 0 < d) (hm : m < 2 ^ Ieee.digits t) (s : Bool) :
    Ieee.pack t s (m * Ieee.one * d) d = .fin s (m * Ieee.one) := by
  have hp : Ieee.place t (m * Ieee.one * d) d = Ieee.place t (m * Ieee.one) 1 := by
    unfold Ieee.place
    rw [Nat.mul_div_cancel _ h0, Nat.div_one]
  have e : Ieee.roundUnits t (m * Ieee.one * d) d = m * Ieee.one := by
    unfold Ieee.roundUnits
    rw [hp]
    have hd : 2 ^ Ieee.place t (m * Ieee.one) 1 ∣ m * Ieee.one :=
      Nat.dvd_mul_left_of_dvd (by rw [Ieee.one_eq]; exact Nat.pow_dvd_pow _ (place_whole hm)) _
    obtain ⟨c, hc⟩ := hd
    generalize hP : 2 ^ Ieee.place t (m * Ieee.one) 1 = P at *
    have hPpos : 0 < P := by rw [← hP]; exact Nat.two_pow_pos _
    rw [hc, show P * c * d = d * P * c by ring]
    have hpos : 0 < d * P := Nat.mul_pos h0 hPpos
    have := nearest_exact (a := d * P * c) hpos ⟨c, rfl⟩
    have h3 : Ieee.nearest (d * P * c) (d * P) = c := by
      rw [Nat.mul_comm] at this
      exact Nat.eq_of_mul_eq_mul_left hpos this
    rw [h3, Nat.mul_comm]
  unfold Ieee.pack
  rw [e, if_pos (below_high hm)]

theorem signed_quotient {s s' : Bool} {k k' o : Nat} {q b : Int} (h0 : 0 < o) (hb : b ≠ 0) (h1 : Ieee.signed s k = q * b * (o : Int))
    (h2 : Ieee.signed s' k' = b * (o : Int)) : Ieee.signed (s != s') (q.natAbs * o) = q * (o : Int) := by
  have hs : Ieee.signed (s != s') (k * k') = Ieee.signed s k * Ieee.signed s' k' := by
    unfold Ieee.signed
    cases s <;> cases s' <;> simp
  have hk : k = (q * b).natAbs * o := by rw [← natAbs_signed s k, h1, Int.natAbs_mul, Int.natAbs_natCast]
  have hk' : k' = b.natAbs * o := by rw [← natAbs_signed s' k', h2, Int.natAbs_mul, Int.natAbs_natCast]
  rw [h1, h2, hk, hk', Int.natAbs_mul, show q.natAbs * b.natAbs * o * (b.natAbs * o) = q.natAbs * o * (b.natAbs * b.natAbs * o) by ring,
    signed_mul, Nat.cast_mul, Int.natAbs_mul_self] at hs
  have ho : ((o : Nat) : Int) ≠ 0 := by exact_mod_cast ne_of_gt h0
  apply mul_right_cancel₀ (mul_ne_zero (mul_ne_zero hb hb) ho)
  rw [hs]
  ring

theorem whole_over {t : DType} {x y : Ieee} {q b : Int} (hx : x.IsWhole (q * b)) (hy : y.IsWhole b) (hb : b ≠ 0) (h : Ieee.Small t q) :
    (Ieee.over t x y).IsWhole q := by
  obtain ⟨s, k, rfl, h1⟩ := hx
  obtain ⟨s', k', rfl, h2⟩ := hy
  have ho : 0 < Ieee.one := by rw [Ieee.one_eq]; exact Nat.two_pow_pos _
  have hk' := whole_abs h2
  have h0 : 0 < k' := by rw [hk']; exact Nat.mul_pos (by omega) ho
  have e : k * Ieee.one = q.natAbs * Ieee.one * k' := by
    rw [whole_abs h1, hk', Int.natAbs_mul]; ring
  unfold Ieee.over
  simp only
  rw [if_neg (by omega), e, pack_scaled h0 h]
  exact ⟨_, _, rfl, signed_quotient ho hb h1 h2⟩

theorem whole_cvt {t : DType} {x : Ieee} {n : Int} (hx : x.IsWhole n) (h : Ieee.Small t n) : (FOps.cvt t x : Ieee).IsWhole n := by
  obtain ⟨s, k, rfl, h1⟩ := hx
  have e : (FOps.cvt t (Ieee.fin s k) : Ieee) = Ieee.pack t s k 1 := rfl
  have hk := whole_abs h1
  rw [e, hk, pack_whole h]
  exact ⟨s, n.natAbs * Ieee.one, rfl, by rw [← hk]; exact h1⟩

theorem number_asFloat {s t : DType} {v : Val Ieee} {n : Int} (hv : IsNumber v n) (h : Ieee.Small t n) : (asFloat s t v).IsWhole n := by
  cases v with
  | i m =>
    have hv : m = n := hv
    subst hv
    exact whole_ofInt h
  | f x =>
    unfold asFloat
    simp only
    split
    · exact hv
    · exact whole_cvt hv h

theorem number_arith {op : AOp} (ho : op ≠ .div) {s t : DType} (hst : ¬ (isInteger s = true ∧ isInteger t = true)) {v w : Val Ieee} {a b n : Int}
    (hv : IsNumber v a) (hw : IsNumber w b) (hn : exact op a b = some n) (ha : Ieee.Small (later s t) a) (hb : Ieee.Small (later s t) b)
    (h : Ieee.Small (later s t) n) : ∃ z, elemBinary op s t v w = some (.f z) ∧ z.IsWhole n := by
  unfold elemBinary
  split
  · next hc =>
    have hn' : exact op b a = some n := by
      rcases hc.1 with rfl | rfl
      · rw [← hn]; exact congrArg some (Int.add_comm b a)
      · rw [← hn]; exact congrArg some (Int.mul_comm b a)
    unfold elemArith
    rw [if_neg (fun hh => hst hh.symm), later_comm t s]
    exact ⟨_, rfl, whole_fop ho (number_asFloat hw hb) (number_asFloat hv ha) hn' h⟩
  · unfold elemArith
    rw [if_neg hst]
    exact ⟨_, rfl, whole_fop ho (number_asFloat hv ha) (number_asFloat hw hb) hn h⟩

theorem number_compare (op : COp) {s t : DType} {v w : Val Ieee} {a b : Int} (hv : IsNumber v a) (hw : IsNumber w b)
    (h : ¬ (isInteger s = true ∧ isInteger t = true) → Ieee.Small (later s t) a ∧ Ieee.Small (later s t) b) (ts : v.HasType s) (tt : w.HasType t) :
    elemCompare op s t v w = decide (icompare op a b) := by
  cases v with
  | i m =>
    cases w with
    | i m' =>
      have h1 : m = a := hv
      have h2 : m' = b := hw
      subst h1 h2
      rfl
    | f y =>
      obtain ⟨h1, h2⟩ := h fun hh => by rw [hasType_f.1 tt] at hh; exact absurd hh.2 (by decide)
      exact whole_compare op (number_asFloat hv h1) (number_asFloat hw h2)
  | f x =>
    obtain ⟨h1, h2⟩ := h fun hh => by rw [hasType_f.1 ts] at hh; exact absurd hh.1 (by decide)
    exact whole_compare op (number_asFloat hv h1) (number_asFloat hw h2)

end INNC
