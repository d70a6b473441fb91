import Verif.Lemmas.Parse
import Mathlib.Tactic.Linarith
import Mathlib.Tactic.Ring
/-
Range slices agree with Python's slices; layout of a slice.
-/
namespace INNC
open Spec

/-! ### Python's range -/

/-- `pyCount` counts the terms of `a, a + k, ...` before `b`. -/
theorem mem_pyCount {a b k : Int} (hk : k ≠ 0) (j : Nat) :
    j < pyCount a b k ↔ (0 < k ∧ a + j * k < b) ∨ (k < 0 ∧ a + j * k > b) := by
  unfold pyCount
  split
  · rename_i h
    rw [Int.lt_toNat, ← Int.add_one_le_iff, Int.le_ediv_iff_mul_le h, Int.add_mul]
    omega
  · rename_i h
    have h : 0 < -k := by omega
    rw [Int.lt_toNat, ← Int.add_one_le_iff, Int.le_ediv_iff_mul_le h, Int.add_mul, Int.mul_neg]
    omega

theorem pyCount_eq_zero {a b k : Int} (hk : k ≠ 0) (h : (0 < k ∧ b ≤ a) ∨ (k < 0 ∧ a ≤ b)) : pyCount a b k = 0 := by
  by_contra hc
  have := (mem_pyCount (a := a) (b := b) hk 0).1 (by omega)
  omega

theorem pyStart_range (n : Nat) (k : Int) (o : Option Int) :
    (0 < k → 0 ≤ pyStart n k o ∧ pyStart n k o ≤ n) ∧ (¬ 0 < k → -1 ≤ pyStart n k o ∧ pyStart n k o ≤ (n : Int) - 1) := by
  cases o <;> simp only [pyStart] <;> constructor <;> intro h <;> simp only [if_pos, if_neg, h, not_false_eq_true] <;> omega

theorem pyStop_range (n : Nat) (k : Int) (o : Option Int) :
    (0 < k → 0 ≤ pyStop n k o ∧ pyStop n k o ≤ n) ∧ (¬ 0 < k → -1 ≤ pyStop n k o ∧ pyStop n k o ≤ (n : Int) - 1) := by
  cases o <;> simp only [pyStop] <;> constructor <;> intro h <;> simp only [if_pos, if_neg, h, not_false_eq_true] <;> omega

theorem pyAt_lt {n : Nat} {a b c : Option Int} (hc : c ≠ some 0) {j : Nat} (hj : j < pyLen n a b c) :
    pyAt n a c j < n ∧ ((pyAt n a c j : Nat) : Int) = pyStart n (c.getD 1) a + j * c.getD 1 := by
  have hk : c.getD 1 ≠ 0 := by cases c <;> simp_all
  unfold pyLen at hj
  have := (mem_pyCount hk j).1 hj
  have h1 := pyStart_range n (c.getD 1) a
  have h2 := pyStop_range n (c.getD 1) b
  unfold pyAt
  generalize pyStart n (c.getD 1) a = x at *
  generalize pyStop n (c.getD 1) b = y at *
  generalize c.getD 1 = k at *
  rcases this with ⟨hp, h⟩ | ⟨hp, h⟩
  · have h3 := h1.1 hp
    have h4 := h2.1 hp
    have : 0 ≤ (j : Int) * k := Int.mul_nonneg (by omega) (by omega)
    omega
  · have h3 := h1.2 (by omega)
    have h4 := h2.2 (by omega)
    have : (j : Int) * k ≤ 0 := Int.mul_nonpos_of_nonneg_of_nonpos (by omega) (by omega)
    omega

/-! ### The model's parts of a range slice -/

theorem sliceStep_ok {c : Option Int} {p : Str} (hp : OptPart c p) (hc : c ≠ some 0) (h64 : ∀ x, c = some x → IsI64 x) :
    sliceStep p = .ok (c.getD 1) := by
  cases c with
  | none => cases hp; rfl
  | some k =>
    have hne : p.length ≠ 0 := fun h => Numeral.ne_nil hp (List.length_eq_zero_iff.1 h)
    have hk : k ≠ 0 := fun h => hc (by rw [h])
    unfold sliceStep
    rw [if_pos hne, stoll_numeral hp (h64 k rfl)]
    show Res.bind (runExpect (decide (k ≠ 0))) _ = _
    rw [runExpect_decide hk]; rfl

theorem sliceStep_zero {p : Str} (hp : Numeral 0 p) : sliceStep p = .throw .runtime := by
  have hne : p.length ≠ 0 := fun h => Numeral.ne_nil hp (List.length_eq_zero_iff.1 h)
  unfold sliceStep
  rw [if_pos hne, stoll_numeral hp ⟨by decide, by decide⟩]
  rfl

theorem sliceBeg_ok {a : Option Int} {p : Str} {n : Nat} {k : Int} (hp : OptPart a p)
    (h64 : ∀ x, a = some x → IsI64 x) (hn : 0 < n) (hn' : n ≤ 4611686018427387904) (hk : k ≠ 0) :
    (sliceBeg p k n = .ok none ∧ ((0 < k ∧ pyStart n k a = n) ∨ (k < 0 ∧ pyStart n k a = -1))) ∨
    (sliceBeg p k n = .ok (some (pyStart n k a)) ∧ 0 ≤ pyStart n k a ∧ pyStart n k a < n) := by
  have w1 : wrapS (n : Int) = n := wrapS_eq_self (by omega) (by omega)
  have w2 : wrapS ((n : Int) - 1) = n - 1 := wrapS_eq_self (by omega) (by omega)
  cases a with
  | none =>
    cases hp
    right
    refine ⟨?_, ?_⟩
    · unfold sliceBeg
      rw [if_neg (by simp), w2]
      rfl
    · simp only [pyStart]; split <;> omega
  | some x =>
    have hne : p.length ≠ 0 := fun h => Numeral.ne_nil hp (List.length_eq_zero_iff.1 h)
    have hx := h64 x rfl
    unfold IsI64 at hx
    have e : (if x < 0 then wrapS (x + n) else x) = fromEnd n x := by
      unfold fromEnd
      split
      · rw [wrapS_eq_self (by omega) (by omega)]; omega
      · rfl
    unfold sliceBeg
    rw [if_pos hne, stoll_numeral hp (h64 x rfl)]
    simp only [pyStart, w1, w2]
    show ((if _ then _ else _) = _ ∧ _) ∨ ((if _ then _ else _) = _ ∧ _)
    simp only [e]
    generalize fromEnd n x = y
    by_cases h1 : y < 0
    · by_cases h2 : k > 0
      · right
        rw [if_neg (by omega), if_pos h1, if_neg (by omega), if_pos h2]
        have : max 0 (min y n) = 0 := by omega
        rw [this]; exact ⟨rfl, by omega, by omega⟩
      · left
        rw [if_pos ⟨h1, h2⟩, if_neg h2]
        exact ⟨rfl, Or.inr ⟨by omega, by omega⟩⟩
    · rw [if_neg (by omega : ¬ (y < 0 ∧ ¬ k > 0)), if_neg h1]
      by_cases h3 : y ≥ n
      · rw [if_pos h3]
        by_cases h2 : k > 0
        · left; rw [if_pos h2, if_pos h2]; exact ⟨rfl, Or.inl ⟨h2, by omega⟩⟩
        · right
          rw [if_neg h2, if_neg h2]
          have : max (-1) (min y (n - 1)) = (n : Int) - 1 := by omega
          rw [this]; exact ⟨rfl, by omega, by omega⟩
      · right
        rw [if_neg h3]
        have : (if 0 < k then max 0 (min y n) else max (-1) (min y (n - 1))) = y := by split <;> omega
        rw [this]
        exact ⟨rfl, by omega, by omega⟩

theorem sliceEnd_ok {b : Option Int} {p : Str} {n : Nat} {k : Int} (hp : OptPart b p)
    (h64 : ∀ x, b = some x → IsI64 x) (hn : 0 < n) (hn' : n ≤ 4611686018427387904) (hk : k ≠ 0) :
    (sliceEnd p k n = .ok none ∧ ((0 < k ∧ pyStop n k b = 0) ∨ (k < 0 ∧ pyStop n k b = n - 1))) ∨
    sliceEnd p k n = .ok (some (pyStop n k b)) := by
  have w1 : wrapS (n : Int) = n := wrapS_eq_self (by omega) (by omega)
  cases b with
  | none =>
    cases hp
    right
    unfold sliceEnd
    rw [if_neg (by simp), w1]
    rfl
  | some x =>
    have hne : p.length ≠ 0 := fun h => Numeral.ne_nil hp (List.length_eq_zero_iff.1 h)
    have hx := h64 x rfl
    unfold IsI64 at hx
    have e : (if x < 0 then wrapS (x + n) else x) = fromEnd n x := by
      unfold fromEnd
      split
      · rw [wrapS_eq_self (by omega) (by omega)]; omega
      · rfl
    unfold sliceEnd
    rw [if_pos hne, stoll_numeral hp (h64 x rfl)]
    simp only [pyStop, w1]
    show ((if _ then _ else _) = _ ∧ _) ∨ ((if _ then _ else _) = _)
    simp only [e]
    generalize fromEnd n x = y
    by_cases h2 : k > 0
    · rw [if_pos h2, if_pos h2]
      by_cases h1 : y ≤ 0
      · left; rw [if_pos h1]; exact ⟨rfl, Or.inl ⟨h2, by omega⟩⟩
      · right
        rw [if_neg h1]
        by_cases h3 : y > n
        · rw [if_pos h3]
          have : max 0 (min y n) = (n : Int) := by omega
          rw [this]; rfl
        · rw [if_neg h3]
          have : max 0 (min y n) = y := by omega
          rw [this]; rfl
    · rw [if_neg h2, if_neg h2]
      by_cases h3 : (if y < 0 then -1 else y) ≥ (n : Int) - 1
      · rw [if_pos h3]
        left
        by_cases h1 : y < 0
        · rw [if_pos h1] at h3; omega
        · rw [if_neg h1] at h3
          exact ⟨rfl, Or.inr ⟨by omega, by omega⟩⟩
      · right
        rw [if_neg h3]
        have : max (-1) (min y (n - 1)) = if y < 0 then -1 else y := by
          split at h3 <;> split <;> omega
        rw [this]; rfl

/-- Product of a stride with a position of its axis. -/
theorem natAbs_mul_le {st : Int} {n : Nat} {b : Int} (h0 : 0 ≤ b) (h1 : b < n) :
    (st * b).natAbs ≤ st.natAbs * (n - 1) := by
  rw [Int.natAbs_mul]
  exact Nat.mul_le_mul_left _ (by omega)

theorem sMul_fits {a b : Int} {B : Nat} (h : (a * b).natAbs ≤ B) (hB : B < 9223372036854775808) : sMul a b = .ok (a * b) :=
  sMul_ok (fitsS_iff.2 (by omega))

/-- The number of elements the code computes for a non-empty range. -/
theorem rangeCount {n : Nat} {k beg e : Int} (hk : k ≠ 0) (hn : n ≤ 4611686018427387904) (hs0 : 0 ≤ beg) (hs1 : beg < n)
    (h1 : 0 < k → e ≤ n) (h2 : k < 0 → -1 ≤ e) (hemp : ¬ ((k > 0 ∧ beg ≥ e) ∨ (k < 0 ∧ beg ≤ e))) :
    wrapU (Int.tdiv (((e - beg).natAbs : Int) - 1) (k.natAbs : Int) + 1) = pyCount beg e k := by
  have hb1 : (1 : Int) ≤ ((e - beg).natAbs : Int) := by omega
  have hkn : (0 : Int) < (k.natAbs : Int) := by omega
  rw [Int.tdiv_eq_ediv_of_nonneg (by omega)]
  have h3 : (((e - beg).natAbs : Int) - 1) / (k.natAbs : Int) ≤ ((e - beg).natAbs : Int) - 1 :=
    Int.ediv_le_self _ (by omega)
  have h4 : 0 ≤ (((e - beg).natAbs : Int) - 1) / (k.natAbs : Int) := Int.ediv_nonneg (by omega) (by omega)
  have hb2 : ((e - beg).natAbs : Int) ≤ n := by by_cases hp : 0 < k <;> omega
  rw [wrapU_eq_toNat (by omega) (by omega)]
  unfold pyCount
  have h5 : ∀ x : Int, 0 < x → ∀ y : Int, (y + x - 1) / x = (y - 1) / x + 1 := by
    intro x hx y
    have : y + x - 1 = y - 1 + x := by omega
    rw [this, Int.add_ediv_of_dvd_right (Int.dvd_refl x), Int.ediv_self (by omega)]
  split
  · rename_i hp
    have e1 : (k.natAbs : Int) = k := by omega
    have e2 : ((e - beg).natAbs : Int) = e - beg := by omega
    rw [e1, e2, h5 k hp]
  · rename_i hp
    have e1 : (k.natAbs : Int) = -k := by omega
    have e2 : ((e - beg).natAbs : Int) = beg - e := by omega
    rw [e1, e2, h5 (-k) (by omega)]

/-- The positions of a range stay on the axis. -/
theorem range_mem {n : Nat} {k beg e : Int} (hk : k ≠ 0) (hs0 : 0 ≤ beg) (hs1 : beg < n)
    (h1 : 0 < k → e ≤ n) (h2 : k < 0 → -1 ≤ e) {j : Nat} (hj : j < pyCount beg e k) :
    0 ≤ beg + j * k ∧ beg + j * k < n := by
  rcases (mem_pyCount hk j).1 hj with ⟨hp, h⟩ | ⟨hp, h⟩
  · have := h1 hp
    have : 0 ≤ (j : Int) * k := Int.mul_nonneg (by omega) (by omega)
    omega
  · have := h2 hp
    have : (j : Int) * k ≤ 0 := Int.mul_nonpos_of_nonneg_of_nonpos (by omega) (by omega)
    omega

theorem range_span {n : Nat} {k beg e : Int} (hk : k ≠ 0) (hs0 : 0 ≤ beg) (hs1 : beg < n)
    (h1 : 0 < k → e ≤ n) (h2 : k < 0 → -1 ≤ e) :
    pyCount beg e k ≤ n ∧ k.natAbs * (pyCount beg e k - 1) ≤ n - 1 := by
  by_cases hl : pyCount beg e k = 0
  · rw [hl]; simp
  · have h3 := range_mem hk hs0 hs1 h1 h2 (j := pyCount beg e k - 1) (by omega)
    have h4 : k.natAbs * (pyCount beg e k - 1) ≤ n - 1 := by
      have h5 : (((pyCount beg e k - 1 : Nat) : Int) * k).natAbs = k.natAbs * (pyCount beg e k - 1) := by
        rw [Int.natAbs_mul, Int.natAbs_natCast, Nat.mul_comm]
      omega
    have h6 : 1 * (pyCount beg e k - 1) ≤ k.natAbs * (pyCount beg e k - 1) := Nat.mul_le_mul_right _ (by omega)
    omega

/-- What is known about the layout of one sliced axis. -/
structure AxisOk (n : Nat) (st : Int) (a b c : Option Int) (st' d : Int) : Prop where
  pos : ∀ j, j < pyLen n a b c → d + st' * j = st * pyAt n a c j
  le : pyLen n a b c ≤ n
  fits : IsI64 st'
  span : st'.natAbs * (pyLen n a b c - 1) ≤ st.natAbs * (n - 1)

theorem axisOk_empty {n : Nat} {st : Int} {a b c : Option Int} (h : pyLen n a b c = 0) : AxisOk n st a b c 0 0 where
  pos := fun j hj => by omega
  le := by omega
  fits := ⟨by decide, by decide⟩
  span := by simp

/-- **One axis**: the range slice computes Python's slice. -/
theorem sliceRange_ok {a b c : Option Int} {p0 p1 p2 : Str} {n : Nat} {st : Int}
    (h0 : OptPart a p0) (h1 : OptPart b p1) (h2 : OptPart c p2) (h64 : AxisSpec.Is64 (.range a b c)) (hc : c ≠ some 0)
    (hn : n ≤ 4611686018427387904) (hst : IsI64 st) (hspan : st.natAbs * (n - 1) < 4611686018427387904)
    (hfit : ∀ k, c = some k → k ≠ -9223372036854775808 ∧ IsI64 (k * st)) :
    ∃ st' d, sliceRange p0 p1 p2 n st = .ok (pyLen n a b c, st', d) ∧ AxisOk n st a b c st' d := by
  have hk : c.getD 1 ≠ 0 := by cases c <;> simp_all
  have hk64 : IsI64 (c.getD 1) := by
    cases c with
    | none => exact ⟨by decide, by decide⟩
    | some k => exact h64.2.2 k rfl
  have hkm : c.getD 1 ≠ -9223372036854775808 := by
    cases c with
    | none => decide
    | some k => exact (hfit k rfl).1
  have hks : IsI64 (c.getD 1 * st) := by
    cases c with
    | none => simpa using hst
    | some k => exact (hfit k rfl).2
  unfold sliceRange
  by_cases hn0 : n = 0
  · subst hn0
    rw [if_pos rfl]
    have : pyLen 0 a b c = 0 := by
      unfold pyLen
      have h1 := pyStart_range 0 (c.getD 1) a
      have h2 := pyStop_range 0 (c.getD 1) b
      refine pyCount_eq_zero hk ?_
      by_cases hp : 0 < c.getD 1
      · have := h1.1 hp; have := h2.1 hp; left; omega
      · have := h1.2 hp; have := h2.2 hp; right; omega
    exact ⟨0, 0, by rw [this]; rfl, axisOk_empty this⟩
  rw [if_neg hn0, sliceStep_ok h2 hc h64.2.2]
  have hn0 : 0 < n := by omega
  have ra := pyStart_range n (c.getD 1) a
  have rb := pyStop_range n (c.getD 1) b
  show ∃ st' d, Res.bind (sliceBeg p0 (c.getD 1) n) _ = _ ∧ _
  rcases sliceBeg_ok h0 h64.1 hn0 hn hk with ⟨e1, hs⟩ | ⟨e1, hs0, hs1⟩
  · have hl : pyLen n a b c = 0 := by
      unfold pyLen
      refine pyCount_eq_zero hk ?_
      rcases hs with ⟨hp, e⟩ | ⟨hp, e⟩
      · left; have := rb.1 hp; omega
      · right; have := rb.2 (by omega); omega
    rw [e1]
    exact ⟨0, 0, by rw [hl]; rfl, axisOk_empty hl⟩
  rw [e1]
  show ∃ st' d, Res.bind (sliceEnd p1 (c.getD 1) n) _ = _ ∧ _
  rcases sliceEnd_ok h1 h64.2.1 hn0 hn hk with ⟨e2, hs⟩ | e2
  · have hl : pyLen n a b c = 0 := by
      unfold pyLen
      refine pyCount_eq_zero hk ?_
      rcases hs with ⟨hp, e⟩ | ⟨hp, e⟩
      · left; omega
      · right; omega
    rw [e2]
    exact ⟨0, 0, by rw [hl]; rfl, axisOk_empty hl⟩
  rw [e2]
  have hlen : pyLen n a b c = pyCount (pyStart n (c.getD 1) a) (pyStop n (c.getD 1) b) (c.getD 1) := rfl
  have hat : ∀ j, j < pyLen n a b c → pyAt n a c j < n ∧ ((pyAt n a c j : Nat) : Int) = pyStart n (c.getD 1) a + j * c.getD 1 :=
    fun j hj => pyAt_lt hc hj
  generalize hbeg : pyStart n (c.getD 1) a = beg at *
  generalize hend : pyStop n (c.getD 1) b = e at *
  generalize hkk : c.getD 1 = k at *
  by_cases hemp : (k > 0 ∧ beg ≥ e) ∨ (k < 0 ∧ beg ≤ e)
  · have hl : pyLen n a b c = 0 := by rw [hlen]; exact pyCount_eq_zero hk (by omega)
    refine ⟨0, 0, ?_, axisOk_empty hl⟩
    show (if _ then _ else _) = _
    rw [if_pos hemp, hl]; rfl
  · unfold IsI64 at hk64
    have r1 : sSub e beg = .ok (e - beg) := by
      unfold sSub; rw [if_pos (fitsS_iff.2 (by by_cases hp : 0 < k <;> omega))]
    have r2 : sAbs (e - beg) = .ok ((e - beg).natAbs : Int) := by
      unfold sAbs; rw [if_pos (fitsS_iff.2 (by by_cases hp : 0 < k <;> omega))]
    have r3 : sAbs k = .ok (k.natAbs : Int) := by
      unfold sAbs; rw [if_pos (fitsS_iff.2 (by omega))]
    have r4 : sMul k st = .ok (k * st) := sMul_ok (fitsS_iff.2 hks)
    have r5 : sMul beg st = .ok (beg * st) := by
      rw [Int.mul_comm beg st] at *
      have := natAbs_mul_le (st := st) hs0 hs1
      unfold sMul
      rw [Int.mul_comm beg st, if_pos (fitsS_iff.2 (by omega))]
    have hcount : wrapU (Int.tdiv (((e - beg).natAbs : Int) - 1) (k.natAbs : Int) + 1) = pyLen n a b c := by
      rw [hlen]
      exact rangeCount hk hn hs0 hs1 (fun h => (rb.1 h).2) (fun h => (rb.2 (by omega)).1) hemp
    refine ⟨k * st, beg * st, ?_, ?_⟩
    · show (if _ then _ else _) = _
      rw [if_neg hemp, r1]
      show Res.bind (sAbs (e - beg)) _ = _
      rw [r2]
      show Res.bind (sAbs k) _ = _
      rw [r3]
      show Res.bind (sMul k st) _ = _
      rw [r4]
      show Res.bind (sMul beg st) _ = _
      rw [r5]
      show Res.ok (wrapU _, _, _) = _
      rw [hcount]
    · have hmul : pyLen n a b c ≠ 0 → k.natAbs * (pyLen n a b c - 1) ≤ n - 1 := by
        intro hl
        have h1 := hat (pyLen n a b c - 1) (by omega)
        have h2 : ((pyLen n a b c - 1 : Nat) : Int) * k = pyAt n a c (pyLen n a b c - 1) - beg := by omega
        have h3 := congrArg Int.natAbs h2
        rw [Int.natAbs_mul, Int.natAbs_natCast, Nat.mul_comm] at h3
        omega
      refine ⟨fun j hj => ?_, ?_, hks, ?_⟩
      · rw [(hat j hj).2]; ring
      · by_cases hl : pyLen n a b c = 0
        · omega
        · have h1 := hmul hl
          have h2 : 1 * (pyLen n a b c - 1) ≤ k.natAbs * (pyLen n a b c - 1) := Nat.mul_le_mul_right _ (by omega)
          omega
      · by_cases hl : pyLen n a b c = 0
        · simp [hl]
        · rw [Int.natAbs_mul, Nat.mul_comm k.natAbs, Nat.mul_assoc]
          exact Nat.mul_le_mul_left _ (hmul hl)

/-- **One axis** indexed by a number. -/
theorem sliceIndex_ok {k : Int} {p : Str} {n : Nat} {st : Int} (hp : Numeral k p) (h64 : IsI64 k)
    (hk : -(n : Int) ≤ k ∧ k < n) (hn : n ≤ 4611686018427387904) (hspan : st.natAbs * (n - 1) < 4611686018427387904) :
    sliceIndex p n st = .ok (st * (fromEnd n k).toNat) ∧ (fromEnd n k).toNat < n := by
  have w1 : wrapS (n : Int) = n := wrapS_eq_self (by omega) (by omega)
  have e : (if k < 0 then wrapS (k + n) else k) = fromEnd n k := by
    unfold fromEnd
    split
    · rw [wrapS_eq_self (by omega) (by omega)]; omega
    · rfl
  have hr : 0 ≤ fromEnd n k ∧ fromEnd n k < n := by unfold fromEnd; split <;> omega
  refine ⟨?_, by omega⟩
  unfold sliceIndex
  rw [stoll_numeral hp h64]
  show Res.bind (runExpect (decide (_ ∧ _))) _ = _
  simp only [e, w1]
  rw [runExpect_decide ⟨hr.1, hr.2⟩]
  show sMul _ _ = _
  rw [Int.toNat_of_nonneg hr.1]
  exact sMul_fits (natAbs_mul_le hr.1 hr.2) (by omega)

theorem sliceIndex_throw {k : Int} {p : Str} {n : Nat} {st : Int} (hp : Numeral k p) (h64 : IsI64 k)
    (hk : ¬ (-(n : Int) ≤ k ∧ k < n)) (hn : n ≤ 4611686018427387904) :
    sliceIndex p n st = .throw .runtime := by
  have w1 : wrapS (n : Int) = n := wrapS_eq_self (by omega) (by omega)
  unfold IsI64 at h64
  have e : (if k < 0 then wrapS (k + n) else k) = fromEnd n k := by
    unfold fromEnd
    split
    · rw [wrapS_eq_self (by omega) (by omega)]; omega
    · rfl
  have hr : ¬ (fromEnd n k ≥ 0 ∧ fromEnd n k < n) := by unfold fromEnd; split <;> omega
  unfold sliceIndex
  rw [stoll_numeral hp h64]
  show Res.bind (runExpect (decide (_ ∧ _))) _ = _
  simp only [e, w1]
  rw [runExpect_not hr]
  rfl

/-! ### All axes -/

theorem pyLen_whole (n : Nat) : pyLen n none none none = n := by
  unfold pyLen pyCount pyStart pyStop
  simp

theorem pyAt_whole (n j : Nat) : pyAt n none none j = j := by
  unfold pyAt pyStart
  simp

theorem sliceGo_index {ds : List Str} {w : Str} (n : Nat) (ns : List Nat) (st : Int) (sts : List Int) (off : Nat)
    (hd : (match ds with | [] => [[], [], []] | d :: _ => (ssplit d ':').map trim) = [w]) :
    sliceGo ds (n :: ns) (st :: sts) off = (do
      let d ← sliceIndex w n st
      sliceGo ds.tail ns sts (wrapU (off + d))) := by
  rw [sliceGo.eq_def]
  · dsimp only
    split
    · rename_i p heq
      have := heq.symm.trans hd
      obtain rfl : p = w := by simpa using this
      rfl
    · rename_i h1
      exact absurd hd (h1 w)

theorem sliceGo_range {ds ps : List Str} (n : Nat) (ns : List Nat) (st : Int) (sts : List Int) (off : Nat)
    (hd : (match ds with | [] => [[], [], []] | d :: _ => (ssplit d ':').map trim) = ps) (hl : ps.length ≠ 1) :
    sliceGo ds (n :: ns) (st :: sts) off = (do
      let (n', st', d) ← sliceRange (ps.getD 0 []) (ps.getD 1 []) (ps.getD 2 []) n st
      let (ns', sts', offset') ← sliceGo ds.tail ns sts (wrapU (off + d))
      return (n' :: ns', st' :: sts', offset')) := by
  rw [sliceGo.eq_def]
  · dsimp only
    split
    · rename_i p heq
      have := heq.symm.trans hd
      subst this
      simp at hl
    · rename_i h1
      subst hd; rfl

/-- The specification and the parts of the first axis, and those of the others. -/
theorem AxesOf.first {specs : List AxisSpec} {ds : List Str} (h : AxesOf specs ds) :
    ∃ x xs ps, PartsOf x ps ∧ (match ds with | [] => [[], [], []] | d :: _ => (ssplit d ':').map trim) = ps ∧
      AxesOf xs ds.tail ∧ ((specs = x :: xs) ∨ (specs = [] ∧ x = .range none none none ∧ xs = [])) := by
  cases h with
  | nil => exact ⟨.range none none none, [], [[], [], []], .range (by simp) rfl rfl rfl, rfl, .nil, Or.inr ⟨rfl, rfl, rfl⟩⟩
  | whole => exact ⟨.range none none none, [], [[], [], []], .range (by simp) rfl rfl rfl, rfl, .nil, Or.inl rfl⟩
  | cons h1 h2 => exact ⟨_, _, _, h1.parts, rfl, h2, Or.inl rfl⟩

theorem selShape_whole (ns : List Nat) (n : Nat) : selShape [.range none none none] (n :: ns) = n :: ns := by
  simp only [selShape, pyLen_whole]
theorem selIndex_nil (ns idx : List Nat) : selIndex [] ns idx = idx := by
  cases ns <;> rfl
theorem selIndex_whole (ns : List Nat) (n : Nat) (idx : List Nat) :
    selIndex [.range none none none] (n :: ns) idx = idx := by
  cases idx with
  | nil => simp only [selIndex]
  | cons j idx => simp only [selIndex, pyAt_whole, selIndex_nil]

/-- What is known about the layout of a slice. -/
structure SliceOk (specs : List AxisSpec) (sizes : List Nat) (strides sts' : List Int) (D : Int) : Prop where
  len : sts'.length = (selShape specs sizes).length
  tame : Tame (selShape specs sizes) sts'
  pos : ∀ idx, InBox (selShape specs sizes) idx → InBox sizes (selIndex specs sizes idx) ∧
    D + dot sts' idx = dot strides (selIndex specs sizes idx)

theorem sliceGo_ok : ∀ (sizes : List Nat) (strides : List Int) (specs : List AxisSpec) (ds : List Str) (off : Nat),
    AxesOf specs ds → Selects specs sizes → (∀ x ∈ specs, x.Is64) → strides.length = sizes.length →
    Tame sizes strides → StepsFit specs strides → off < 18446744073709551616 →
    ∃ sts' D, sliceGo ds sizes strides off = .ok (selShape specs sizes, sts', wrapU (off + D)) ∧
      SliceOk specs sizes strides sts' D
  | [], strides, specs, ds, off, ha, hs, h64, hl, ht, hf, ho => by
    have : specs = [] := by cases specs with
      | nil => rfl
      | cons => exact absurd hs (by simp [Selects])
    subst this
    refine ⟨[], 0, ?_, ?_⟩
    · rw [sliceGo]
      have : wrapU ((off : Int) + 0) = off := by rw [Int.add_zero]; exact wrapU_natCast ho
      rw [this]; rfl
    · refine ⟨rfl, trivial, fun idx hb => ⟨hb, ?_⟩⟩
      have : idx = [] := by cases idx with
        | nil => rfl
        | cons => exact absurd hb (by simp [selShape, InBox])
      subst this
      have : strides = [] := List.length_eq_zero_iff.1 (by simpa using hl)
      subst this; rfl
  | n :: ns, [], specs, ds, off, ha, hs, h64, hl, ht, hf, ho => by simp at hl
  | n :: ns, st :: sts, specs, ds, off, ha, hs, h64, hl, ht, hf, ho => by
    obtain ⟨x, xs, ps, hp, hps, htl, hcase⟩ := ha.first
    -- an omitted specification is the whole axis
    have key : Selects (x :: xs) (n :: ns) → (∀ y ∈ x :: xs, y.Is64) → StepsFit (x :: xs) (st :: sts) →
        ∃ sts' D, sliceGo ds (n :: ns) (st :: sts) off =
        .ok (selShape (x :: xs) (n :: ns), sts', wrapU (off + D)) ∧ SliceOk (x :: xs) (n :: ns) (st :: sts) sts' D := by
      clear hcase hs h64 hf
      intro hs h64 hf
      obtain ⟨hn, hst, hspan, htame⟩ := ht
      have hlen : sts.length = ns.length := by simpa using hl
      have h64' : ∀ y ∈ xs, y.Is64 := fun y hy => h64 y (by simp [hy])
      have hx64 := h64 x (by simp)
      cases hp with
      | @index k w hw =>
        have hf' : StepsFit xs sts := by simpa [StepsFit] using hf
        obtain ⟨hk, hs'⟩ := hs
        obtain ⟨e1, hlt⟩ := sliceIndex_ok (st := st) hw hx64 hk hn hspan
        obtain ⟨sts', D, e2, ok⟩ := sliceGo_ok ns sts xs ds.tail (wrapU (off + st * (fromEnd n k).toNat)) htl hs' h64' hlen
          htame hf' (wrapU_lt _)
        refine ⟨sts', st * (fromEnd n k).toNat + D, ?_, ?_⟩
        · rw [sliceGo_index n ns st sts off hps, e1]
          show sliceGo _ _ _ _ = _
          rw [e2, wrapU_wrapU_add]
          simp only [selShape, Int.add_assoc]
        · refine ⟨ok.len, ok.tame, fun idx hb => ?_⟩
          obtain ⟨h1, h2⟩ := ok.pos idx hb
          refine ⟨⟨hlt, h1⟩, ?_⟩
          simp only [selIndex, dot]
          rw [← h2]; ring
      | @range a b c _ hl1 p0 p1 p2 =>
        obtain ⟨hc, hs'⟩ := hs
        have hf' : StepsFit xs sts ∧ ∀ k, c = some k → k ≠ -9223372036854775808 ∧ IsI64 (k * st) := by
          cases c with
          | none => exact ⟨by simpa [StepsFit] using hf, fun k hk => by simp at hk⟩
          | some k =>
            obtain ⟨h1, h2, h3⟩ := hf
            exact ⟨h3, fun k' hk' => by obtain rfl := Option.some.inj hk'; exact ⟨h1, h2⟩⟩
        obtain ⟨st', d, e1, ax⟩ := sliceRange_ok p0 p1 p2 hx64 hc hn hst hspan hf'.2
        obtain ⟨sts', D, e2, ok⟩ := sliceGo_ok ns sts xs ds.tail (wrapU (off + d)) htl hs' h64' hlen
          htame hf'.1 (wrapU_lt _)
        refine ⟨st' :: sts', d + D, ?_, ?_⟩
        · rw [sliceGo_range n ns st sts off hps hl1, e1]
          show Res.bind (sliceGo _ _ _ _) _ = _
          rw [e2, wrapU_wrapU_add]
          simp only [selShape, Int.add_assoc]
          rfl
        · refine ⟨by simpa [selShape] using ok.len, ⟨?_, ax.fits, ?_, ok.tame⟩, fun idx hb => ?_⟩
          · exact Nat.le_trans ax.le hn
          · exact Nat.lt_of_le_of_lt ax.span hspan
          · cases idx with
            | nil => exact absurd hb (by simp [selShape, InBox])
            | cons j idx =>
              obtain ⟨hj, hb'⟩ := hb
              obtain ⟨h1, h2⟩ := ok.pos idx hb'
              refine ⟨⟨(pyAt_lt hc hj).1, h1⟩, ?_⟩
              simp only [selIndex, dot]
              rw [← h2, ← ax.pos j hj]; ring
    rcases hcase with hc | ⟨hc, hx, hxs⟩
    · subst hc; exact key hs h64 hf
    · subst hc hx hxs
      obtain ⟨sts', D, e, ok⟩ := key ⟨by simp, trivial⟩ (by simp [AxisSpec.Is64]) (by simp [StepsFit])
      refine ⟨sts', D, ?_, ?_⟩
      · rw [e, selShape_whole]; rfl
      · have e' : selShape [] (n :: ns) = selShape [.range none none none] (n :: ns) := by rw [selShape_whole]; rfl
        refine ⟨by rw [e']; exact ok.len, by rw [e']; exact ok.tame, fun idx hb => ?_⟩
        have := ok.pos idx (by rw [← e']; exact hb)
        rw [selIndex_whole] at this
        rw [selIndex_nil]; exact this

/-! ### Any string: the sliced axis stays inside the axis -/

theorem stoll_fits {p : Str} {x : Int} (h : stoll p = .ok x) : IsI64 x := by
  have key : ∀ q : Bool × Str, (let (neg, s) := q
       let ds := s.takeWhile isDigitC
       if ds = [] then (.throw .invalidArgument : Res Int)
       else
        let v : Int := if neg then -(digitsVal ds : Int) else digitsVal ds
        if fitsS v then .ok v else .throw .outOfRange) = .ok x → IsI64 x := by
    rintro ⟨n, t⟩ hq
    dsimp only at hq
    by_cases h1 : t.takeWhile isDigitC = []
    · rw [if_pos h1] at hq; cases hq
    · rw [if_neg h1] at hq
      generalize (if n = true then -(digitsVal (t.takeWhile isDigitC) : Int) else _) = v at hq
      by_cases h2 : fitsS v = true
      · rw [if_pos h2] at hq; cases hq; exact fitsS_iff.1 h2
      · rw [if_neg h2] at hq; cases hq
  exact key _ h

theorem Res.bind_eq_ok {α β : Type} {x : Res α} {f : α → Res β} {b : β} (h : (x >>= f) = .ok b) :
    ∃ a, x = .ok a ∧ f a = .ok b := by
  cases x with
  | ok a => exact ⟨a, rfl, h⟩
  | throw e => cases h
  | ub u => cases h

theorem runExpect_ok {b : Bool} {u : Unit} (h : runExpect b = .ok u) : b = true := by
  cases b
  · cases h
  · rfl

theorem sliceStep_inv {p : Str} {k : Int} (h : sliceStep p = .ok k) : k ≠ 0 ∧ IsI64 k := by
  unfold sliceStep at h
  split at h
  · obtain ⟨x, h1, h⟩ := Res.bind_eq_ok h
    obtain ⟨_, h2, h⟩ := Res.bind_eq_ok h
    cases h
    exact ⟨by simpa using runExpect_ok h2, stoll_fits h1⟩
  · cases h
    exact ⟨by decide, by decide, by decide⟩

theorem sliceBeg_inv {p : Str} {k beg : Int} {n : Nat} (hn : 0 < n) (hn' : n ≤ 4611686018427387904)
    (h : sliceBeg p k n = .ok (some beg)) : 0 ≤ beg ∧ beg < n := by
  have w1 : wrapS (n : Int) = n := wrapS_eq_self (by omega) (by omega)
  have w2 : wrapS ((n : Int) - 1) = n - 1 := wrapS_eq_self (by omega) (by omega)
  unfold sliceBeg at h
  rw [w1, w2] at h
  split at h
  · obtain ⟨x, h1, h⟩ := Res.bind_eq_ok h
    dsimp only at h
    generalize (if x < 0 then wrapS (x + n) else x) = y at h
    by_cases c1 : y < 0 ∧ ¬ k > 0
    · rw [if_pos c1] at h; cases h
    · rw [if_neg c1] at h
      generalize hz : (if y < 0 then 0 else y) = z at h
      have hz0 : 0 ≤ z := by rw [← hz]; split <;> omega
      by_cases c2 : z ≥ n
      · rw [if_pos c2] at h
        by_cases c3 : k > 0
        · rw [if_pos c3] at h; cases h
        · rw [if_neg c3] at h; cases h; omega
      · rw [if_neg c2] at h
        cases h; omega
  · cases h
    split <;> omega

theorem sliceEnd_inv {p : Str} {k e : Int} {n : Nat} (hn : 0 < n) (hn' : n ≤ 4611686018427387904)
    (h : sliceEnd p k n = .ok (some e)) : (0 < k → e ≤ n) ∧ (k < 0 → -1 ≤ e) := by
  have w1 : wrapS (n : Int) = n := wrapS_eq_self (by omega) (by omega)
  unfold sliceEnd at h
  rw [w1] at h
  split at h
  · obtain ⟨x, h1, h⟩ := Res.bind_eq_ok h
    dsimp only at h
    generalize (if x < 0 then wrapS (x + n) else x) = y at h
    by_cases c1 : k > 0
    · rw [if_pos c1] at h
      split at h
      · cases h
      · split at h <;> cases h <;> omega
    · rw [if_neg c1] at h
      generalize hz : (if y < 0 then -1 else y) = z at h
      have hz0 : -1 ≤ z := by rw [← hz]; split <;> omega
      by_cases c2 : z ≥ (n : Int) - 1
      · rw [if_pos c2] at h; cases h
      · rw [if_neg c2] at h; cases h; omega
  · cases h
    split <;> omega

theorem sliceRange_inv {p0 p1 p2 : Str} {n n' : Nat} {st st' d : Int} (hn : n ≤ 4611686018427387904)
    (h : sliceRange p0 p1 p2 n st = .ok (n', st', d)) :
    n' ≤ n ∧ IsI64 st' ∧ st'.natAbs * (n' - 1) ≤ st.natAbs * (n - 1) ∧
      ∀ j, j < n' → ∃ x, x < n ∧ d + st' * j = st * (x : Nat) := by
  have h0 : IsI64 0 := ⟨by decide, by decide⟩
  unfold sliceRange at h
  by_cases hn0 : n = 0
  · rw [if_pos hn0] at h
    cases h
    exact ⟨by omega, h0, by simp, fun j hj => by omega⟩
  rw [if_neg hn0] at h
  obtain ⟨k, hk, h⟩ := Res.bind_eq_ok h
  have hk := sliceStep_inv hk
  obtain ⟨ob, hb, h⟩ := Res.bind_eq_ok h
  cases ob with
  | none => cases h; exact ⟨by omega, h0, by simp, fun j hj => by omega⟩
  | some beg =>
    have hb := sliceBeg_inv (by omega) hn hb
    obtain ⟨oe, he, h⟩ := Res.bind_eq_ok h
    cases oe with
    | none => cases h; exact ⟨by omega, h0, by simp, fun j hj => by omega⟩
    | some e =>
      have he := sliceEnd_inv (by omega) hn he
      by_cases hemp : (k > 0 ∧ beg ≥ e) ∨ (k < 0 ∧ beg ≤ e)
      · dsimp only at h
        rw [if_pos hemp] at h
        cases h; exact ⟨by omega, h0, by simp, fun j hj => by omega⟩
      · dsimp only at h
        rw [if_neg hemp] at h
        obtain ⟨_, e1, h⟩ := Res.bind_eq_ok h
        obtain ⟨_, e2, h⟩ := Res.bind_eq_ok h
        obtain ⟨_, e3, h⟩ := Res.bind_eq_ok h
        obtain ⟨_, e4, h⟩ := Res.bind_eq_ok h
        obtain ⟨_, e5, h⟩ := Res.bind_eq_ok h
        have g1 : ∀ {a b x : Int}, sSub a b = .ok x → x = a - b := by
          intro a b x h; unfold sSub at h; split at h <;> cases h; rfl
        have g2 : ∀ {a x : Int}, sAbs a = .ok x → x = a.natAbs := by
          intro a x h; unfold sAbs at h; split at h <;> cases h; rfl
        have g3 : ∀ {a b x : Int}, sMul a b = .ok x → x = a * b ∧ IsI64 x := by
          intro a b x h; unfold sMul at h
          split at h
          · rename_i hf; cases h; exact ⟨rfl, fitsS_iff.1 hf⟩
          · cases h
        have q1 := g1 e1
        subst q1
        have q2 := g2 e2
        subst q2
        have q3 := g2 e3
        subst q3
        obtain ⟨q4, q4'⟩ := g3 e4
        subst q4
        obtain ⟨q5, _⟩ := g3 e5
        subst q5
        have hcount := rangeCount hk.1 hn hb.1 hb.2 he.1 he.2 hemp
        rw [hcount] at h
        cases h
        have hs := range_span hk.1 hb.1 hb.2 he.1 he.2
        refine ⟨hs.1, q4', ?_, fun j hj => ?_⟩
        · rw [Int.natAbs_mul, Nat.mul_comm k.natAbs, Nat.mul_assoc]
          exact Nat.mul_le_mul_left _ hs.2
        · have := range_mem hk.1 hb.1 hb.2 he.1 he.2 hj
          refine ⟨(beg + j * k).toNat, by omega, ?_⟩
          rw [Int.toNat_of_nonneg this.1]; ring

theorem sliceIndex_inv {p : Str} {n : Nat} {st d : Int} (hn : n ≤ 4611686018427387904)
    (h : sliceIndex p n st = .ok d) : ∃ x, x < n ∧ d = st * (x : Nat) := by
  have w1 : wrapS (n : Int) = n := wrapS_eq_self (by omega) (by omega)
  unfold sliceIndex at h
  rw [w1] at h
  obtain ⟨k, _, h⟩ := Res.bind_eq_ok h
  dsimp only at h
  generalize (if k < 0 then wrapS (k + n) else k) = y at h
  obtain ⟨_, h2, h⟩ := Res.bind_eq_ok h
  have h2 := of_decide_eq_true (runExpect_ok h2)
  unfold sMul at h
  split at h
  · cases h
    exact ⟨y.toNat, by omega, by rw [Int.toNat_of_nonneg h2.1]⟩
  · cases h

/-- A layout whose elements are among those of another one on the same storage: every index `idx` of it is an index
`σ idx` of the other one. -/
def Within (ns' : List Nat) (sts' : List Int) (D : Int) (ns : List Nat) (sts : List Int) : Prop :=
  ∃ σ : List Nat → List Nat, ∀ idx, InBox ns' idx → InBox ns (σ idx) ∧ D + dot sts' idx = dot sts (σ idx)

/-- Whatever the string is, if slicing succeeds then the result is a part of the tensor. -/
theorem sliceGo_inv : ∀ (sizes : List Nat) (strides : List Int) (ds : List Str) (off : Nat) (ns' : List Nat)
    (sts' : List Int) (off' : Nat), strides.length = sizes.length → Tame sizes strides → off < 18446744073709551616 →
    sliceGo ds sizes strides off = .ok (ns', sts', off') →
    ∃ D : Int, off' = wrapU (off + D) ∧ sts'.length = ns'.length ∧ Tame ns' sts' ∧ Within ns' sts' D sizes strides
  | [], strides, ds, off, ns', sts', off', hl, ht, ho, h => by
    rw [sliceGo] at h
    cases h
    have : strides = [] := List.length_eq_zero_iff.1 (by simpa using hl)
    subst this
    refine ⟨0, ?_, rfl, trivial, id, fun idx hb => ⟨hb, ?_⟩⟩
    · rw [Int.add_zero, wrapU_natCast ho]
    · simp
  | n :: ns, [], ds, off, ns', sts', off', hl, ht, ho, h => by simp at hl
  | n :: ns, st :: sts, ds, off, ns', sts', off', hl, ht, ho, h => by
    obtain ⟨hn, hst, hspan, htame⟩ := ht
    have hlen : sts.length = ns.length := by simpa using hl
    generalize hps : (match ds with | [] => [[], [], []] | d :: _ => (ssplit d ':').map trim) = ps
    by_cases hl1 : ps.length = 1
    · obtain ⟨w, rfl⟩ := List.length_eq_one_iff.1 hl1
      rw [sliceGo_index n ns st sts off hps] at h
      obtain ⟨d, h1, h⟩ := Res.bind_eq_ok h
      obtain ⟨x, hx, rfl⟩ := sliceIndex_inv hn h1
      obtain ⟨D, e, l, t, σ, hσ⟩ := sliceGo_inv ns sts _ _ _ _ _ hlen htame (wrapU_lt _) h
      refine ⟨st * (x : Nat) + D, ?_, l, t, fun idx => x :: σ idx, fun idx hb => ?_⟩
      · rw [e, wrapU_wrapU_add, Int.add_assoc]
      · obtain ⟨h2, h3⟩ := hσ idx hb
        refine ⟨⟨hx, h2⟩, ?_⟩
        simp only [dot]
        rw [← h3]; ring
    · rw [sliceGo_range n ns st sts off hps hl1] at h
      obtain ⟨⟨n', st', d⟩, h1, h⟩ := Res.bind_eq_ok h
      obtain ⟨⟨ns2, sts2, off2⟩, h2, h⟩ := Res.bind_eq_ok h
      cases h
      obtain ⟨hle, hfit, hsp, hx⟩ := sliceRange_inv hn h1
      obtain ⟨τ, hτ⟩ : ∃ τ : Nat → Nat, ∀ j, j < n' → τ j < n ∧ d + st' * j = st * ((τ j : Nat) : Int) :=
        ⟨fun j => if hj : j < n' then (hx j hj).choose else 0, fun j hj => by
          simp only [hj, dif_pos]; exact (hx j hj).choose_spec⟩
      obtain ⟨D, e, l, t, σ, hσ⟩ := sliceGo_inv ns sts _ _ _ _ _ hlen htame (wrapU_lt _) h2
      refine ⟨d + D, ?_, by simpa using l, ⟨Nat.le_trans hle hn, hfit, Nat.lt_of_le_of_lt hsp hspan, t⟩,
        fun idx => τ (idx.headD 0) :: σ idx.tail, fun idx hb => ?_⟩
      · rw [e, wrapU_wrapU_add, Int.add_assoc]
      · cases idx with
        | nil => exact absurd hb (by simp [InBox])
        | cons j idx =>
          obtain ⟨hj, hb'⟩ := hb
          obtain ⟨h3, h4⟩ := hσ idx hb'
          obtain ⟨h5, h6⟩ := hτ j hj
          refine ⟨⟨h5, h3⟩, ?_⟩
          simp only [dot]
          simp only [List.headD_cons, List.tail_cons]
          rw [← h4, ← h6]; ring

end INNC
