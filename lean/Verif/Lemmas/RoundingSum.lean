import Verif.Lemmas.Rounding
import Verif.Spec.Reduce
import Verif.Lemmas.Box
import Mathlib.Algebra.BigOperators.Group.List.Basic
import Mathlib.Algebra.Order.BigOperators.Group.List
import Mathlib.Tactic.Linarith
import Mathlib.Tactic.Ring
/-
Rounding errors of sums: induction along the list of elements.
-/
namespace INNC
open Spec
variable {F K : Type} [FOps F] [Field K] [LinearOrder K] [IsStrictOrderedRing K]

theorem asFloat_wide (r : Rounding F K) {dt : DType} (hdt : isInteger dt = false) {x : F} (hf : r.finite x)
    (hw : dt = .f32 → r.repr .f64 (r.val x) = true) (ht : |r.val x| ≤ r.top .f64) :
    r.finite (asFloat dt .f64 (.f x)) ∧ r.val (asFloat dt .f64 (.f x)) = r.val x := by
  unfold asFloat
  by_cases h : dt = .f64
  · simp only [if_pos h]; exact ⟨hf, trivial⟩
  · have h32 : dt = .f32 := by cases dt <;> first | rfl | (exact absurd rfl h) | cases hdt
    simp only [if_neg h]
    obtain ⟨h1, _, h3⟩ := r.cvt .f64 x hf ht
    exact ⟨h1, h3 (hw h32)⟩

theorem accType_float {dt : DType} (hdt : isInteger dt = false) : accType dt = .f64 := by
  unfold accType; rw [if_neg (by rw [hdt]; decide)]

theorem sum_le_abs (l : List F) (g : F → K) : |(l.map g).sum| ≤ (l.map fun x => |g x|).sum := by
  induction l with
  | nil => simp
  | cons a l ih =>
    simp only [List.map_cons, List.sum_cons]
    exact (abs_add_le _ _).trans (add_le_add_right ih _)

theorem sum_abs_nonneg (l : List F) (g : F → K) : 0 ≤ (l.map fun x => |g x|).sum :=
  (abs_nonneg _).trans (sum_le_abs l g)

theorem later_f64 {dt : DType} (hdt : isInteger dt = false) : later .f64 dt = .f64 := by
  cases dt <;> first | rfl | cases hdt

theorem elemArith_float (op : AOp) {dt : DType} (hdt : isInteger dt = false) (a : F) (x : Val F) :
    elemArith op .f64 dt (.f a) x = some (.f (fop op .f64 a (asFloat dt .f64 x))) := by
  unfold elemArith
  rw [if_neg (by rw [hdt]; rintro ⟨_, h⟩; cases h), later_f64 hdt]
  rfl

/-- Adding up from `a`, which is the rounded sum of elements with sum `s` and sum of absolute values `b`, `k` of them. -/
theorem foldl_error (r : Rounding F K) {dt : DType} (hdt : isInteger dt = false) (n : Nat) :
    ∀ (l : List F) (a : F) (k : Nat) (s b : K), k + l.length ≤ n → r.finite a → |s| ≤ b →
      |r.val a - s| ≤ ((1 + r.u .f64) ^ k - 1) * b → (∀ x ∈ l, r.finite x ∧ (dt = .f32 → r.repr .f64 (r.val x) = true)) →
      (1 + r.u .f64) ^ n * (b + (l.map fun x => |r.val x|).sum) ≤ r.top .f64 →
      ∃ y, (l.map Val.f).foldlM (elemArith .add .f64 dt) (.f a) = some (.f y) ∧ r.finite y ∧
        |r.val y - (s + (l.map r.val).sum)| ≤ ((1 + r.u .f64) ^ (k + l.length) - 1) * (b + (l.map fun x => |r.val x|).sum) := by
  have hu := r.u_nonneg .f64
  have h1u : 1 ≤ 1 + r.u .f64 := by linarith
  intro l
  induction l with
  | nil =>
    intro a k s b _ ha _ he _ _
    exact ⟨a, rfl, ha, by simpa using he⟩
  | cons x l ih =>
    intro a k s b hk ha hb he hl ht
    simp only [List.map_cons, List.sum_cons, List.length_cons] at ht hk ⊢
    have hb0 : 0 ≤ b := (abs_nonneg s).trans hb
    have hA := sum_abs_nonneg l r.val
    have hx0 := abs_nonneg (r.val x)
    have hpn : 1 ≤ (1 + r.u .f64) ^ n := one_le_pow₀ h1u
    have hpk : 1 ≤ (1 + r.u .f64) ^ k := one_le_pow₀ h1u
    have hpkn : (1 + r.u .f64) ^ k ≤ (1 + r.u .f64) ^ n := pow_le_pow_right₀ h1u (by omega)
    obtain ⟨hfx, hwx⟩ := hl x List.mem_cons_self
    have hxt : |r.val x| ≤ r.top .f64 := by
      refine le_trans ?_ ht
      nlinarith [mul_le_mul hpn (le_refl (b + (|r.val x| + (l.map fun x => |r.val x|).sum))) (by linarith) (by linarith)]
    obtain ⟨hf', hv'⟩ := asFloat_wide r hdt hfx hwx hxt
    -- size of the new partial sum before rounding
    have hsum : |r.val a + r.val x - (s + r.val x)| ≤ ((1 + r.u .f64) ^ k - 1) * b := by
      rw [show r.val a + r.val x - (s + r.val x) = r.val a - s by ring]; exact he
    have hsb : |s + r.val x| ≤ b + |r.val x| := (abs_add_le _ _).trans (by linarith)
    have hmag : |r.val a + r.val x| ≤ (1 + r.u .f64) ^ k * (b + |r.val x|) := by
      have h3 : |r.val a + r.val x| ≤ |r.val a + r.val x - (s + r.val x)| + |s + r.val x| := by
        have := abs_add_le (r.val a + r.val x - (s + r.val x)) (s + r.val x)
        rwa [sub_add_cancel] at this
      nlinarith [mul_nonneg (sub_nonneg.2 hpk) hx0]
    have hmt : |r.val a + r.val (asFloat dt .f64 (.f x))| ≤ r.top .f64 := by
      rw [hv']
      refine hmag.trans (le_trans ?_ ht)
      exact mul_le_mul hpkn (by linarith) (by linarith) (by linarith)
    obtain ⟨q1, q2, _⟩ := r.add .f64 a (asFloat dt .f64 (.f x)) ha hf' hmt
    rw [hv', r.slack_f64, add_zero] at q2
    have hnew : |r.val (FOps.add .f64 a (asFloat dt .f64 (.f x))) - (s + r.val x)| ≤ ((1 + r.u .f64) ^ (k + 1) - 1) * (b + |r.val x|) := by
      have h4 := abs_add_le (r.val (FOps.add .f64 a (asFloat dt .f64 (.f x))) - (r.val a + r.val x)) (r.val a + r.val x - (s + r.val x))
      rw [sub_add_sub_cancel] at h4
      have h5 : r.u .f64 * |r.val a + r.val x| ≤ r.u .f64 * ((1 + r.u .f64) ^ k * (b + |r.val x|)) := mul_le_mul_of_nonneg_left hmag hu
      rw [pow_succ]
      nlinarith [mul_nonneg (sub_nonneg.2 hpk) hx0]
    obtain ⟨y, e1, e2, e3⟩ := ih (FOps.add .f64 a (asFloat dt .f64 (.f x))) (k + 1) (s + r.val x) (b + |r.val x|) (by omega) q1 hsb hnew
      (fun z hz => hl z (List.mem_cons_of_mem _ hz)) (by rw [add_assoc]; exact ht)
    refine ⟨y, ?_, e2, ?_⟩
    · rw [List.foldlM_cons, elemArith_float .add hdt]
      exact e1
    · rw [show k + (l.length + 1) = k + 1 + l.length by omega, ← add_assoc, ← add_assoc]; exact e3

/-- Adding up without rounding error, if every partial sum is representable. -/
theorem foldl_exact (r : Rounding F K) {dt : DType} (hdt : isInteger dt = false) :
    ∀ (l : List F) (a : F), r.finite a →
      (∀ x ∈ l, r.finite x ∧ |r.val x| ≤ r.top .f64 ∧ (dt = .f32 → r.repr .f64 (r.val x) = true)) →
      (∀ k ≤ l.length, r.repr .f64 (r.val a + ((l.take k).map r.val).sum) = true ∧ |r.val a + ((l.take k).map r.val).sum| ≤ r.top .f64) →
      ∃ y, (l.map Val.f).foldlM (elemArith .add .f64 dt) (.f a) = some (.f y) ∧ r.finite y ∧ r.val y = r.val a + (l.map r.val).sum := by
  intro l
  induction l with
  | nil => intro a ha _ _; exact ⟨a, rfl, ha, by simp⟩
  | cons x l ih =>
    intro a ha hl hp
    obtain ⟨hfx, hxt, hwx⟩ := hl x List.mem_cons_self
    obtain ⟨hf', hv'⟩ := asFloat_wide r hdt hfx hwx hxt
    have h1 := hp 1 (by simp)
    simp only [List.take_succ_cons, List.take_zero, List.map_cons, List.map_nil, List.sum_cons, List.sum_nil, add_zero] at h1
    obtain ⟨q1, _, q3⟩ := r.add .f64 a (asFloat dt .f64 (.f x)) ha hf' (by rw [hv']; exact h1.2)
    rw [hv'] at q3
    obtain ⟨y, e1, e2, e3⟩ := ih (FOps.add .f64 a (asFloat dt .f64 (.f x))) q1 (fun z hz => hl z (List.mem_cons_of_mem _ hz))
      (fun k hk => by
        have := hp (k + 1) (by simpa using hk)
        simp only [List.take_succ_cons, List.map_cons, List.sum_cons] at this
        rw [q3 h1.1, add_assoc]; exact this)
    refine ⟨y, ?_, e2, ?_⟩
    · rw [List.map_cons, List.foldlM_cons, elemArith_float .add hdt]; exact e1
    · rw [e3, q3 h1.1, List.map_cons, List.sum_cons, add_assoc]

theorem elems_f (s : List Nat) (f : List Nat → F) : elems s (fun idx => .f (f idx)) = ((rowMajor s).map f).map Val.f := by
  unfold elems; rw [List.map_map]; rfl

theorem roundedSum_error (r : Rounding F K) {dt : DType} {s : List Nat} {f : List Nat → F} (hdt : isInteger dt = false)
    (hfin : ∀ idx, InBox s idx → r.finite (f idx)) (hwide : dt = .f32 → ∀ idx, InBox s idx → r.repr .f64 (r.val (f idx)) = true)
    (htop : (1 + r.u .f64) ^ vol s * boxSum s (fun idx => |r.val (f idx)|) ≤ r.top .f64) :
    ∃ y, sumOf dt s (fun idx => .f (f idx)) = some (.f y) ∧ r.finite y ∧
      |r.val y - boxSum s (fun idx => r.val (f idx))| ≤ ((1 + r.u .f64) ^ vol s - 1) * boxSum s (fun idx => |r.val (f idx)|) := by
  have hu := r.u_nonneg .f64
  cases s with
  | nil =>
    have e1 : boxSum [] (fun idx => r.val (f idx)) = r.val (f []) := by simp [boxSum, rowMajor]
    have e2 : boxSum [] (fun idx => |r.val (f idx)|) = |r.val (f [])| := by simp [boxSum, rowMajor]
    rw [e2] at htop ⊢
    rw [e1]
    have hv : vol ([] : List Nat) = 1 := rfl
    rw [hv, pow_one] at htop ⊢
    have hx0 := abs_nonneg (r.val (f []))
    have ht : |r.val (f [])| ≤ r.top .f64 := by nlinarith
    obtain ⟨q1, q2⟩ := asFloat_wide r hdt (hfin [] trivial) (fun h => hwide h [] trivial) ht
    refine ⟨_, ?_, q1, ?_⟩
    · unfold sumOf convert asFloat
      simp [accType_float hdt, isInteger]
    · rw [q2, sub_self, abs_zero]; nlinarith
  | cons n s =>
    have hl : ∀ x ∈ (rowMajor (n :: s)).map f, r.finite x ∧ (dt = .f32 → r.repr .f64 (r.val x) = true) := by
      intro x hx
      obtain ⟨idx, hidx, rfl⟩ := List.mem_map.1 hx
      exact ⟨hfin idx (mem_rowMajor.1 hidx), fun h => hwide h idx (mem_rowMajor.1 hidx)⟩
    have hlen : ((rowMajor (n :: s)).map f).length = vol (n :: s) := by rw [List.length_map, length_rowMajor]
    obtain ⟨y, h1, h2, h3⟩ := foldl_error r hdt (vol (n :: s)) ((rowMajor (n :: s)).map f) FOps.zero 0 0 0 (by omega) r.zero.1 (by simp)
      (by rw [r.zero.2]; simp) hl (by simpa [boxSum, List.map_map, Function.comp_def] using htop)
    refine ⟨y, ?_, h2, ?_⟩
    · unfold sumOf total
      simp only [accType_float hdt, elems_f]
      exact h1
    · rw [hlen] at h3
      simpa [boxSum, List.map_map, Function.comp_def] using h3

theorem roundedSum_exact (r : Rounding F K) {dt : DType} {s : List Nat} {f : List Nat → F} (hdt : isInteger dt = false)
    (hfin : ∀ idx, InBox s idx → r.finite (f idx) ∧ |r.val (f idx)| ≤ r.top .f64)
    (hwide : dt = .f32 → ∀ idx, InBox s idx → r.repr .f64 (r.val (f idx)) = true)
    (hp : ∀ k ≤ vol s, r.repr .f64 (((rowMajor s).take k).map fun idx => r.val (f idx)).sum = true ∧
      |(((rowMajor s).take k).map fun idx => r.val (f idx)).sum| ≤ r.top .f64) :
    ∃ y, sumOf dt s (fun idx => .f (f idx)) = some (.f y) ∧ r.finite y ∧ r.val y = boxSum s (fun idx => r.val (f idx)) := by
  cases s with
  | nil =>
    obtain ⟨q1, q2⟩ := asFloat_wide r hdt (hfin [] trivial).1 (fun h => hwide h [] trivial) (hfin [] trivial).2
    refine ⟨_, ?_, q1, ?_⟩
    · unfold sumOf convert asFloat
      simp [accType_float hdt, isInteger]
    · rw [q2]; simp [boxSum, rowMajor]
  | cons n s =>
    have hl : ∀ x ∈ (rowMajor (n :: s)).map f, r.finite x ∧ |r.val x| ≤ r.top .f64 ∧ (dt = .f32 → r.repr .f64 (r.val x) = true) := by
      intro x hx
      obtain ⟨idx, hidx, rfl⟩ := List.mem_map.1 hx
      exact ⟨(hfin idx (mem_rowMajor.1 hidx)).1, (hfin idx (mem_rowMajor.1 hidx)).2, fun h => hwide h idx (mem_rowMajor.1 hidx)⟩
    have hlen : ((rowMajor (n :: s)).map f).length = vol (n :: s) := by rw [List.length_map, length_rowMajor]
    obtain ⟨y, h1, h2, h3⟩ := foldl_exact r hdt ((rowMajor (n :: s)).map f) FOps.zero r.zero.1 hl (fun k hk => by
      have := hp k (by omega)
      rw [r.zero.2, zero_add, ← List.map_take, List.map_map]
      exact this)
    refine ⟨y, ?_, h2, ?_⟩
    · unfold sumOf total
      simp only [accType_float hdt, elems_f]
      exact h1
    · rw [h3, r.zero.2, zero_add, List.map_map]; rfl

theorem roundedMean_error (r : Rounding F K) {dt : DType} {s : List Nat} {f : List Nat → F} (hdt : isInteger dt = false) (h0 : vol s ≠ 0)
    (hfin : ∀ idx, InBox s idx → r.finite (f idx)) (hwide : dt = .f32 → ∀ idx, InBox s idx → r.repr .f64 (r.val (f idx)) = true)
    (hn : r.repr .f64 (vol s : ℤ) = true ∧ ((vol s : ℤ) : K) ≤ r.top .f64)
    (htop : (1 + r.u .f64) ^ vol s * boxSum s (fun idx => |r.val (f idx)|) ≤ r.top .f64) :
    ∃ y, meanOf dt s (fun idx => .f (f idx)) = some (.f y) ∧ r.finite y ∧ |r.val y - boxSum s (fun idx => r.val (f idx)) / vol s| ≤
        ((1 + r.u .f64) ^ (vol s + 1) - 1) * (boxSum s (fun idx => |r.val (f idx)|) / vol s) + r.tiny .f64 := by
  obtain ⟨a, h1, h2, h3⟩ := roundedSum_error r hdt hfin hwide htop
  have hu := r.u_nonneg .f64
  set n := vol s with hnv
  set A := boxSum s (fun idx => |r.val (f idx)|) with hA
  set S := boxSum s (fun idx => r.val (f idx)) with hS
  have hSA : |S| ≤ A := by
    have := sum_le_abs ((rowMajor s).map f) r.val
    simpa [hA, hS, boxSum, List.map_map, Function.comp_def] using this
  have hA0 : 0 ≤ A := (abs_nonneg _).trans hSA
  have hp : 1 ≤ (1 + r.u .f64) ^ n := one_le_pow₀ (by linarith)
  have hn1 : (1 : K) ≤ (n : K) := by exact_mod_cast Nat.one_le_iff_ne_zero.2 h0
  have hn0 : (0 : K) < (n : K) := by linarith
  have hcast : ((n : ℤ) : K) = (n : K) := by push_cast; rfl
  rw [hcast] at hn
  obtain ⟨q1, _, q3⟩ := r.ofInt .f64 n (by rw [hcast, abs_of_pos hn0]; exact hn.2)
  rw [hcast] at q3
  have q4 := q3 hn.1
  have ha : |r.val a| ≤ (1 + r.u .f64) ^ n * A := by
    have := abs_add_le (r.val a - S) S
    rw [sub_add_cancel] at this
    linarith
  have hat : |r.val a / r.val (FOps.ofInt .f64 n : F)| ≤ r.top .f64 := by
    rw [q4, abs_div, abs_of_pos hn0]
    refine le_trans ((div_le_iff₀ hn0).2 ?_) (ha.trans htop)
    nlinarith [abs_nonneg (r.val a)]
  obtain ⟨w1, w2, _⟩ := r.div .f64 a (FOps.ofInt .f64 n) h2 q1 (by rw [q4]; exact hn0.ne') hat
  rw [q4] at w2
  refine ⟨FOps.div .f64 a (FOps.ofInt .f64 n), ?_, w1, ?_⟩
  · unfold meanOf
    rw [if_neg h0, h1]
    simp only [accType_float hdt, hdt]
    exact elemArith_float .div rfl a _
  · have h5 := abs_add_le (r.val (FOps.div .f64 a (FOps.ofInt .f64 n)) - r.val a / n) (r.val a / n - S / n)
    rw [sub_add_sub_cancel, ← sub_div, abs_div (r.val a - S), abs_of_pos hn0] at h5
    rw [abs_div, abs_of_pos hn0] at w2
    have h6 : |r.val a - S| / n ≤ ((1 + r.u .f64) ^ n - 1) * (A / n) := by
      rw [← mul_div_assoc]; exact div_le_div_of_nonneg_right h3 hn0.le
    have h7 : r.u .f64 * (|r.val a| / n) ≤ r.u .f64 * ((1 + r.u .f64) ^ n * (A / n)) := by
      refine mul_le_mul_of_nonneg_left ?_ hu
      rw [← mul_div_assoc]; exact div_le_div_of_nonneg_right ha hn0.le
    rw [pow_succ]
    linarith [show ((1 + r.u .f64) ^ n * (1 + r.u .f64) - 1) * (A / n) = ((1 + r.u .f64) ^ n - 1) * (A / n) + r.u .f64 * ((1 + r.u .f64) ^ n * (A / n)) by ring]

end INNC
