import Verif.Props.Rounding
import Verif.Spec.IeeeRounding
/-
Property C67 for IEEE floats.
-/
namespace INNC
open Spec Tensor

/-! ### Lemmas -/

theorem nearest_exact {a d : Nat} (hd : 0 < d) (h : d ∣ a) : Ieee.nearest a d * d = a := by
  obtain ⟨m, rfl⟩ := h
  unfold Ieee.nearest
  rw [Nat.mul_mod_right, Nat.mul_zero, if_pos hd, Nat.mul_div_cancel_left _ hd, Nat.mul_comm]

theorem roundUnits_exact {t : DType} {a : Nat} (h : 2 ^ Ieee.place t a 1 ∣ a) : Ieee.roundUnits t a 1 = a := by
  unfold Ieee.roundUnits
  rw [Nat.one_mul, nearest_exact (Nat.two_pow_pos _) h]

/-- The doubles include the integers below `2^53`. -/
theorem represents_int {m : Int} (hm : m.natAbs < 9007199254740992) : Ieee.represents .f64 (m : ℚ) = true := by
  have hc : (m : ℚ) * (Ieee.one : Nat) = ((m * (Ieee.one : Nat) : Int) : ℚ) := by push_cast; rfl
  unfold Ieee.represents
  rw [hc, Rat.den_intCast, Rat.num_intCast, Int.natAbs_mul, Int.natAbs_natCast, Bool.and_eq_true, decide_eq_true_eq, decide_eq_true_eq]
  refine ⟨rfl, roundUnits_exact ?_⟩
  refine Nat.dvd_mul_left_of_dvd ?_ _
  rw [Ieee.one_eq]
  refine Nat.pow_dvd_pow _ ?_
  unfold Ieee.place Ieee.low Ieee.digits
  rw [if_neg (by decide), if_neg (by decide), Nat.div_one, Nat.max_zero]
  by_cases h0 : m.natAbs = 0
  · rw [h0, Nat.zero_mul]; decide
  · have h2 : m.natAbs * 2 ^ 1074 ≠ 0 := Nat.mul_ne_zero h0 (ne_of_gt (Nat.two_pow_pos _))
    have h1 : (m.natAbs * 2 ^ 1074).log2 < 53 + 1074 := by
      rw [Nat.log2_lt h2, Nat.pow_add]
      have hm' : m.natAbs < 2 ^ 53 := hm
      generalize 2 ^ 1074 = b at h2 ⊢
      exact Nat.mul_lt_mul_of_pos_right hm' (Nat.pos_of_ne_zero fun h => h2 (by rw [h, Nat.mul_zero]))
    have h3 : ∀ l, l < 53 + 1074 → l + 1 - 53 ≤ 1074 := fun l hl => by omega
    exact h3 _ h1

theorem abs_sum_take_le (g : List Nat → Int) : ∀ (l : List (List Nat)) (k : Nat), |((l.take k).map g).sum| ≤ (l.map fun x => |g x|).sum
  | [], k => by simp
  | a :: l, 0 => by
    have h1 := abs_sum_take_le g l 0
    simp only [List.take_zero, List.map_nil, List.sum_nil, abs_zero] at h1 ⊢
    rw [List.map_cons, List.sum_cons]
    exact add_nonneg (abs_nonneg _) h1
  | a :: l, k + 1 => by
    rw [List.take_succ_cons, List.map_cons, List.sum_cons, List.map_cons, List.sum_cons]
    exact (abs_add_le _ _).trans (Int.add_le_add_left (abs_sum_take_le g l k) _)

theorem sum_cast_eq {f : List Nat → ℚ} {n : List Nat → Int} : ∀ {l : List (List Nat)}, (∀ x ∈ l, f x = n x) →
    (l.map f).sum = ((l.map n).sum : Int)
  | [], _ => by simp
  | a :: l, h => by
    rw [List.map_cons, List.sum_cons, List.map_cons, List.sum_cons, Int.cast_add, h a (by simp), sum_cast_eq fun x hx => h x (by simp [hx])]

/-! ### The theorems -/

/-- **C67**, IEEE floats: the sum of `n` doubles, in the library's order of addition, differs from the exact sum by at most
`(1 + 2^-53)^n - 1` times the sum of the absolute values, as long as that cannot exceed the largest double. -/
theorem C67_ieee_sum {h : Heap Ieee} {t : Nat} {s : List Nat} {f : List Nat → Ieee}
    (hd : Denotes h t .f64 s fun idx => .f (f idx)) (hsize : vol s < 18446744073709551616) (hfin : ∀ idx, InBox s idx → (f idx).isFinite)
    (htop : (1 + 1 / 2 ^ 53) ^ vol s * boxSum s (fun idx => |(f idx).value|) ≤ 2 ^ 1024 - 2 ^ 971) :
    ∃ y : Ieee, y.isFinite ∧
      |y.value - boxSum s (fun idx => (f idx).value)| ≤ ((1 + 1 / 2 ^ 53) ^ vol s - 1) * boxSum s (fun idx => |(f idx).value|) ∧
      Returns (Tensor.sumT t h) h .f64 [] fun _ => .f y := by
  have htop' : (2 : ℚ) ^ 1024 - 2 ^ 971 = ieeeRounding.top .f64 := by decide +kernel
  exact C67_sum ieeeRounding hd rfl hsize hfin (fun h => by cases h) (le_of_le_of_eq htop htop')

/-- **C67**, IEEE floats: a sum of integer-valued floats is exact if their absolute values add up to less than `2^53`, whatever
the shape, the strides and the order of addition. -/
theorem C67_ieee_integers {h : Heap Ieee} {t : Nat} {dt : DType} {s : List Nat} {f : List Nat → Ieee} {n : List Nat → Int}
    (hd : Denotes h t dt s fun idx => .f (f idx)) (hdt : isInteger dt = false) (hsize : vol s < 18446744073709551616)
    (hn : ∀ idx, InBox s idx → (f idx).isFinite ∧ (f idx).value = n idx) (hb : boxSum s (fun idx => |n idx|) < 9007199254740992) :
    ∃ y : Ieee, y.isFinite ∧ y.value = (boxSum s n : Int) ∧ Returns (Tensor.sumT t h) h .f64 [] fun _ => .f y := by
  have htop : (9007199254740992 : ℚ) ≤ ieeeRounding.top .f64 := by decide +kernel
  have small : ∀ m : Int, |m| < 9007199254740992 → Ieee.represents .f64 (m : ℚ) = true ∧ |(m : ℚ)| ≤ ieeeRounding.top .f64 := fun m hm => by
    refine ⟨represents_int (by rw [Int.abs_eq_natAbs] at hm; omega), le_trans ?_ htop⟩
    have : ((|m| : Int) : ℚ) < (9007199254740992 : Int) := by exact_mod_cast hm
    rw [Int.cast_abs] at this
    exact le_of_lt (by exact_mod_cast this)
  have hel : ∀ idx, InBox s idx → |n idx| < 9007199254740992 := fun idx hidx => by
    refine lt_of_le_of_lt ?_ hb
    exact List.single_le_sum (fun x hx => by obtain ⟨y, _, rfl⟩ := List.mem_map.1 hx; exact abs_nonneg _) _
      (List.mem_map.2 ⟨idx, mem_rowMajor.2 hidx, rfl⟩)
  have hsum : ∀ k, (((rowMajor s).take k).map fun idx => (f idx).value).sum = ((((rowMajor s).take k).map n).sum : Int) := fun k =>
    sum_cast_eq fun x hx => (hn x (mem_rowMajor.1 (List.mem_of_mem_take hx))).2
  obtain ⟨y, h1, h2, h3⟩ := C67_sum_exact ieeeRounding hd hdt hsize
    (fun idx hidx => ⟨(hn idx hidx).1, by
      show |(f idx).value| ≤ _
      rw [(hn idx hidx).2]; exact (small _ (hel idx hidx)).2⟩)
    (fun _ idx hidx => by
      show Ieee.represents .f64 (f idx).value = true
      rw [(hn idx hidx).2]; exact (small _ (hel idx hidx)).1)
    (fun k _ => by
      show Ieee.represents .f64 (((rowMajor s).take k).map fun idx => (f idx).value).sum = true ∧
        |(((rowMajor s).take k).map fun idx => (f idx).value).sum| ≤ _
      rw [hsum k]; exact small _ (lt_of_le_of_lt (abs_sum_take_le n _ k) hb))
  refine ⟨y, h1, h2.trans ?_, h3⟩
  have := hsum (rowMajor s).length
  rw [List.take_length] at this
  exact this

/-- **C67**, IEEE floats: beyond that a sum can lose elements: `2^53 + 1 + 1 - 2^53` comes out as 0. -/
theorem C67_ieee_absorbed :
    result ((do
      let x ← Tensor.fromBlob ([9007199254740992, 1, 1, -9007199254740992].map fun n => Val.f (FOps.ofInt .f64 n)) [4] .f64
      Tensor.toString (← Tensor.sumT x) : M Ieee Str) Heap.empty) = some "0.000000".toList := by decide +kernel

/-! ### Examples -/

/-- The double nearest to 1/10, and 3. -/
def tenthDouble : Ieee := Ieee.decimal .f64 false 1 10
def threeDouble : Ieee := FOps.ofInt .f64 3

/-- `x = {0.1, 3.}`, `y = x * x`, `s = y.sum()`, `s.backward()` over IEEE doubles: the sum is 9.01, the gradient
is `{0.2, 6}`. -/
example : (session (exSession tenthDouble threeDouble) Heap.empty).map (fun r =>
    ([2, 8].map fun t => result (Tensor.toString t r.2))) = some [some "9.010000".toList, some "[0.200000, 6.000000]".toList] := by
  decide +kernel

/-- Over balls: the error of the sum is at most `2^-49`, the gradient has none. -/
example : ((session (exSession (Ball.point tenthDouble) (Ball.point threeDouble) : List (Call (Ball ieeeRounding))) Heap.empty).map fun r =>
    ((ballAt r.2 2 0).map fun b => decide (0 < b.2 ∧ b.2 < 1 / 2 ^ 49), ballAt r.2 8 0, ballAt r.2 8 1)) =
    some (some true, some (2 * tenthDouble.value, 0), some (6, 0)) := by decide +kernel

/-- Elements 1/10 (rounded) and 3. -/
def tenthsHeap : Heap Ieee := after Heap.empty (.fromBlob [.f tenthDouble, .f threeDouble] [2] .f64)

theorem tenthsHeap_denotes : Denotes tenthsHeap 0 .f64 [2] fun idx => .f (if idx = [0] then tenthDouble else threeDouble) :=
  ⟨⟨.f64, Layout.contig [2], 0, none, false, false, none⟩, by decide +kernel, rfl, rfl,
    reads_of_check (s := ⟨.f64, 16, some [some (.f tenthDouble), some (.f threeDouble)]⟩)
      (cells := [some (.f tenthDouble), some (.f threeDouble)]) rfl (by decide)
      (by decide +kernel) rfl rfl (by decide) (by decide +kernel) fun _ _ => hasType_f.2 rfl⟩

example : ∃ y : Ieee, |y.value - boxSum [2] (fun idx => (if idx = [0] then tenthDouble else threeDouble).value)| ≤ 1 / 2 ^ 50 ∧
    Returns (Tensor.sumT 0 tenthsHeap) tenthsHeap .f64 [] fun _ => .f y := by
  obtain ⟨y, _, h2, h3⟩ := C67_ieee_sum tenthsHeap_denotes (by decide) (fun idx _ => by
    show Ieee.isFinite (if idx = [0] then tenthDouble else threeDouble)
    split
    · decide +kernel
    · decide +kernel) (by decide +kernel)
  exact ⟨y, h2.trans (by decide +kernel), h3⟩

/-- `{4, 3}`. -/
def foursHeap : Heap Ieee := after Heap.empty (.fromBlob [.f (FOps.ofInt .f64 4), .f threeDouble] [2] .f64)

theorem foursHeap_denotes : Denotes foursHeap 0 .f64 [2] fun idx => .f (if idx = [0] then FOps.ofInt .f64 4 else threeDouble) :=
  ⟨⟨.f64, Layout.contig [2], 0, none, false, false, none⟩, by decide +kernel, rfl, rfl,
    reads_of_check (s := ⟨.f64, 16, some [some (.f (FOps.ofInt .f64 4)), some (.f threeDouble)]⟩)
      (cells := [some (.f (FOps.ofInt .f64 4)), some (.f threeDouble)]) rfl (by decide)
      (by decide +kernel) rfl rfl (by decide) (by decide +kernel) fun _ _ => hasType_f.2 rfl⟩

/-- The sum is exactly 7. -/
example : ∃ y : Ieee, y.value = (boxSum [2] (fun idx => if idx = [0] then 4 else 3) : Int) ∧
    Returns (Tensor.sumT 0 foursHeap) foursHeap .f64 [] fun _ => .f y := by
  obtain ⟨y, _, h2, h3⟩ := C67_ieee_integers (n := fun idx => if idx = [0] then 4 else 3) foursHeap_denotes rfl (by decide) (fun idx _ => by
    by_cases h : idx = [0]
    · subst h; decide +kernel
    · simp only [if_neg h]; decide +kernel) (by decide +kernel)
  exact ⟨y, h2, h3⟩

end INNC
