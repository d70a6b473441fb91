import Verif.Lemmas.All
import Verif.Lemmas.Examples
import Verif.Model.Print
/-
C21 (all), C22 (sum), C23 (mean), C24 (max and min), C25 (abs).
-/
namespace INNC
open Spec
variable {F : Type} [FOps F]

/-! ### Sum -/

/-- **C22.** The sum of a tensor is a new tensor without axes, of type `i64` or `f64`, that holds the sum of the elements
taken in row-major order, whatever the strides of the tensor. -/
theorem C22_sum {h : Heap F} {t : Nat} {dt : DType} {s : List Nat} {f : List Nat → Val F} {v : Val F}
    (hd : Denotes h t dt s f) (hsize : vol s < 18446744073709551616) (hv : sumOf dt s f = some v) :
    Returns (Tensor.sumT t h) h (accType dt) [] (fun _ => v) := by
  obtain ⟨i, hi, rfl, rfl, hr⟩ := hd
  have := sumT_out hi hr hsize
  rw [hv] at this
  obtain ⟨h', e, b⟩ := this
  exact b.returns e

theorem sumOf_int {t : DType} (ht : isInteger t = true) (f : List Nat → Int) : ∀ (l : List (List Nat)) (a : Int),
    (∀ k ≤ l.length, InRange 64 (a + ((l.take k).map f).sum)) →
    (l.map fun idx => (.i (f idx) : Val F)).foldlM (elemArith .add .i64 t) (.i a) = some (.i (a + (l.map f).sum)) := by
  intro l
  induction l with
  | nil => intro a _; simp
  | cons x l ih =>
    intro a hk
    have h1 := hk 1 (by simp)
    simp only [List.take_succ_cons, List.take_zero, List.map_cons, List.map_nil, List.sum_cons, List.sum_nil, Int.add_zero] at h1
    rw [List.map_cons, List.foldlM_cons]
    have hel : elemArith .add .i64 t (.i a : Val F) (.i (f x)) = some (.i (a + f x)) := by
      unfold elemArith
      rw [if_pos ⟨rfl, ht⟩]
      simp only [exact]
      have hw : max 32 (max (width .i64) (width t)) = 64 := by cases t <;> rfl
      have hl : later .i64 t = .i64 := by cases t <;> simp [isInteger] at ht <;> rfl
      rw [hw, if_pos h1, hl]
      rw [show width .i64 = 64 from rfl, reduce_self (by decide) h1]
    rw [hel]
    show List.foldlM _ _ _ = _
    rw [ih (a + f x) ?_, List.map_cons, List.sum_cons, Int.add_assoc]
    intro k hkl
    have := hk (k + 1) (by simpa using hkl)
    simpa [Int.add_assoc] using this

/-- **C22**, integers: if no partial sum in row-major order leaves the range of 64 bits, the result is exactly the sum of
all elements. -/
theorem C22_sum_integer {h : Heap F} {t : Nat} {dt : DType} {s : List Nat} {f : List Nat → Int}
    (hd : Denotes h t dt s fun idx => .i (f idx)) (hsize : vol s < 18446744073709551616) (ht : isInteger dt = true)
    (hp : ∀ k ≤ vol s, InRange 64 (((rowMajor s).take k).map f).sum) :
    Returns (Tensor.sumT t h) h .i64 [] fun _ => .i ((rowMajor s).map f).sum := by
  have hacc : accType dt = .i64 := by unfold accType; rw [if_pos ht]
  rw [← hacc]
  apply C22_sum hd hsize
  cases s with
  | nil =>
    have h1 := hp 1 (by decide)
    simp only [rowMajor, List.take_succ_cons, List.take_zero, List.map_cons, List.map_nil, List.sum_cons, List.sum_nil,
      Int.add_zero] at h1 ⊢
    show convert dt (accType dt) (.i (f []) : Val F) = _
    rw [hacc]
    show some (.i (reduce (width .i64) (f [])) : Val F) = _
    rw [show width .i64 = 64 from rfl, reduce_self (by decide) h1]
  | cons a l =>
    show total dt _ = _
    unfold total elems
    rw [hacc, show (zeroElem .i64 : Val F) = .i 0 from rfl, sumOf_int ht f _ 0 ?_]
    · simp
    · intro k hk
      rw [length_rowMajor] at hk
      simpa using hp k hk

/-- **C22**, the other case: a partial integer sum that does not fit in 64 bits is undefined behaviour. -/
theorem C22_overflow {h : Heap F} {t : Nat} {dt : DType} {s : List Nat} {f : List Nat → Val F}
    (hd : Denotes h t dt s f) (hsize : vol s < 18446744073709551616) (hv : sumOf dt s f = none) :
    Tensor.sumT t h = .ub .overflow := by
  obtain ⟨i, hi, rfl, rfl, hr⟩ := hd
  have := sumT_out hi hr hsize
  rw [hv] at this
  exact this

/-- **C22**, empty tensors sum to 0. -/
theorem C22_empty {h : Heap F} {t : Nat} {dt : DType} {s : List Nat} {f : List Nat → Val F}
    (hd : Denotes h t dt s f) (h0 : 0 ∈ s) : Returns (Tensor.sumT t h) h (accType dt) [] (fun _ => zeroElem (accType dt)) :=
  C22_sum hd (by rw [vol_eq_zero.2 h0]; decide) (sumOf_empty (vol_eq_zero.2 h0))

example : Returns (Tensor.sumT 0 exHeap) exHeap .i64 [] fun _ => .i 21 :=
  C22_sum_integer (f := fun idx => 3 * idx.getD 0 0 + idx.getD 1 0 + 1) exHeap_a (by decide) rfl (by decide)
/-- A transposed view. -/
example : Returns (Tensor.sumT 2 exHeap) exHeap .i64 [] fun _ => .i 21 :=
  C22_sum_integer (f := fun idx => 3 * idx.getD 1 0 + idx.getD 0 0 + 1) exHeap_aT (by decide) rfl (by decide)

/-! ### Mean -/

/-- **C23.** The mean is the sum divided by the number of elements: by a truncating integer division for integer types,
by a `f64` division for floats; 0 for an empty tensor. -/
theorem C23_mean {h : Heap F} {t : Nat} {dt : DType} {s : List Nat} {f : List Nat → Val F} {v : Val F}
    (hd : Denotes h t dt s f) (hsize : vol s < 9223372036854775808) (hv : meanOf dt s f = some v) :
    Returns (Tensor.meanT t h) h (accType dt) [] (fun _ => v) := by
  obtain ⟨i, hi, rfl, rfl, hr⟩ := hd
  have := meanT_out hi hr hsize
  rw [hv] at this
  obtain ⟨h', e, b⟩ := this
  exact b.returns e

/-- **C23**, the other case: undefined only if the sum is. -/
theorem C23_overflow {h : Heap F} {t : Nat} {dt : DType} {s : List Nat} {f : List Nat → Val F}
    (hd : Denotes h t dt s f) (hsize : vol s < 9223372036854775808) :
    (meanOf dt s f = none ↔ sumOf dt s f = none) ∧ (sumOf dt s f = none → Tensor.meanT t h = .ub .overflow) := by
  have key : meanOf dt s f = none ↔ sumOf dt s f = none := by
    unfold meanOf
    by_cases h0 : vol s = 0
    · rw [if_pos h0, sumOf_empty h0]
    · rw [if_neg h0]
      cases hso : sumOf dt s f with
      | none => simp
      | some v =>
        obtain ⟨i, hi, rfl, rfl, hr⟩ := hd
        obtain ⟨z, hz⟩ := mean_div (n := vol i.view.sizes) (sumOf_hasType hr.typed hso) h0
        simp [hz]
  refine ⟨key, fun hn => ?_⟩
  have hm := key.2 hn
  obtain ⟨i, hi, rfl, rfl, hr⟩ := hd
  have := meanT_out hi hr hsize
  rw [hm] at this
  exact this

/-- **C23**, integers: the exact sum divided by the number of elements, truncated towards zero. -/
theorem C23_mean_integer {h : Heap F} {t : Nat} {dt : DType} {s : List Nat} {f : List Nat → Int}
    (hd : Denotes h t dt s fun idx => .i (f idx)) (hsize : vol s < 9223372036854775808) (ht : isInteger dt = true)
    (h0 : vol s ≠ 0) (hp : ∀ k ≤ vol s, InRange 64 (((rowMajor s).take k).map f).sum) :
    Returns (Tensor.meanT t h) h .i64 [] fun _ => .i (((rowMajor s).map f).sum.tdiv (vol s)) := by
  have hacc : accType dt = .i64 := by unfold accType; rw [if_pos ht]
  obtain ⟨i, hi, rfl, rfl, hr⟩ := hd
  obtain ⟨t', h', e, d, _⟩ := C22_sum_integer (F := F) (h := h) (t := t) ⟨i, hi, rfl, rfl, hr⟩ (by omega) ht hp
  have hso : sumOf i.dtype i.view.sizes (fun idx => (.i (f idx) : Val F)) = some (.i ((rowMajor i.view.sizes).map f).sum) := by
    have := sumT_out hi hr (by omega)
    cases hv : sumOf i.dtype i.view.sizes (fun idx => (.i (f idx) : Val F)) with
    | none => rw [hv] at this; rw [e] at this; cases this
    | some v =>
      rw [hv] at this
      obtain ⟨h'', e2, b2⟩ := this
      rw [e] at e2
      obtain ⟨rfl, rfl⟩ := Out.ok.inj e2
      obtain ⟨j, hj, h1, h2, h3⟩ := d
      obtain ⟨j', hj', h1', h2', h3'⟩ := b2.denotes
      rw [hj] at hj'
      obtain rfl := Option.some.inj hj'
      have hb : InBox j.view.sizes [] := by rw [h2]; trivial
      obtain ⟨s1, c1, a1, _, a3, _, a5⟩ := h3.cells
      obtain ⟨s2, c2, b1, _, b3, _, b5⟩ := h3'.cells
      rw [a1] at b1; obtain rfl := Option.some.inj b1
      rw [a3] at b3; obtain rfl := Option.some.inj b3
      obtain ⟨p, hp1, hc1⟩ := a5 [] hb
      obtain ⟨q, hq1, hc2⟩ := b5 [] hb
      have : p = q := by rw [hp1] at hq1; exact_mod_cast hq1
      subst this
      rw [hc1] at hc2
      simpa using hc2.symm
  rw [← hacc]
  refine C23_mean (F := F) ⟨i, hi, rfl, rfl, hr⟩ hsize ?_
  unfold meanOf
  rw [if_neg h0, hso, hacc]
  simp only [ht, if_true]
  have hty : InRange 64 ((rowMajor i.view.sizes).map f).sum := by
    have := hp (vol i.view.sizes) (Nat.le_refl _)
    rwa [List.take_of_length_le (by rw [length_rowMajor])] at this
  have hvt : (.i ((rowMajor i.view.sizes).map f).sum : Val F).HasType (accType i.dtype) := by
    rw [hacc]; exact hasType_i.2 ⟨rfl, hty⟩
  obtain ⟨z, hz⟩ := mean_div (n := vol i.view.sizes) hvt h0
  rw [hacc] at hz
  simp only [ht, if_true] at hz
  unfold elemArith at hz ⊢
  simp only [isInteger, and_self, if_true, exact, Int.natCast_eq_zero, h0, if_false] at hz ⊢
  split at hz
  · next hr' =>
    rw [if_pos hr', show width (later .i64 .i64) = 64 from rfl, reduce_self (b := 64) (by decide) hr']
  · simp at hz

example : Returns (Tensor.meanT 1 exHeap) exHeap .i64 [] fun _ => .i 20 :=
  C23_mean_integer (f := fun idx => 10 * idx.getD 0 0 + 10) exHeap_b (by decide) rfl (by decide) (by decide)

/-! ### All -/

/-- **C21.** `all` of an `i8` tensor of zeros and ones (such as a comparison returns) is true exactly if every element
is 1. Partial: for wider element types the claim is false (`C21_wide_types_wrong`), and an element other than 0 and 1 is
undefined behaviour (`C21_not_boolean`). -/
theorem C21_all_partial {h : Heap F} {t : Nat} {s : List Nat} {f : List Nat → Int}
    (hd : Denotes h t .i8 s fun idx => .i (f idx)) (h01 : ∀ idx, InBox s idx → f idx = 0 ∨ f idx = 1) :
    ∃ b, Tensor.allT t h = .ok b h ∧ (b = true ↔ ∀ idx, InBox s idx → f idx = 1) := by
  obtain ⟨i, hi, hdt, rfl, hr⟩ := hd
  refine ⟨_, allT_ok hi hr hdt f fun idx hb => ⟨rfl, h01 idx hb⟩, ?_⟩
  rw [List.all_eq_true]
  constructor
  · intro hall idx hb
    exact of_decide_eq_true (hall idx (mem_rowMajor.2 hb))
  · intro hall idx hm
    exact decide_eq_true (hall idx (mem_rowMajor.1 hm))

/-- **C21**, in use: comparing two tensors and asking for `all` tells whether the comparison holds at every index of the
broadcast shape. -/
theorem C21_compare_all_partial {op : COp} {h : Heap F} {l r : Nat} {dl dr : DType} {sl sr s : List Nat}
    {fl fr : List Nat → Val F}
    (hl : Denotes h l dl sl fl) (hr : Denotes h r dr sr fr) (hs : bshape sl sr = some s) (hst : ¬ stretched sl sr)
    (hsize : vol s * DType.i8.size < 9223372036854775808) :
    ∃ b h', (do Tensor.allT (← Tensor.cmp op l r) : M F Bool) h = .ok b h' ∧ Extends h h' ∧
      (b = true ↔ ∀ idx, InBox s idx → elemCompare op dl dr (fl (project sl idx)) (fr (project sr idx)) = true) := by
  obtain ⟨h', e, b⟩ := cmp_ok (op := op) hl hr hs hst hsize
  obtain ⟨b', e2, h2⟩ := C21_all_partial (f := fun idx =>
    if elemCompare op dl dr (fl (project sl idx)) (fr (project sr idx)) then 1 else 0) b.denotes (fun idx _ => by
      by_cases hc : elemCompare op dl dr (fl (project sl idx)) (fr (project sr idx)) = true
      · exact Or.inr (if_pos hc)
      · exact Or.inl (if_neg hc))
  refine ⟨b', h', by rw [M.bind_ok e]; exact e2, b.ext, h2.trans ?_⟩
  constructor
  · intro hall idx hb
    have := hall idx hb
    by_contra hc
    rw [if_neg hc] at this
    exact absurd this (by decide)
  · intro hall idx hb
    exact if_pos (hall idx hb)

/-- **C21**, all `i8` tensors: `all` looks at the elements in row-major order up to the first one that is not 1. If there
is none it returns true, if that one is 0 it returns false, and otherwise the behaviour is undefined. -/
theorem C21_scan_partial {h : Heap F} {t : Nat} {s : List Nat} {f : List Nat → Int}
    (hd : Denotes h t .i8 s fun idx => .i (f idx)) :
    Tensor.allT t h = match scanAll ((rowMajor s).map f) with
      | some b => .ok b h
      | none => .ub .badBool := by
  obtain ⟨i, hi, hdt, rfl, hr⟩ := hd
  rw [allT_eq hi hr hdt f fun _ _ => rfl]
  cases scanAll ((rowMajor i.view.sizes).map f) <;> rfl

/-- **C21** is false for element types wider than one byte: all elements are 1 and `all` is false, and a 0 among the
elements and `all` is true. -/
theorem C21_wide_types_wrong :
    result ((do Tensor.allT (← Tensor.ones [2] .i16) : M Int Bool) Heap.empty) = some false ∧
    result ((do Tensor.allT (← Tensor.fromBlob [.i 257, .i 0] [2] .i16) : M Int Bool) Heap.empty) = some true := by
  decide +kernel

/-- **C21**: reading an element other than 0 and 1 as a `bool` is undefined behaviour. -/
theorem C21_not_boolean :
    undefinedBy ((do Tensor.allT (← Tensor.fromBlob [.i 2] [1] .i8) : M Int Bool) Heap.empty) = some .badBool := by
  decide +kernel

example (h : Heap Int) (hh : h = ⟨[⟨.i8, 2, some [some (.i 1), some (.i 0)]⟩],
    [⟨.i8, ⟨[2], [1], 0⟩, 0, none, false, false, none⟩], 0⟩) : ∃ b, Tensor.allT 0 h = .ok b h ∧
      (b = true ↔ ∀ idx, InBox [2] idx → (1 - (idx.getD 0 0 : Int)) = 1) :=
  hh ▸ C21_all_partial ⟨_, rfl, rfl, rfl, reads_of_check (by decide) (by decide) rfl rfl rfl (by decide) (by decide) (by decide)⟩
    (forall_inBox (by decide))

/-! ### Max and min -/

/-- Integers are ordered by `>=` and `<=`. -/
theorem C24_integer_order (keep : COp) (hk : keep = .ge ∨ keep = .le) (dt : DType) (s : List Nat) (f : List Nat → Int) :
    Ordered (F := F) keep dt s fun idx => .i (f idx) := by
  constructor
  · intro a b _ _
    rcases hk with rfl | rfl <;> simp only [elemCompare_i, icompare] <;> omega
  · intro a b c _ _ _
    rcases hk with rfl | rfl <;> simp only [elemCompare_i, icompare] <;> omega

theorem extreme_partial (keep : COp) {h : Heap F} {t : Nat} {i : Impl} {f : List Nat → Val F}
    (hi : h.ts[t]? = some i) (hr : Reads h i f) (h0 : vol i.view.sizes ≠ 0) (hoff : i.view.offset = 0)
    (hg : i.requiresGrad = false) (ho : Ordered keep i.dtype i.view.sizes f) :
    ∃ a, InBox i.view.sizes a ∧ (∀ b, InBox i.view.sizes b → elemCompare keep i.dtype i.dtype (f a) (f b) = true) ∧
      Returns (Tensor.extreme keep t h) h i.dtype [] fun _ => f a := by
  obtain ⟨h', e, b⟩ := extreme_ok (keep := keep) hi hr (startsWith_of_offset hr hoff h0) hg
  obtain ⟨a, h1, h2, _, h4⟩ := best_spec ho (rowMajor i.view.sizes) (i.view.sizes.map fun _ => 0) [] (zeros_inBox h0)
    fun x hx => mem_rowMajor.1 hx
  refine ⟨a, h1, fun b hb => h4 b (mem_rowMajor.2 hb), ?_⟩
  have hb : (best keep i.dtype i.view.sizes f (f (i.view.sizes.map fun _ => 0))).1 = f a := h2
  rw [hb] at b
  exact b.returns e

/-- **C24**, max: an element of the tensor that is `>=` all of them. Partial: the view must start at the first element of
its storage (otherwise the claim is false, `C24_offset_wrong`), and the tensor must not require gradients (then a call
may throw, `C24_grad_throws`; when it does not, `C44` applies). -/
theorem C24_max_partial {h : Heap F} {t : Nat} {i : Impl} {f : List Nat → Val F}
    (hi : h.ts[t]? = some i) (hr : Reads h i f) (h0 : vol i.view.sizes ≠ 0) (hoff : i.view.offset = 0)
    (hg : i.requiresGrad = false) (ho : Ordered .ge i.dtype i.view.sizes f) :
    ∃ a, InBox i.view.sizes a ∧ (∀ b, InBox i.view.sizes b → elemCompare .ge i.dtype i.dtype (f a) (f b) = true) ∧
      Returns (Tensor.maxT t h) h i.dtype [] fun _ => f a :=
  extreme_partial .ge hi hr h0 hoff hg ho

/-- **C24**, min. Partial as `C24_max_partial`. -/
theorem C24_min_partial {h : Heap F} {t : Nat} {i : Impl} {f : List Nat → Val F}
    (hi : h.ts[t]? = some i) (hr : Reads h i f) (h0 : vol i.view.sizes ≠ 0) (hoff : i.view.offset = 0)
    (hg : i.requiresGrad = false) (ho : Ordered .le i.dtype i.view.sizes f) :
    ∃ a, InBox i.view.sizes a ∧ (∀ b, InBox i.view.sizes b → elemCompare .le i.dtype i.dtype (f a) (f b) = true) ∧
      Returns (Tensor.minT t h) h i.dtype [] fun _ => f a :=
  extreme_partial .le hi hr h0 hoff hg ho

/-- **C24**, integers: the result is the maximum, an element at least as large as every other. -/
theorem C24_max_integer_partial {h : Heap F} {t : Nat} {i : Impl} {f : List Nat → Int}
    (hi : h.ts[t]? = some i) (hr : Reads h i fun idx => .i (f idx)) (h0 : vol i.view.sizes ≠ 0) (hoff : i.view.offset = 0)
    (hg : i.requiresGrad = false) :
    ∃ a, InBox i.view.sizes a ∧ (∀ b, InBox i.view.sizes b → f b ≤ f a) ∧
      Returns (Tensor.maxT t h) h i.dtype [] fun _ => .i (f a) := by
  obtain ⟨a, h1, h2, h3⟩ := C24_max_partial hi hr h0 hoff hg (C24_integer_order .ge (Or.inl rfl) _ _ _)
  exact ⟨a, h1, fun b hb => by simpa only [elemCompare_i, icompare] using h2 b hb, h3⟩

/-- **C24**, integers: the result is the minimum. -/
theorem C24_min_integer_partial {h : Heap F} {t : Nat} {i : Impl} {f : List Nat → Int}
    (hi : h.ts[t]? = some i) (hr : Reads h i fun idx => .i (f idx)) (h0 : vol i.view.sizes ≠ 0) (hoff : i.view.offset = 0)
    (hg : i.requiresGrad = false) :
    ∃ a, InBox i.view.sizes a ∧ (∀ b, InBox i.view.sizes b → f a ≤ f b) ∧
      Returns (Tensor.minT t h) h i.dtype [] fun _ => .i (f a) := by
  obtain ⟨a, h1, h2, h3⟩ := C24_min_partial hi hr h0 hoff hg (C24_integer_order .le (Or.inr rfl) _ _ _)
  exact ⟨a, h1, fun b hb => by simpa only [elemCompare_i, icompare] using h2 b hb, h3⟩

/-- **C24** is false for views that do not start at the first element of the storage: `[9, 1, 2]["1:"].max()` is 9. -/
theorem C24_offset_wrong :
    result ((do
      let v ← Tensor.slice (← Tensor.fromBlob [.i 9, .i 1, .i 2] [3] .i32) "1:".toList
      let m ← Tensor.maxT v
      return (← Tensor.toString v, ← Tensor.toString m) : M Int (Str × Str)) Heap.empty) =
    some ("[1, 2]".toList, "9".toList) := by decide +kernel

/-- **C24**: with gradients enabled, `max` throws if the first element is a maximum. -/
theorem C24_grad_throws :
    thrown ((do
      let t ← Tensor.fromBlob [.f 3, .f 1] [2] .f32
      Tensor.setRequiresGrad t true
      Tensor.maxT t : M Int Nat) Heap.empty) = some .runtime := by decide +kernel

/-- **C24**: the maximum of an empty tensor is an out-of-bounds read. -/
theorem C24_empty_undefined :
    undefinedBy ((do Tensor.maxT (← Tensor.zeros [0] .f32) : M Int Nat) Heap.empty) = some .oob := by decide +kernel

example : ∃ a, InBox [3] a ∧ (∀ b, InBox [3] b → (10 * b.getD 0 0 + 10 : Int) ≤ (10 * a.getD 0 0 + 10 : Int)) ∧
    Returns (Tensor.maxT 1 exHeap) exHeap .i32 [] fun _ => .i (10 * a.getD 0 0 + 10 : Int) := by
  obtain ⟨i, hi, h1, h2, hr⟩ := exHeap_b
  have hi' : exHeap.ts[1]? = some ⟨.i32, ⟨[3], [1], 0⟩, 1, none, false, false, none⟩ := rfl
  rw [hi'] at hi
  obtain rfl := Option.some.inj hi
  exact C24_max_integer_partial (f := fun idx => 10 * idx.getD 0 0 + 10) rfl hr (by decide) rfl rfl

/-! ### Absolute value -/

/-- **C25.** `abs` returns the element-wise absolute value in the type and shape of its operand, on a new storage.
Partial: the elements must lie at the positions below `numel` (contiguous tensors and their transposes); for other views
the claim is false, `C25_view_undefined`. -/
theorem C25_abs_partial {h : Heap F} {t : Nat} {i : Impl} {f g : List Nat → Val F} (hi : h.ts[t]? = some i)
    (hr : Reads h i f) (hd : Dense i.view) (hsize : vol i.view.sizes * i.dtype.size < 9223372036854775808)
    (hel : ∀ idx, InBox i.view.sizes idx → elemAbs i.dtype (f idx) = some (g idx)) :
    Returns (Tensor.absT t h) h i.dtype i.view.sizes g := by
  cases hg : i.requiresGrad with
  | false =>
    obtain ⟨h', e, b⟩ := absT_ok hi hr hd hsize hg hel
    exact ⟨_, h', e, b.denotes, b.ext, b.fresh⟩
  | true =>
    obtain ⟨h', e, b, _⟩ := absT_grad_ok hi hr hd hsize hg hel
    exact ⟨_, h', e, b.denotes, b.ext, b.fresh⟩

/-- **C25**, integers in a contiguous tensor: `|x|`, provided it is representable. -/
theorem C25_abs_integer_partial {h : Heap F} {t : Nat} {i : Impl} {f : List Nat → Int} (hi : h.ts[t]? = some i)
    (hr : Reads h i fun idx => .i (f idx)) (hc : i.view = Layout.contig i.view.sizes)
    (hsize : vol i.view.sizes * i.dtype.size < 9223372036854775808)
    (hmin : ∀ idx, InBox i.view.sizes idx → InRange (width i.dtype) |f idx|) :
    Returns (Tensor.absT t h) h i.dtype i.view.sizes fun idx => .i |f idx| := by
  refine C25_abs_partial hi hr (by rw [hc]; exact dense_contig (vol_lt_of_bytes hsize)) hsize fun idx hb => ?_
  have hty := hasType_i.1 (hr.typed idx hb)
  unfold elemAbs nonneg
  by_cases h0 : 0 ≤ f idx
  · simp only [h0, decide_true, if_true, abs_of_nonneg]
  · have habs : |f idx| = -f idx := abs_of_neg (by omega)
    have hm := hmin idx hb
    rw [habs] at hm ⊢
    simp only [h0, decide_false, Bool.false_eq_true, if_false]
    rw [if_pos (inRange_mono (by omega) hm), reduce_self (width_pos _) hm]

/-- **C25** is false for views: `abs` of `[1, 2, 3]["2:"]` writes past the end of a one-element storage. -/
theorem C25_view_undefined :
    undefinedBy ((do
      Tensor.absT (← Tensor.slice (← Tensor.fromBlob [.i 1, .i 2, .i 3] [3] .i32) "2:".toList) : M Int Nat)
      Heap.empty) = some .oob := by decide +kernel

example : Returns (Tensor.absT 1 exHeap) exHeap .i32 [3] exB :=
  C25_abs_partial (i := ⟨.i32, ⟨[3], [1], 0⟩, 1, none, false, false, none⟩) (f := exB) rfl
    (reads_of_check (by decide) (by decide) rfl rfl rfl (by decide) (by decide) (by decide))
    (dense_contig (s := [3]) (by decide)) (by decide) (forall_inBox (by decide))

end INNC
