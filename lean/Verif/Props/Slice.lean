import Verif.Spec.Api
import Verif.Lemmas.ViewOps
import Verif.Lemmas.Examples
import Verif.Model.Print
/-
C05 (integer indexing), C06 (range slicing), C07 (slice strings), C10 (transpose).
-/
namespace INNC
open Spec
variable {F : Type} [FOps F]

/-! ### C07: a slice string means what it spells -/

/-- **C07.** If `s` spells the axis specifications `specs`, the positions exist and the steps are not zero, then slicing
returns a view whose element at `idx` is the element of `t` that the specifications select; axes without a specification
are taken whole. No element of any tensor changes. Partial: no product of a step and a stride may exceed 64 bits. -/
theorem C07_slice_partial {h : Heap F} {t : Nat} {dt : DType} {sizes : List Nat} {f : List Nat → Val F}
    (ht : Denotes h t dt sizes f) (hv : Viewable h t) {specs : List AxisSpec} {s : List Char} (hs : Spells specs s)
    (hsel : Selects specs sizes) (h64 : ∀ x ∈ specs, x.Is64)
    (hfit : ∀ i, h.ts[t]? = some i → StepsFit specs i.view.strides) :
    ReturnsView (Tensor.slice t s h) h t dt (selShape specs sizes) f (selIndex specs sizes) := by
  obtain ⟨i, hi, rfl, rfl, hr⟩ := ht
  obtain ⟨i', hi', ht, hg⟩ := hv
  rw [hi] at hi'
  obtain rfl := Option.some.inj hi'
  exact slice_ok hi hr ht hg hs hsel h64 (hfit i hi)

/-- A decimal spelling of a natural number. -/
theorem exists_digits (n : Nat) : ∃ ds : List Char, ds ≠ [] ∧ (∀ c ∈ ds, '0' ≤ c ∧ c ≤ '9') ∧ decimal ds = n := by
  induction n using Nat.strongRecOn with
  | _ n ih =>
    have dig : ∀ d < 10, ('0' ≤ Char.ofNat (48 + d) ∧ Char.ofNat (48 + d) ≤ '9') ∧ (Char.ofNat (48 + d)).toNat - 48 = d := by
      decide
    by_cases h : n < 10
    · refine ⟨[Char.ofNat (48 + n)], by simp, ?_, ?_⟩
      · intro c hc
        rw [List.mem_singleton] at hc
        subst hc
        exact (dig n h).1
      · simp only [decimal, List.foldl]
        rw [(dig n h).2]; omega
    · obtain ⟨ds, h1, h2, h3⟩ := ih (n / 10) (by omega)
      refine ⟨ds ++ [Char.ofNat (48 + n % 10)], by simp, ?_, ?_⟩
      · intro c hc
        rcases List.mem_append.1 hc with hc | hc
        · exact h2 c hc
        · rw [List.mem_singleton] at hc
          subst hc
          exact (dig _ (Nat.mod_lt _ (by omega))).1
      · unfold decimal at h3 ⊢
        rw [List.foldl_append, h3]
        simp only [List.foldl]
        rw [(dig _ (Nat.mod_lt _ (by omega))).2]
        omega

theorem exists_numeral (k : Int) : ∃ s, Numeral k s := by
  obtain ⟨ds, h1, h2, h3⟩ := exists_digits k.natAbs
  by_cases h : 0 ≤ k
  · exact ⟨ds, ds, h1, h2, Or.inl ⟨rfl, by omega⟩⟩
  · exact ⟨'-' :: ds, ds, h1, h2, Or.inr (Or.inr ⟨rfl, by omega⟩)⟩

theorem exists_optional (o : Option Int) : ∃ s, Optional o s := by
  cases o with
  | none => exact ⟨[], by simp [Optional, Blank]⟩
  | some k =>
    obtain ⟨s, hs⟩ := exists_numeral k
    exact ⟨s, [], s, [], by simp [Blank], hs, by simp [Blank], by simp⟩

/-- **C07**: every list of axis specifications has a spelling, so `C07_slice_partial` covers every specification. -/
theorem C07_every_specification_has_a_spelling (specs : List AxisSpec) : ∃ s, Spells specs s := by
  have one : ∀ x, ∃ s, SpellsAxis x s := by
    intro x
    cases x with
    | index k =>
      obtain ⟨s, hs⟩ := exists_numeral k
      exact ⟨s, .index ⟨[], s, [], by simp [Blank], hs, by simp [Blank], by simp⟩⟩
    | range a b c =>
      obtain ⟨p, hp⟩ := exists_optional a
      obtain ⟨q, hq⟩ := exists_optional b
      obtain ⟨r, hr⟩ := exists_optional c
      exact ⟨_, .range3 hp hq hr⟩
  induction specs with
  | nil => exact ⟨[], .none⟩
  | cons x xs ih =>
    obtain ⟨s, hs⟩ := ih
    obtain ⟨p, hp⟩ := one x
    cases xs with
    | nil => exact ⟨p, .one hp⟩
    | cons y ys => exact ⟨_, .cons hp (by simp) hs⟩

/-- **C07**: more comma-separated parts than axes are rejected. -/
theorem C07_too_many_parts {h : Heap F} {t : Nat} {dt : DType} {sizes : List Nat} {f : List Nat → Val F}
    (ht : Denotes h t dt sizes f) {s : List Char} (h0 : s ≠ []) (hc : sizes.length ≤ s.count ',') :
    Tensor.slice t s h = .throw .runtime h := by
  obtain ⟨i, hi, _, rfl, _⟩ := ht
  exact slice_too_many hi (by rw [length_ssplit h0]; omega)

/-- **C07**: a single index that is not a number is rejected with `std::invalid_argument`, whatever follows. -/
theorem C07_index_not_a_number {h : Heap F} {t : Nat} {dt : DType} {sizes : List Nat} {f : List Nat → Val F}
    (ht : Denotes h t dt sizes f) (hv : Viewable h t) {pre : List AxisSpec} {s p u : List Char} (hpre : Leading pre s)
    (hsel : Selects pre sizes) (h64 : ∀ x ∈ pre, x.Is64) (hfit : ∀ i, h.ts[t]? = some i → StepsFit pre i.view.strides)
    (hlt : pre.length < sizes.length) (hp : NotNumber p) (hp0 : p ≠ []) (hp1 : ':' ∉ p) (hp2 : ',' ∉ p) (hu : Trailing u)
    (hc : (s ++ p ++ u).count ',' < sizes.length) :
    Tensor.slice t (s ++ p ++ u) h = .throw .invalidArgument h := by
  obtain ⟨i, hi, rfl, rfl, hr⟩ := ht
  obtain ⟨i', hi', ht, hg⟩ := hv
  rw [hi] at hi'
  obtain rfl := Option.some.inj hi'
  have := slice_lead_throw hi hr.strides ht hpre hp2 hu (by simp [hp0]) hsel h64 (hfit i hi)
    (List.getElem?_eq_getElem hlt) (sliceGo_index_invalid (n := i.view.sizes[pre.length]) hp hp0 hp1)
  rw [this, if_pos hc]

/-- **C07**: a step that is neither omitted nor a number is rejected with `std::invalid_argument`, for every axis that
has a position. -/
theorem C07_step_not_a_number {h : Heap F} {t : Nat} {dt : DType} {sizes : List Nat} {f : List Nat → Val F}
    (ht : Denotes h t dt sizes f) (hv : Viewable h t) {pre : List AxisSpec} {s a b c u : List Char} (hpre : Leading pre s)
    (hsel : Selects pre sizes) (h64 : ∀ x ∈ pre, x.Is64) (hfit : ∀ i, h.ts[t]? = some i → StepsFit pre i.view.strides)
    {n : Nat} (hn : sizes[pre.length]? = some n) (hn0 : 0 < n)
    (hc : NotNumber c) (hc0 : ¬ Blank c) (hno : ∀ x ∈ [':', ','], x ∉ a ∧ x ∉ b ∧ x ∉ c) (hu : Trailing u)
    (hcnt : (s ++ (a ++ ':' :: b ++ ':' :: c) ++ u).count ',' < sizes.length) :
    Tensor.slice t (s ++ (a ++ ':' :: b ++ ':' :: c) ++ u) h = .throw .invalidArgument h := by
  obtain ⟨i, hi, rfl, rfl, hr⟩ := ht
  obtain ⟨i', hi', ht, hg⟩ := hv
  rw [hi] at hi'
  obtain rfl := Option.some.inj hi'
  obtain ⟨a1, b1, c1⟩ := hno ':' (by simp)
  obtain ⟨a2, b2, c2⟩ := hno ',' (by simp)
  have := slice_lead_throw (p := a ++ ':' :: b ++ ':' :: c) hi hr.strides ht hpre (by simp [a2, b2, c2]) hu
    (by simp) hsel h64 (hfit i hi) hn (sliceGo_step_invalid hn0 a1 b1 c1 hc hc0)
  rw [this, if_pos hcnt]

/-- **C07**: a start that is neither omitted nor a number is rejected with `std::invalid_argument`, for every axis that
has a position. -/
theorem C07_start_not_a_number {h : Heap F} {t : Nat} {dt : DType} {sizes : List Nat} {f : List Nat → Val F}
    (ht : Denotes h t dt sizes f) (hv : Viewable h t) {pre : List AxisSpec} {s a b u : List Char} (hpre : Leading pre s)
    (hsel : Selects pre sizes) (h64 : ∀ x ∈ pre, x.Is64) (hfit : ∀ i, h.ts[t]? = some i → StepsFit pre i.view.strides)
    {n : Nat} (hn : sizes[pre.length]? = some n) (hn0 : 0 < n)
    (ha : NotNumber a) (ha0 : ¬ Blank a) (hno : ∀ x ∈ [':', ','], x ∉ a ∧ x ∉ b) (hu : Trailing u)
    (hcnt : (s ++ (a ++ ':' :: b) ++ u).count ',' < sizes.length) :
    Tensor.slice t (s ++ (a ++ ':' :: b) ++ u) h = .throw .invalidArgument h := by
  obtain ⟨i, hi, rfl, rfl, hr⟩ := ht
  obtain ⟨i', hi', ht, hg⟩ := hv
  rw [hi] at hi'
  obtain rfl := Option.some.inj hi'
  obtain ⟨a1, b1⟩ := hno ':' (by simp)
  obtain ⟨a2, b2⟩ := hno ',' (by simp)
  have := slice_lead_throw (p := a ++ ':' :: b) hi hr.strides ht hpre (by simp [a2, b2]) hu
    (by simp) hsel h64 (hfit i hi) hn (sliceGo_start_invalid hn0 a1 b1 ha ha0)
  rw [this, if_pos hcnt]

/-! Concrete cases. -/

instance (s : List Char) : Decidable (Blank s) := by unfold Blank; infer_instance

theorem exHeap_viewable (t : Nat) (ht : t < 3) : Viewable exHeap t := by
  match t, ht with
  | 0, _ => exact ⟨_, rfl, by simp [Tame, IsI64], by simp⟩
  | 1, _ => exact ⟨_, rfl, by simp [Tame, IsI64], by simp⟩
  | 2, _ => exact ⟨_, rfl, by simp [Tame, IsI64], by simp⟩

/-- `" 2 : :-1, -1"`: rows 2, 1, 0 of the last column. -/
theorem exSpells : Spells [.range (some 2) none (some (-1)), .index (-1)] " 2 : :-1, -1".toList := by
  refine .cons (s := " 2 : :-1".toList) (.range3 (p := " 2 ".toList) (q := [' ']) (r := "-1".toList) ?_ ?_ ?_) (by simp)
    (.one (.index ?_))
  · exact ⟨[' '], ['2'], [' '], by decide, ⟨['2'], by decide, by decide, Or.inl ⟨rfl, by decide⟩⟩, by decide, rfl⟩
  · show Blank _
    decide
  · exact ⟨[], "-1".toList, [], by decide, ⟨['1'], by decide, by decide, Or.inr (Or.inr ⟨rfl, by decide⟩)⟩, by decide, rfl⟩
  · exact ⟨[' '], "-1".toList, [], by decide, ⟨['1'], by decide, by decide, Or.inr (Or.inr ⟨rfl, by decide⟩)⟩, by decide, rfl⟩

example : ReturnsView (Tensor.slice 2 " 2 : :-1, -1".toList exHeap) exHeap 2 .i16 [3]
    (fun idx => exA (swapped idx 0 1)) (fun idx => [(2 + (idx.getD 0 0 : Int) * -1).toNat, 1]) := by
  have h := C07_slice_partial (h := exHeap) (t := 2) exHeap_aT (exHeap_viewable 2 (by decide)) exSpells (by simp [Selects])
    (by simp [AxisSpec.Is64, IsI64]) (by
      intro i hi
      obtain rfl := Option.some.inj hi
      simp [StepsFit, IsI64])
  have e1 : selShape [.range (some 2) none (some (-1)), .index (-1)] [3, 2] = [3] := by decide
  rw [e1] at h
  have e2 : ∀ idx, InBox [3] idx → selIndex [.range (some 2) none (some (-1)), .index (-1)] [3, 2] idx =
      [(2 + (idx.getD 0 0 : Int) * -1).toNat, 1] := forall_inBox (by decide)
  obtain ⟨r, h', e, hd, hp, rest⟩ := h
  refine ⟨r, h', e, ?_, fun idx hb => ?_, rest⟩
  · obtain ⟨i, hi, h1, h2, hr⟩ := hd
    refine ⟨i, hi, h1, h2, hr.congr ?_⟩
    rw [h2]
    intro idx hb
    simp only [e2 idx hb]; rfl
  · have := hp idx hb
    rw [e2 idx hb] at this
    exact this

example : Tensor.slice 0 "0:1,x".toList exHeap = .throw .invalidArgument exHeap :=
  C07_index_not_a_number (pre := [.range (some 0) (some 1) none]) (s := "0:1,".toList) (p := ['x']) (u := [])
    exHeap_a (exHeap_viewable 0 (by decide))
    (.cons (s := "0:1".toList) (t := []) (.range2 (p := ['0']) (q := ['1'])
      ⟨[], ['0'], [], by decide, ⟨['0'], by decide, by decide, Or.inl ⟨rfl, by decide⟩⟩, by decide, rfl⟩
      ⟨[], ['1'], [], by decide, ⟨['1'], by decide, by decide, Or.inl ⟨rfl, by decide⟩⟩, by decide, rfl⟩) .nil)
    (by simp [Selects]) (by simp [AxisSpec.Is64, IsI64]) (by intro i hi; obtain rfl := Option.some.inj hi; simp [StepsFit])
    (by decide) (by
      intro a sign c t ha hs h
      have hsi : sign = [] := by
        simp only [List.mem_cons, List.not_mem_nil, or_false] at hs
        rcases hs with rfl | rfl | rfl
        · rfl
        · have := congrArg (fun l => l.length) h; simp at this; omega
        · have := congrArg (fun l => l.length) h; simp at this; omega
      subst hsi
      cases a with
      | nil => simp at h; obtain ⟨rfl, _⟩ := h; decide
      | cons x a => have := congrArg (fun l => l.length) h; simp at this)
    (by decide) (by decide) (by decide) (Or.inl rfl) (by decide)

/-- **C07** is false for text after a number, which is ignored: `"1abc"` is read as `1`. -/
theorem C07_trailing_text_ignored :
    result ((do
      let v ← Tensor.slice (← Tensor.fromBlob [.i 7, .i 8, .i 9] [3] .i32) "1abc".toList
      Tensor.toString v : M Int Str) Heap.empty) = some "8".toList := by decide +kernel

/-- **C07** is false for a stop that is not read because the start already makes the slice empty: `"9:x"` is
accepted. -/
theorem C07_unread_part_accepted :
    result ((do
      let v ← Tensor.slice (← Tensor.fromBlob [.i 7, .i 8, .i 9] [3] .i32) "9:x".toList
      Tensor.sizeT v : M Int (List Nat)) Heap.empty) = some [0] := by decide +kernel

/-- **C07** is false for a fourth part, which is ignored. -/
theorem C07_fourth_part_ignored :
    result ((do
      let v ← Tensor.slice (← Tensor.fromBlob [.i 7, .i 8, .i 9] [3] .i32) "0:2:1:x".toList
      Tensor.toString v : M Int Str) Heap.empty) = some "[7, 8]".toList := by decide +kernel

/-! ### C05: one integer -/

theorem selects_everything (x : AxisSpec) {n : Nat} (post : List Nat) (hx : Selects [x] (n :: post)) :
    ∀ pre : List Nat, Selects (everything pre.length ++ [x]) (pre ++ n :: post)
  | [] => hx
  | m :: pre => ⟨by simp, selects_everything x post hx pre⟩

theorem selShape_everything (x : AxisSpec) {n : Nat} (post : List Nat) :
    ∀ pre : List Nat, selShape (everything pre.length ++ [x]) (pre ++ n :: post) = pre ++ selShape [x] (n :: post)
  | [] => rfl
  | m :: pre => by
    show pyLen m none none none :: selShape (everything pre.length ++ [x]) (pre ++ n :: post) = _
    rw [selShape_everything x post pre, pyLen_whole]; rfl

theorem selIndex_everything (x : AxisSpec) {n : Nat} (post y : List Nat) :
    ∀ (pre a : List Nat), a.length = pre.length →
      selIndex (everything pre.length ++ [x]) (pre ++ n :: post) (a ++ y) = a ++ selIndex [x] (n :: post) y
  | [], [], _ => rfl
  | m :: pre, j :: a, h => by
    show pyAt m none none j :: selIndex (everything pre.length ++ [x]) (pre ++ n :: post) (a ++ y) = _
    rw [selIndex_everything x post y pre a (by simpa using h), pyAt_whole]; rfl

theorem stepsFit_everything (x : AxisSpec) : ∀ (n : Nat) (sts : List Int), StepsFit [x] (sts.drop n) →
    StepsFit (everything n ++ [x]) sts
  | 0, sts, h => by simpa [everything] using h
  | n + 1, [], h => by simp [everything, List.replicate_succ, StepsFit]
  | n + 1, st :: sts, h => by
    show StepsFit (.range none none none :: (everything n ++ [x])) (st :: sts)
    exact stepsFit_everything x n sts (by simpa using h)

theorem is64_everything (x : AxisSpec) (n : Nat) (hx : x.Is64) : ∀ y ∈ everything n ++ [x], y.Is64 := by
  intro y hy
  rcases List.mem_append.1 hy with hy | hy
  · rw [List.eq_of_mem_replicate hy]
    simp [AxisSpec.Is64]
  · rw [List.mem_singleton] at hy
    subst hy; exact hx

/-- **C05.** Indexing axis number `pre.length`, of size `n`, with the integer `k` drops the axis and selects position
`k` (or `n + k` if `k` is negative) if it exists; the other axes keep their elements and order. -/
theorem C05_index {h : Heap F} {t : Nat} {dt : DType} {pre post : List Nat} {n : Nat} {f : List Nat → Val F}
    (ht : Denotes h t dt (pre ++ n :: post) f) (hv : Viewable h t) {k : Int} (h64 : IsI64 k) {s : List Char}
    (hs : Spells (everything pre.length ++ [.index k]) s) (hk : -(n : Int) ≤ k ∧ k < n) :
    ∃ σ, ReturnsView (Tensor.slice t s h) h t dt (pre ++ post) f σ ∧
      ∀ a b, a.length = pre.length → σ (a ++ b) = a ++ (if k < 0 then n + k else k).toNat :: b := by
  refine ⟨selIndex (everything pre.length ++ [.index k]) (pre ++ n :: post), ?_, ?_⟩
  · have := C07_slice_partial ht hv hs (selects_everything (.index k) post (n := n) ⟨hk, trivial⟩ pre) (is64_everything _ _ h64)
      (fun i hi => stepsFit_everything _ _ _ (by
        cases i.view.strides.drop pre.length <;> simp [StepsFit]))
    rw [selShape_everything] at this
    exact this
  · intro a b hl
    simp only [selIndex_everything (.index k) post b pre a hl]
    rfl

/-- **C05**: an integer outside the axis throws `std::runtime_error` (the axes before it being valid). -/
theorem C05_out_of_range {h : Heap F} {t : Nat} {dt : DType} {sizes : List Nat} {f : List Nat → Val F}
    (ht : Denotes h t dt sizes f) (hv : Viewable h t) {pre : List AxisSpec} {s p u : List Char} (hpre : Leading pre s)
    (hsel : Selects pre sizes) (h64 : ∀ x ∈ pre, x.Is64) (hfit : ∀ i, h.ts[t]? = some i → StepsFit pre i.view.strides)
    {n : Nat} (hn : sizes[pre.length]? = some n) {k : Int} (hp : Padded k p) (hk64 : IsI64 k) (hu : Trailing u)
    (hk : k < -(n : Int) ∨ n ≤ k) :
    Tensor.slice t (s ++ p ++ u) h = .throw .runtime h := by
  obtain ⟨i, hi, rfl, rfl, hr⟩ := ht
  obtain ⟨i', hi', ht, hg⟩ := hv
  rw [hi] at hi'
  obtain rfl := Option.some.inj hi'
  have hn62 : n ≤ 4611686018427387904 := by
    have hlt := getElem?_lt hn
    have hl := hr.strides
    exact (tame_iff.1 ht _ n _ hn (List.getElem?_eq_getElem (by omega))).1
  have := slice_lead_throw hi hr.strides ht hpre (hp.not_mem (Or.inl rfl)) hu (by simp [Padded.ne_nil hp]) hsel h64
    (hfit i hi) hn (sliceGo_index_throw hp hk64 (by omega) hn62)
  rw [this]; simp

/-- `",-2"`: column 1 of a 2x3 matrix. -/
theorem exSpells5 : Spells (everything 1 ++ [.index (-2)]) ",-2".toList :=
  .cons (s := []) .whole (by simp) (.one (.index
    ⟨[], "-2".toList, [], by decide, ⟨['2'], by decide, by decide, Or.inr (Or.inr ⟨rfl, by decide⟩)⟩, by decide, rfl⟩))

example : ∃ σ, ReturnsView (Tensor.slice 0 ",-2".toList exHeap) exHeap 0 .i16 [2] exA σ ∧
    ∀ a b, a.length = 1 → σ (a ++ b) = a ++ 1 :: b :=
  C05_index (pre := [2]) (post := []) (n := 3) exHeap_a (exHeap_viewable 0 (by decide)) (by simp [IsI64]) exSpells5
    (by decide)

example : Tensor.slice 0 " 2 ,junk".toList exHeap = .throw .runtime exHeap :=
  C05_out_of_range (pre := []) (s := []) (p := " 2 ".toList) (u := ",junk".toList) exHeap_a
    (exHeap_viewable 0 (by decide)) .nil trivial (by simp) (by intro i _; cases i.view.strides <;> simp [StepsFit])
    (n := 2) rfl (k := 2)
    ⟨[' '], ['2'], [' '], by decide, ⟨['2'], by decide, by decide, Or.inl ⟨rfl, by decide⟩⟩, by decide, rfl⟩
    (by simp [IsI64]) (Or.inr ⟨_, rfl⟩) (Or.inr (by decide))

/-! ### C06: one range -/

/-- **C06.** Slicing axis number `pre.length`, of size `n`, with `start:stop:step` selects exactly the positions of the
Python slice, in its order. Partial: neither the step nor its product with the stride of the axis may exceed 64 bits
(the step must not be -2^63 either), see `C06_huge_step_undefined`. -/
theorem C06_range_partial {h : Heap F} {t : Nat} {dt : DType} {pre post : List Nat} {n : Nat} {f : List Nat → Val F}
    (ht : Denotes h t dt (pre ++ n :: post) f) (hv : Viewable h t) {start stop step : Option Int}
    (h64 : ∀ o ∈ [start, stop, step], ∀ k, o = some k → IsI64 k) (h0 : step ≠ some 0) {s : List Char}
    (hs : Spells (everything pre.length ++ [.range start stop step]) s)
    (hfit : ∀ i st k, h.ts[t]? = some i → i.view.strides[pre.length]? = some st → step = some k →
      k ≠ -9223372036854775808 ∧ IsI64 (k * st)) :
    ∃ σ, ReturnsView (Tensor.slice t s h) h t dt (pre ++ pyLen n start stop step :: post) f σ ∧
      ∀ a j b, a.length = pre.length → σ (a ++ j :: b) = a ++ pyAt n start step j :: b := by
  refine ⟨selIndex (everything pre.length ++ [.range start stop step]) (pre ++ n :: post), ?_, ?_⟩
  · have := C07_slice_partial ht hv hs (selects_everything (.range start stop step) (n := n) post ⟨h0, trivial⟩ pre)
      (is64_everything _ _ ⟨h64 start (by simp), h64 stop (by simp), h64 step (by simp)⟩)
      (fun i hi => stepsFit_everything _ _ _ (by
        cases hd : i.view.strides.drop pre.length with
        | nil => simp [StepsFit]
        | cons st sts =>
          have hst : i.view.strides[pre.length]? = some st := by
            have := congrArg (fun l => l[0]?) hd
            simpa using this
          cases step with
          | none => simp [StepsFit]
          | some k => exact ⟨(hfit i st k hi hst rfl).1, (hfit i st k hi hst rfl).2, by cases sts <;> trivial⟩))
    rw [selShape_everything] at this
    exact this
  · intro a j b hl
    simp only [selIndex_everything (.range start stop step) post (j :: b) pre a hl]
    simp only [selIndex]

/-- **C06**: the positions of the Python slice are `start, start + step, ...` as long as they are before `stop` (after
it, for a negative step), and they are positions of the axis. -/
theorem C06_positions {n : Nat} {start stop step : Option Int} (h0 : step ≠ some 0) (j : Nat) :
    (j < pyLen n start stop step ↔
      (0 < step.getD 1 ∧ pyStart n (step.getD 1) start + j * step.getD 1 < pyStop n (step.getD 1) stop) ∨
      (step.getD 1 < 0 ∧ pyStop n (step.getD 1) stop < pyStart n (step.getD 1) start + j * step.getD 1)) ∧
    (j < pyLen n start stop step → pyAt n start step j < n ∧
      (pyAt n start step j : Int) = pyStart n (step.getD 1) start + j * step.getD 1) := by
  have hk : step.getD 1 ≠ 0 := by cases step <;> simp_all
  refine ⟨mem_pyCount hk j, fun hj => ?_⟩
  have h1 := pyAt_lt h0 hj
  refine ⟨h1.1, ?_⟩
  have h2 := (mem_pyCount hk j).1 hj
  unfold pyAt
  have r1 := pyStart_range n (step.getD 1) start
  have r2 := pyStop_range n (step.getD 1) stop
  have : 0 ≤ pyStart n (step.getD 1) start + j * step.getD 1 := by
    rcases h2 with ⟨h3, _⟩ | ⟨h3, h4⟩
    · have : 0 ≤ (j : Int) * step.getD 1 := Int.mul_nonneg (by omega) (by omega)
      rcases r1 with ⟨_, r⟩
      unfold pyStart
      split
      · split <;> omega
      · rw [if_pos h3]; omega
    · have : -1 ≤ pyStop n (step.getD 1) stop := by
        unfold pyStop
        split
        · split <;> omega
        · split <;> omega
      omega
  omega

/-- **C06**: a zero step throws `std::runtime_error`, for every axis that has a position. -/
theorem C06_zero_step {h : Heap F} {t : Nat} {dt : DType} {sizes : List Nat} {f : List Nat → Val F}
    (ht : Denotes h t dt sizes f) (hv : Viewable h t) {pre : List AxisSpec} {s a b c u : List Char} (hpre : Leading pre s)
    (hsel : Selects pre sizes) (h64 : ∀ x ∈ pre, x.Is64) (hfit : ∀ i, h.ts[t]? = some i → StepsFit pre i.view.strides)
    {n : Nat} (hn : sizes[pre.length]? = some n) (hn0 : 0 < n) (hc : Padded 0 c)
    (hno : ∀ x ∈ [':', ','], x ∉ a ∧ x ∉ b) (hu : Trailing u) :
    Tensor.slice t (s ++ (a ++ ':' :: b ++ ':' :: c) ++ u) h = .throw .runtime h := by
  obtain ⟨i, hi, rfl, rfl, hr⟩ := ht
  obtain ⟨i', hi', ht, hg⟩ := hv
  rw [hi] at hi'
  obtain rfl := Option.some.inj hi'
  obtain ⟨a1, b1⟩ := hno ':' (by simp)
  obtain ⟨a2, b2⟩ := hno ',' (by simp)
  have := slice_lead_throw (p := a ++ ':' :: b ++ ':' :: c) hi hr.strides ht hpre
    (by simp [a2, b2, hc.not_mem (Or.inl rfl)]) hu
    (by simp) hsel h64 (hfit i hi) hn (sliceGo_zero_throw hn0 a1 b1 hc)
  rw [this]; simp

/-- `",2:0:-1"`: columns 2 and 1 of a 2x3 matrix. -/
theorem exSpells6 : Spells (everything 1 ++ [.range (some 2) (some 0) (some (-1))]) ",2:0:-1".toList :=
  .cons (s := []) .whole (by simp) (.one (.range3 (p := ['2']) (q := ['0']) (r := "-1".toList)
    ⟨[], ['2'], [], by decide, ⟨['2'], by decide, by decide, Or.inl ⟨rfl, by decide⟩⟩, by decide, rfl⟩
    ⟨[], ['0'], [], by decide, ⟨['0'], by decide, by decide, Or.inl ⟨rfl, by decide⟩⟩, by decide, rfl⟩
    ⟨[], "-1".toList, [], by decide, ⟨['1'], by decide, by decide, Or.inr (Or.inr ⟨rfl, by decide⟩)⟩, by decide, rfl⟩))

example : ∃ σ, ReturnsView (Tensor.slice 0 ",2:0:-1".toList exHeap) exHeap 0 .i16 [2, 2] exA σ ∧
    ∀ a j b, a.length = 1 → σ (a ++ j :: b) = a ++ pyAt 3 (some 2) (some (-1)) j :: b :=
  C06_range_partial (pre := [2]) (post := []) (n := 3) exHeap_a (exHeap_viewable 0 (by decide))
    (by simp [IsI64]) (by decide) exSpells6 (by
      intro i st k hi hst hk
      obtain rfl := Option.some.inj hi
      obtain rfl := Option.some.inj hst
      obtain rfl := Option.some.inj hk
      simp [IsI64])
example : pyLen 3 (some 2) (some 0) (some (-1)) = 2 ∧ pyAt 3 (some 2) (some (-1)) 0 = 2 ∧
    pyAt 3 (some 2) (some (-1)) 1 = 1 := by decide
example : Tensor.slice 0 "::0".toList exHeap = .throw .runtime exHeap :=
  C06_zero_step (pre := []) (s := []) (a := []) (b := []) (c := ['0']) (u := []) exHeap_a
    (exHeap_viewable 0 (by decide)) .nil trivial (by simp) (by intro i _; cases i.view.strides <;> simp [StepsFit])
    (n := 2) rfl (by decide)
    ⟨[], ['0'], [], by decide, ⟨['0'], by decide, by decide, Or.inl ⟨rfl, by decide⟩⟩, by decide, rfl⟩
    (by simp) (Or.inl rfl)

/-- **C06** is false for steps whose product with the stride exceeds 64 bits: signed overflow, although the slice
(row 0 only) is well defined. -/
theorem C06_huge_step_undefined :
    undefinedBy ((do
      Tensor.slice (← Tensor.zeros [2, 3] .i32) "::9223372036854775807".toList : M Int Nat) Heap.empty) =
      some .overflow := by decide +kernel

/-- **C06** is false for the step -2^63. -/
theorem C06_least_step_undefined :
    undefinedBy ((do
      Tensor.slice (← Tensor.zeros [2] .i32) "::-9223372036854775808".toList : M Int Nat) Heap.empty) =
      some .overflow := by decide +kernel

/-- **C06** is false for empty axes: a zero step is accepted. -/
theorem C06_zero_step_of_empty_axis :
    result ((do
      Tensor.sizeT (← Tensor.slice (← Tensor.zeros [0] .i32) "::0".toList) : M Int (List Nat)) Heap.empty) =
      some [0] := by decide +kernel

/-! ### C10: transpose -/

/-- **C10.** `transpose(a, b)` with different axes below the rank is a view with these axes exchanged. -/
theorem C10_transpose {h : Heap F} {t : Nat} {dt : DType} {sizes : List Nat} {f : List Nat → Val F}
    (ht : Denotes h t dt sizes f) (hv : Viewable h t) {a b : Nat} (ha : a < sizes.length) (hb : b < sizes.length)
    (hab : a ≠ b) :
    ReturnsView (Tensor.transpose t a b h) h t dt (swapped sizes a b) f (fun idx => swapped idx a b) := by
  obtain ⟨i, hi, rfl, rfl, hr⟩ := ht
  obtain ⟨i', hi', ht, hg⟩ := hv
  rw [hi] at hi'
  obtain rfl := Option.some.inj hi'
  exact transpose_ok hi hr ht hg ha hb hab

/-- **C10**: transposing twice gives back the same shape and elements, each at the place it had in `t`. -/
theorem C10_involution {h : Heap F} {t : Nat} {dt : DType} {sizes : List Nat} {f : List Nat → Val F}
    (ht : Denotes h t dt sizes f) (hv : Viewable h t) {a b : Nat} (ha : a < sizes.length) (hb : b < sizes.length)
    (hab : a ≠ b) :
    ReturnsView ((Tensor.transpose t a b >>= fun r => Tensor.transpose r a b) h) h t dt sizes f id := by
  obtain ⟨r, h', e, hd, hp, hs, hpr, hle, hv', hk⟩ := C10_transpose ht hv ha hb hab
  obtain ⟨r', h'', e', hd', hp', hs', hpr', hle', hv'', hk'⟩ :=
    C10_transpose hd hv' (a := a) (b := b) (by rw [length_swapped]; exact ha) (by rw [length_swapped]; exact hb) hab
  simp only [swapped_swapped] at hd' hp'
  have hlt : r < h'.ts.length := by
    obtain ⟨_, _, _, e, _⟩ := hs
    exact getElem?_lt e
  refine ⟨r', h'', by rw [M.bind_ok e]; exact e', hd', fun idx hbx => ?_, ?_, hpr.trans hpr',
    Nat.le_trans hle (Nat.le_trans (Nat.le_of_lt hlt) hle'), hv'', fun u hu => hk' u (hk u hu)⟩
  · obtain ⟨i1, j1, a1, a2, a3, a4, a5, a6⟩ := hp' idx hbx
    obtain ⟨i2, j2, b1, b2, b3, b4, b5, b6⟩ := hp (swapped idx a b) (by
      obtain ⟨x, hx, _, hsz, _⟩ := hd
      obtain ⟨y, hy, _, hyv, _⟩ := hpr'.ts _ _ hx
      rw [hy] at a2
      obtain rfl := Option.some.inj a2
      rw [hyv, hsz] at a5
      exact a5)
    obtain ⟨y, hy, _, hyv, hyd⟩ := hpr'.ts _ _ b1
    obtain ⟨z, hz, _, hzv, hzd⟩ := hpr'.ts _ _ b2
    rw [hy] at a2
    obtain rfl := Option.some.inj a2
    simp only [swapped_swapped] at b5 b6
    exact ⟨i1, z, a1, hz, by rw [a3, hyd, b3, hzd], a4, by rw [hzv]; exact b5, by rw [a6, hyv, b6, hzv]; rfl⟩
  · obtain ⟨i1, j1, a1, a2, a3⟩ := hs
    obtain ⟨i2, j2, b1, b2, b3⟩ := hs'
    obtain ⟨y, hy, _, hyv, hyd⟩ := hpr'.ts _ _ a2
    obtain ⟨z, hz, _, hzv, hzd⟩ := hpr'.ts _ _ a1
    rw [hy] at b1
    obtain rfl := Option.some.inj b1
    exact ⟨z, j2, hz, b2, by rw [hzd, a3, ← hyd, b3]⟩

/-- **C10**: equal axes, and axes not below the rank, throw `std::runtime_error`. -/
theorem C10_rejected {h : Heap F} {t : Nat} {dt : DType} {sizes : List Nat} {f : List Nat → Val F}
    (ht : Denotes h t dt sizes f) {a b : Nat} (hab : a = b ∨ sizes.length ≤ a ∨ sizes.length ≤ b) :
    Tensor.transpose t a b h = .throw .runtime h := by
  obtain ⟨i, hi, rfl, rfl, hr⟩ := ht
  exact transpose_throw hi hab

example : ReturnsView (Tensor.transpose 0 0 1 exHeap) exHeap 0 .i16 [3, 2] exA (fun idx => swapped idx 0 1) :=
  C10_transpose exHeap_a (exHeap_viewable 0 (by decide)) (by decide) (by decide) (by decide)
example : Tensor.transpose 0 0 2 exHeap = .throw .runtime exHeap := C10_rejected exHeap_a (by decide)
example : swapped [7, 8, 9] 0 2 = [9, 8, 7] := by decide

end INNC
