import Verif.Lemmas.Views
/-
Reshape.
-/
namespace INNC
open Spec
variable {F : Type}

/-! ### Layouts that collapse to one stride -/

/-- The strides are `c` times the row-major strides. -/
def Scaled (c : Int) (sizes : List Nat) (strides : List Int) : Prop := strides = (rmStrides sizes).map (c * ·)

theorem isometry_ok : ∀ (sizes : List Nat) (strides : List Int), strides.length = sizes.length → Tame sizes strides →
    ∃ b, isometry sizes strides = .ok b ∧ (b = true ↔ ∃ c, Scaled c sizes strides)
  | [], strides, hl, ht => by
    have : strides = [] := List.length_eq_zero_iff.1 (by simpa using hl)
    subst this
    exact ⟨true, rfl, by simp [Scaled, rmStrides]⟩
  | [n], strides, hl, ht => by
    match strides, hl with
    | [st], _ =>
      refine ⟨true, rfl, iff_of_true rfl ⟨st, ?_⟩⟩
      simp [Scaled, rmStrides, vol]
  | n :: s :: ss, strides, hl, ht => by
    match strides, hl with
    | st0 :: st1 :: sts, hl =>
      obtain ⟨_, _, _, ht1⟩ := ht
      obtain ⟨b, e, hb⟩ := isometry_ok (s :: ss) (st1 :: sts) (by simpa using hl) ht1
      obtain ⟨hn, hst, hsp, _⟩ := ht1
      unfold IsI64 at hst
      have w : wrapS (s : Int) = s := wrapS_eq_self (by omega) (by omega)
      have hfit : fitsS (st1 * s) = true := by
        rw [fitsS_iff]
        rcases Nat.lt_or_ge s 2 with h | h
        · have : s = 0 ∨ s = 1 := by omega
          rcases this with rfl | rfl <;> simp <;> omega
        · have h1 : st1.natAbs * s ≤ 2 * (st1.natAbs * (s - 1)) := by
            have h2 : st1.natAbs * s ≤ st1.natAbs * (2 * (s - 1)) := Nat.mul_le_mul_left _ (by omega)
            calc _ ≤ _ := h2
              _ = _ := by ring
          have h2 : (st1 * s).natAbs = st1.natAbs * s := by rw [Int.natAbs_mul, Int.natAbs_natCast]
          omega
      refine ⟨decide (st0 = st1 * s) && b, ?_, ?_⟩
      · rw [isometry, w, sMul_ok hfit]
        show Res.bind (isometry _ _) _ = _
        rw [e]; rfl
      · rw [Bool.and_eq_true, decide_eq_true_iff, hb]
        constructor
        · rintro ⟨h1, c, h2⟩
          refine ⟨c, ?_⟩
          unfold Scaled at h2 ⊢
          simp only [rmStrides, List.map_cons] at h2 ⊢
          obtain ⟨h3, h4⟩ := List.cons.inj h2
          have h5 : st0 = c * (vol (s :: ss) : Nat) := by
            rw [h1, h3]; simp only [vol]; push_cast; ring
          rw [h5, h2]
        · rintro ⟨c, h2⟩
          unfold Scaled at h2
          simp only [rmStrides, List.map_cons] at h2
          obtain ⟨h3, h4⟩ := List.cons.inj h2
          obtain ⟨h5, h6⟩ := List.cons.inj h4
          refine ⟨?_, c, ?_⟩
          · rw [h3, h5]; simp only [vol]; push_cast; ring
          · unfold Scaled
            simp only [rmStrides, List.map_cons]; rw [h5, h6]

theorem Scaled.last {c : Int} : ∀ {sizes : List Nat} {strides : List Int}, Scaled c sizes strides → sizes ≠ [] →
    strides[strides.length - 1]? = some c
  | [], _, _, h => absurd rfl h
  | [n], strides, h, _ => by
    unfold Scaled at h; subst h; simp [rmStrides, vol]
  | n :: s :: ss, strides, h, _ => by
    have h2 : Scaled c (s :: ss) strides.tail := by
      unfold Scaled at h ⊢; subst h; simp [rmStrides]
    have := Scaled.last h2 (by simp)
    unfold Scaled at h
    subst h
    simpa [rmStrides] using this

theorem scaledStrides_eq {last : Int} (hl : IsI64 last) : ∀ sizes : List Nat,
    scaledStrides last sizes = (rmStrides sizes).map fun v => wrapS (last * v)
  | [] => rfl
  | [_] => by simp [scaledStrides, rmStrides, vol, wrapS_eq_self hl.1 hl.2]
  | a :: s :: rest => by
    rw [scaledStrides, scaledStrides_eq hl (s :: rest)]
    simp only [rmStrides, List.map_cons, vol]
    rw [wrapS_wrapS_mul]
    congr 2
    push_cast; ring

theorem Scaled.dot {c : Int} {sizes : List Nat} {strides : List Int} (h : Scaled c sizes strides) {idx : List Nat}
    (hi : idx.length = sizes.length) : dot strides idx = c * rank sizes idx := by
  unfold Scaled at h
  subst h
  induction sizes generalizing idx with
  | nil => cases idx <;> simp [rmStrides, Spec.dot, rank]
  | cons n ns ih =>
    cases idx with
    | nil => simp at hi
    | cons j idx =>
      simp only [rmStrides, List.map_cons, Spec.dot, rank]
      rw [ih (by simpa using hi)]
      push_cast; ring

/-- Wrapping of strides on axes of size 1 is harmless. -/
theorem dot_wrapped {c : Int} : ∀ {sizes idx : List Nat}, InBox sizes idx →
    c.natAbs * (vol sizes - 1) < 9223372036854775808 →
    dot ((rmStrides sizes).map fun v => wrapS (c * v)) idx = c * rank sizes idx
  | [], [], _, _ => by simp [rmStrides, dot, rank]
  | n :: ns, j :: idx, ⟨hj, hb⟩, hc => by
    have hv : 0 < vol ns := hb.vol_pos
    have hle : vol ns ≤ n * vol ns := Nat.le_mul_of_pos_left _ (by omega)
    have h1 : c.natAbs * (vol ns - 1) < 9223372036854775808 :=
      Nat.lt_of_le_of_lt (Nat.mul_le_mul_left _ (by simp only [vol]; omega)) hc
    simp only [rmStrides, List.map_cons, dot, rank]
    rw [dot_wrapped hb h1]
    by_cases hj0 : j = 0
    · subst hj0; simp
    · have h2 : vol ns ≤ vol (n :: ns) - 1 := by
        simp only [vol]
        have : 2 * vol ns ≤ n * vol ns := Nat.mul_le_mul_right _ (by omega)
        omega
      have h3 : (c * vol ns).natAbs < 9223372036854775808 := by
        rw [Int.natAbs_mul, Int.natAbs_natCast]
        exact Nat.lt_of_le_of_lt (Nat.mul_le_mul_left _ h2) hc
      rw [wrapS_eq_self (by omega) (by omega)]
      push_cast; ring

/-! ### What a view of a tensor denotes -/

/-- A view on the same storage whose elements are elements of the tensor. -/
theorem Spec.Reads.view {h : Heap F} {i j : Impl} {f : List Nat → Val F} (hr : Reads h i f) (hd : j.data = i.data)
    (hdt : j.dtype = i.dtype) (hst : j.view.strides.length = j.view.sizes.length)
    (hoff : j.view.offset < 18446744073709551616) (σ : List Nat → List Nat)
    (hσ : ∀ idx, InBox j.view.sizes idx → InBox i.view.sizes (σ idx) ∧ position j.view idx = position i.view (σ idx)) :
    Reads h j fun idx => f (σ idx) where
  strides := hst
  offset := hoff
  cells := by
    obtain ⟨s, cells, h1, h2, h3, h4, h5⟩ := hr.cells
    refine ⟨s, cells, by rw [hd]; exact h1, by rw [hdt]; exact h2, h3, h4, fun idx hb => ?_⟩
    obtain ⟨p, hp, hc⟩ := h5 _ (hσ idx hb).1
    exact ⟨p, by rw [(hσ idx hb).2]; exact hp, hc⟩
  typed := fun idx hb => by rw [hdt]; exact hr.typed _ (hσ idx hb).1

theorem Spec.Reads.range {h : Heap F} {i : Impl} {f : List Nat → Val F} (hr : Reads h i f) {idx : List Nat}
    (hb : InBox i.view.sizes idx) : 0 ≤ position i.view idx ∧ position i.view idx < 9223372036854775808 := by
  obtain ⟨s, cells, _, _, _, h4, h5⟩ := hr.cells
  obtain ⟨p, hp, hc⟩ := h5 idx hb
  have := getElem?_lt hc
  omega

/-- The layout `v` selects elements of the layout `w`. -/
structure SubView (w v : Layout) (σ : List Nat → List Nat) : Prop where
  len : v.strides.length = v.sizes.length
  off : v.offset < 18446744073709551616
  pos : ∀ idx, InBox v.sizes idx → InBox w.sizes (σ idx) ∧ position v idx = position w (σ idx)

/-- The scale of a collapsing layout is bounded by the storage. -/
theorem scale_bound {h : Heap F} {i : Impl} {f : List Nat → Val F} (hr : Reads h i f) {c : Int}
    (hs : Scaled c i.view.sizes i.view.strides) (hv : 0 < vol i.view.sizes) :
    c.natAbs * (vol i.view.sizes - 1) < 9223372036854775808 := by
  have a1 := unrank_inBox (sizes := i.view.sizes) (k := 0) hv
  have a2 := unrank_inBox (sizes := i.view.sizes) (k := vol i.view.sizes - 1) (by omega)
  have r1 := hr.range a1
  have r2 := hr.range a2
  unfold position at r1 r2
  rw [hs.dot a1.length, rank_unrank hv] at r1
  rw [hs.dot a2.length, rank_unrank (by omega)] at r2
  have : (c * ((vol i.view.sizes - 1 : Nat) : Int)).natAbs = c.natAbs * (vol i.view.sizes - 1) := by
    rw [Int.natAbs_mul, Int.natAbs_natCast]
  omega

/-- The element of a tensor of shape `s` at the row-major position of an index of the shape `s'`. -/
def reindex (s s' idx : List Nat) : List Nat := unrank s (rank s' idx)

theorem reindex_inBox {s s' idx : List Nat} (hv : vol s' = vol s) (hb : InBox s' idx) : InBox s (reindex s s' idx) :=
  unrank_inBox (by rw [← hv]; exact rank_lt hb)

theorem rank_reindex {s s' idx : List Nat} (hv : vol s' = vol s) (hb : InBox s' idx) :
    rank s (reindex s s' idx) = rank s' idx := rank_unrank (by rw [← hv]; exact rank_lt hb)

/-- Reindexing lists the elements in the same order. -/
theorem map_reindex {α : Type} {s s' : List Nat} (hv : vol s' = vol s) (f : List Nat → α) :
    (rowMajor s').map (fun idx => f (reindex s s' idx)) = (rowMajor s).map f := by
  rw [rowMajor_eq_map_unrank s', rowMajor_eq_map_unrank s, List.map_map, List.map_map, hv]
  apply List.map_congr_left
  intro k hk
  have hk' := List.mem_range.1 hk
  simp only [Function.comp_apply, reindex]
  rw [rank_unrank (by omega)]

/-! ### The operation -/

theorem dot_vol_one : ∀ {s idx : List Nat} (sts : List Int), vol s = 1 → InBox s idx → dot sts idx = 0
  | [], [], sts, _, _ => by cases sts <;> rfl
  | n :: ns, j :: idx, sts, hv, ⟨hj, hb⟩ => by
    have h1 : n = 1 ∧ vol ns = 1 := by
      have hv' : n * vol ns = 1 := hv
      exact ⟨Nat.dvd_one.1 ⟨_, hv'.symm⟩, Nat.dvd_one.1 ⟨n, by rw [Nat.mul_comm]; exact hv'.symm⟩⟩
    have hj0 : j = 0 := by omega
    subst hj0
    cases sts with
    | nil => rfl
    | cons st sts => simp only [dot]; rw [dot_vol_one sts h1.2 hb]; simp

theorem Tame.fits : ∀ {sizes : List Nat} {strides : List Int}, Tame sizes strides → strides.length = sizes.length →
    ∀ st ∈ strides, IsI64 st
  | [], [], _, _ => by simp
  | n :: ns, st :: sts, ⟨_, h, _, ht⟩, hl => by
    intro x hx
    rcases List.mem_cons.1 hx with rfl | hx
    · exact h
    · exact Tame.fits ht (by simpa using hl) x hx

section
variable [FOps F]

/-- The part of `reshapeSizes` after the early return. -/
def reshapeTail (t : Nat) (sizes : List Nat) (i : Impl) : M F Nat :=
    if i.view.sizes.length < i.view.strides.length then M.undef .vecOob
    else do
    let iso ← M.lift (isometry i.view.sizes i.view.strides)
    if iso then
      let strides ← if sizes.length ≠ 0 then do
          let last ← M.lift (vecAt i.view.strides (i.view.strides.length - 1))
          pure (scaledStrides last sizes)
        else pure i.view.strides
      Tensor.makeView i.dtype ⟨sizes, strides, i.view.offset⟩ i.data t
    else do
      let m ← Tensor.clone t
      let mi ← getT m
      Tensor.makeView i.dtype (Layout.contig sizes) mi.data m

theorem reshapeSizes_eq (t : Nat) (sizes : List Nat) : (Tensor.reshapeSizes t sizes : M F Nat) = (do
    let i ← getT t
    expect (decide (numel sizes = numel i.view.sizes))
    let early ← if numel sizes = 1 then do
        let r ← Tensor.makeView i.dtype ⟨sizes, List.replicate sizes.length 1, i.view.offset⟩ i.data t
        pure (if i.requiresGrad then none else some r)
      else pure none
    match early with
    | some r => return r
    | none => reshapeTail t sizes i) := rfl

/-- What reshape leaves behind: `f'` are the elements of the result, `own` says whether it has a storage of its own. -/
structure Reshaped (h h' : Heap F) (i : Impl) (r : Nat) (s' : List Nat) (f' : List Nat → Val F) (own : Prop) : Prop where
  pres : Preserves h h'
  new : h.ts.length ≤ r
  lay : ∃ j, h'.ts[r]? = some j ∧ (¬ own → SubView i.view j.view (reindex i.view.sizes s')) ∧ (own → j.view = Layout.contig s')
  obj : ∃ j, h'.ts[r]? = some j ∧ j.dtype = i.dtype ∧ j.view.sizes = s' ∧ Reads h' j f' ∧ j.requiresGrad = i.requiresGrad ∧
    (¬ own → j.data = i.data) ∧ (own → h.st.length ≤ j.data)
  fit : ∃ j, h'.ts[r]? = some j ∧ (∀ st ∈ j.view.strides, IsI64 st) ∧ ∀ g, j.grad = some g → g < h'.ts.length

theorem ViewMade.gradIn {h h' : Heap F} {base r : Nat} {b : Impl} {dt : DType} {v : Layout} {d : Nat}
    (vm : ViewMade h h' base r b dt v d) {j : Impl} (hj : h'.ts[r]? = some j) : ∀ g, j.grad = some g → g < h'.ts.length := by
  intro g hg
  obtain ⟨j', hj', _, _, _, _, _, _, hn⟩ := vm.obj
  rw [hj] at hj'
  obtain rfl := Option.some.inj hj'
  cases hrg : b.requiresGrad with
  | false => rw [hn hrg] at hg; cases hg
  | true =>
    obtain ⟨_, j2, _, _, g', gj, _, _, _, _, _, q1, q2, q3, _⟩ := vm.shared hrg
    rw [hj] at q1
    obtain rfl := Option.some.inj q1
    rw [hg] at q2
    obtain rfl := Option.some.inj q2
    exact getElem?_lt q3

theorem contigStrides_i64 : ∀ (s : List Nat), ∀ st ∈ contigStrides s, IsI64 st
  | [], _, h => by cases h
  | [_], st, h => by
    simp only [contigStrides, List.mem_singleton] at h
    subst h
    unfold IsI64; omega
  | _ :: n :: rest, st, h => by
    have ih := contigStrides_i64 (n :: rest)
    unfold contigStrides at h
    cases hc : contigStrides (n :: rest) with
    | nil => rw [hc] at h; cases h
    | cons a as =>
      rw [hc] at h ih
      rcases List.mem_cons.1 h with rfl | h
      · exact ⟨wrapS_ge _, wrapS_lt _⟩
      · exact ih st h

/-- Reshape without a copy is a view. -/
theorem reshapeTail_view {h : Heap F} {t : Nat} {i : Impl} {f : List Nat → Val F} {s' : List Nat}
    (hr : Reads h i f) (ht : Tame i.view.sizes i.view.strides) (hv : vol s' = vol i.view.sizes)
    (hns : i.view.sizes = [] ↔ s' = []) (H : Heap F) :
    (∃ v c, Scaled c i.view.sizes i.view.strides ∧ v.sizes = s' ∧ reshapeTail t s' i H = Tensor.makeView i.dtype v i.data t H ∧
      SubView i.view v (reindex i.view.sizes s') ∧ ∀ st ∈ v.strides, IsI64 st) ∨
    ((¬ ∃ c, Scaled c i.view.sizes i.view.strides) ∧ reshapeTail t s' i H = (do
      let m ← Tensor.clone t
      let mi ← getT m
      Tensor.makeView i.dtype (Layout.contig s') mi.data m : M F Nat) H) := by
  have hl := hr.strides
  obtain ⟨iso, e1, hiso⟩ := isometry_ok _ _ hl ht
  unfold reshapeTail
  rw [if_neg (by omega), e1, M.bind_ok (M.lift_ok _ _)]
  cases iso with
  | true =>
    obtain ⟨c, hc⟩ := hiso.1 rfl
    simp only [if_true]
    -- the strides of the result
    obtain ⟨strides, e2, hlen, hdot, h64⟩ : ∃ strides, (if s'.length ≠ 0 then (do
          let last ← M.lift (vecAt i.view.strides (i.view.strides.length - 1))
          let strides ← pure (scaledStrides last s')
          Tensor.makeView i.dtype ⟨s', strides, i.view.offset⟩ i.data t) else (do
          let strides ← pure i.view.strides
          Tensor.makeView i.dtype ⟨s', strides, i.view.offset⟩ i.data t) : M F Nat) H =
            Tensor.makeView i.dtype ⟨s', strides, i.view.offset⟩ i.data t H ∧
          strides.length = s'.length ∧ (∀ idx, InBox s' idx → dot strides idx = c * rank s' idx) ∧ ∀ st ∈ strides, IsI64 st := by
      by_cases hs' : s' = []
      · subst hs'
        rw [if_neg (by simp)]
        have h0 : i.view.sizes = [] := hns.2 rfl
        refine ⟨_, rfl, by rw [hl, h0], fun idx hb => ?_, Tame.fits ht hl⟩
        have : idx = [] := by cases idx with
          | nil => rfl
          | cons => exact absurd hb (by simp [InBox])
        subst this
        simp [dot, rank]
      · have h0 : i.view.sizes ≠ [] := fun h => hs' (hns.1 h)
        have hlast := hc.last h0
        have hcm : c ∈ i.view.strides := List.mem_of_getElem? hlast
        have hc64 := Tame.fits ht hl c hcm
        rw [if_pos (by simpa using hs')]
        refine ⟨scaledStrides c s', ?_, ?_, fun idx hb => ?_, fun st hst => ?_⟩
        · unfold vecAt; rw [hlast]; rfl
        · rw [scaledStrides_eq hc64]; simp [length_rmStrides]
        · rw [scaledStrides_eq hc64]
          refine dot_wrapped hb ?_
          rw [hv]
          exact scale_bound hr hc (by rw [← hv]; exact hb.vol_pos)
        · rw [scaledStrides_eq hc64] at hst
          obtain ⟨v, _, rfl⟩ := List.mem_map.1 hst
          exact ⟨wrapS_ge _, wrapS_lt _⟩
    rw [e2]
    refine .inl ⟨_, c, hc, rfl, rfl, ⟨hlen, hr.offset, fun idx hbx => ?_⟩, h64⟩
    have hbx : InBox s' idx := hbx
    refine ⟨reindex_inBox hv hbx, ?_⟩
    have h1 := hc.dot (reindex_inBox hv hbx).length
    unfold position
    rw [h1, rank_reindex hv hbx]
    simp only [hdot idx hbx]
  | false =>
    have hnc : ¬ ∃ c, Scaled c i.view.sizes i.view.strides := fun hc => by have := hiso.2 hc; simp at this
    simp only [Bool.false_eq_true, if_false]
    exact .inr ⟨hnc, trivial⟩

/-- A contiguous tensor seen with another shape. -/
theorem subView_contig {s s' : List Nat} (hv : vol s' = vol s)
    (hl : vol s < 9223372036854775808) : SubView (Layout.contig s) (Layout.contig s') (reindex s s') := by
  refine ⟨length_contigStrides s', (by decide : (0 : Nat) < 18446744073709551616), fun idx hbx => ?_⟩
  have hbx : InBox s' idx := hbx
  exact ⟨reindex_inBox hv hbx, by
    rw [contig_position (by omega) hbx, contig_position hl (reindex_inBox hv hbx), rank_reindex hv hbx]⟩

/-- A tensor of one element seen with another shape. -/
theorem subView_one {h : Heap F} {i : Impl} {f : List Nat → Val F} {s' : List Nat} (hr : Reads h i f)
    (hv : vol s' = vol i.view.sizes) (hone : vol i.view.sizes = 1) :
    SubView i.view ⟨s', List.replicate s'.length 1, i.view.offset⟩ (reindex i.view.sizes s') := by
  refine ⟨by simp, hr.offset, fun idx hbx => ?_⟩
  have hbx : InBox s' idx := hbx
  refine ⟨reindex_inBox hv hbx, ?_⟩
  unfold position
  rw [dot_vol_one _ (by omega) hbx, dot_vol_one _ hone (reindex_inBox hv hbx)]

theorem reshapeTail_ok {h : Heap F} {t : Nat} {i b : Impl} {f : List Nat → Val F} {s' : List Nat} (hb : h.ts[t]? = some b)
    (hb1 : b.dtype = i.dtype) (hb2 : b.view = i.view) (hb3 : b.data = i.data) (hb4 : b.requiresGrad = i.requiresGrad)
    (hr : Reads h i f) (ht : Tame i.view.sizes i.view.strides) (hv : vol s' = vol i.view.sizes)
    (hsz : vol i.view.sizes * i.dtype.size < 9223372036854775808)
    (hg : b.requiresGrad = true → ∀ g, b.grad = some g → g < h.ts.length) (hns : i.view.sizes = [] ↔ s' = []) :
    ∃ r h', reshapeTail t s' i h = .ok r h' ∧
      Reshaped h h' i r s' (fun idx => f (reindex i.view.sizes s' idx)) (¬ ∃ c, Scaled c i.view.sizes i.view.strides) := by
  rcases reshapeTail_view (t := t) hr ht hv hns h with ⟨v, c, hc, hvs, e, sv, h64⟩ | ⟨hnc, e⟩
  · rw [e]
    obtain ⟨h', e3, vm⟩ := makeView_ok hb hg i.dtype v i.data
    obtain ⟨j, hj, d1, d2, d3, d4, _⟩ := vm.obj
    refine ⟨_, h', e3, vm.pres, Nat.le_refl _, ⟨j, hj, fun _ => by rw [d2]; exact sv, fun hn => absurd ⟨c, hc⟩ hn⟩, ⟨j, hj, d1, by rw [d2, hvs], ?_, by rw [d4, hb4], fun _ => d3,
      fun hn => absurd ⟨c, hc⟩ hn⟩, j, hj, by rw [d2]; exact h64, vm.gradIn hj⟩
    exact (hr.extends fun s hs => vm.pres.st _ s hs).view d3 d1 (by rw [d2]; exact sv.len) (by rw [d2]; exact sv.off) _
      (by rw [d2]; exact sv.pos)
  · rw [e]
    have hden : Denotes h t i.dtype i.view.sizes f := ⟨b, hb, hb1, by rw [hb2], hr.flags hb1 hb2 hb3⟩
    obtain ⟨h1, b', hb', e2, bt⟩ := clone_ok hden hsz
    rw [hb] at hb'
    obtain rfl := Option.some.inj hb'
    obtain ⟨d, hm, hd⟩ := bt.obj
    rw [M.bind_ok e2, M.bind_ok (getT_ok hm)]
    obtain ⟨h', e3, vm⟩ := makeView_ok hm (fun _ g hg => by simp at hg) i.dtype (Layout.contig s') d
    obtain ⟨j, hj, d1, d2, d3, d4, _⟩ := vm.obj
    refine ⟨_, h', e3, bt.ext.preserves.trans vm.pres, bt.ext.ts_len, ⟨j, hj, fun hn => absurd hnc hn, fun _ => d2⟩, ⟨j, hj, d1, by rw [d2]; rfl, ?_, ?_,
      fun hn => absurd hnc hn, fun _ => by rw [d3]; exact hd⟩, j, hj, by rw [d2]; exact contigStrides_i64 s', vm.gradIn hj⟩
    · obtain ⟨mi, hmi, m1, m2, mr⟩ := bt.denotes
      rw [hm] at hmi
      obtain rfl := Option.some.inj hmi
      have sv := subView_contig hv (vol_lt_of_bytes hsz)
      exact (mr.extends fun s hs => vm.pres.st _ s hs).view d3 d1 (by rw [d2]; exact sv.len) (by rw [d2]; exact sv.off) _
        (by rw [d2]; exact sv.pos)
    · rw [d4, ← hb4]
      show (if b.requiresGrad = true then _ else none : Option GradFn).isSome = _
      cases b.requiresGrad <;> rfl

theorem reshapeSizes_ok {h : Heap F} {t : Nat} {i : Impl} {f : List Nat → Val F} {s' : List Nat} (hi : h.ts[t]? = some i)
    (hr : Reads h i f) (ht : Tame i.view.sizes i.view.strides) (hv : vol s' = vol i.view.sizes)
    (hsz : vol i.view.sizes * i.dtype.size < 9223372036854775808)
    (hg : i.requiresGrad = true → ∀ g, i.grad = some g → g < h.ts.length)
    (hns : i.requiresGrad = true → (i.view.sizes = [] ↔ s' = [])) :
    ∃ r h', Tensor.reshapeSizes t s' h = .ok r h' ∧
      Reshaped h h' i r s' (fun idx => f (reindex i.view.sizes s' idx))
        ((¬ ∃ c, Scaled c i.view.sizes i.view.strides) ∧ ¬ (vol i.view.sizes = 1 ∧ i.requiresGrad = false)) := by
  have hvl := vol_lt_of_bytes hsz
  have hn1 : numel i.view.sizes = vol i.view.sizes := numel_eq_vol (by omega)
  have hn2 : numel s' = vol i.view.sizes := by rw [numel_eq_vol (by omega), hv]
  rw [reshapeSizes_eq, M.bind_ok (getT_ok hi), hn1, hn2,
    M.bind_ok (x := expect _) (a := ()) (h' := h) (by simp [expect])]
  by_cases hone : vol i.view.sizes = 1
  · rw [if_pos hone]
    obtain ⟨h1, e1, vm⟩ := makeView_ok hi hg i.dtype ⟨s', List.replicate s'.length 1, i.view.offset⟩ i.data
    cases hrg : i.requiresGrad with
    | false =>
      rw [M.bind_ok e1, M.bind_ok (M.pure_run _ _)]
      obtain ⟨j, hj, d1, d2, d3, d4, _⟩ := vm.obj
      have sv := subView_one hr hv hone
      refine ⟨_, h1, rfl, vm.pres, Nat.le_refl _, ⟨j, hj, fun _ => by rw [d2]; exact sv, fun hn => absurd ⟨hone, rfl⟩ hn.2⟩,
        ⟨j, hj, d1, by rw [d2], ?_, d4, fun _ => d3, fun hn => absurd ⟨hone, rfl⟩ hn.2⟩, j, hj, ?_, vm.gradIn hj⟩
      swap
      · rw [d2]
        intro st hst
        rw [(List.mem_replicate.1 hst).2]
        unfold IsI64; omega
      exact (hr.extends fun s hs => vm.pres.st _ s hs).view d3 d1 (by rw [d2]; exact sv.len) (by rw [d2]; exact sv.off) _
        (by rw [d2]; exact sv.pos)
    | true =>
      rw [M.bind_ok e1, M.bind_ok (M.pure_run _ _)]
      obtain ⟨b', _, g, gi, _, _, q1, q2, q3, _⟩ := vm.shared hrg
      obtain ⟨r, h', e3, rs⟩ := reshapeTail_ok (h := h1) (i := i) q1 (by rw [q2]) (by rw [q2]) (by rw [q2]) (by rw [q2])
        (hr.extends fun s hs => vm.pres.st _ s hs) ht hv hsz
        (fun _ g' hg' => by rw [q2] at hg'; obtain rfl := Option.some.inj hg'; exact getElem?_lt q3) (hns hrg)
      have hle := (frameInv_preserves h).ts_len vm.pres
      have hle2 := (frameInv_preserves h).st_len vm.pres
      obtain ⟨j, hj, d1, d2, d3, d4, d5, d6⟩ := rs.obj
      obtain ⟨k, hk, k1, k2⟩ := rs.lay
      refine ⟨r, h', e3, vm.pres.trans rs.pres, Nat.le_trans hle rs.new,
        ⟨k, hk, fun hn => k1 fun hc => hn ⟨hc, by simp⟩, fun hn => k2 hn.1⟩, ⟨j, hj, d1, d2, d3, d4, fun hn => d5 ?_,
        fun hn => Nat.le_trans hle2 (d6 hn.1)⟩, rs.fit⟩
      intro hc
      exact hn ⟨hc, by simp⟩
  · rw [if_neg hone, M.bind_ok (M.pure_run _ _)]
    have hns' : i.view.sizes = [] ↔ s' = [] := by
      constructor
      · intro h0; rw [h0] at hone; exact absurd rfl hone
      · intro h0; rw [h0] at hv; exact absurd hv.symm hone
    obtain ⟨r, h', e3, rs⟩ := reshapeTail_ok (i := i) hi rfl rfl rfl rfl hr ht hv hsz hg hns'
    obtain ⟨j, hj, d1, d2, d3, d4, d5, d6⟩ := rs.obj
    obtain ⟨k, hk, k1, k2⟩ := rs.lay
    refine ⟨r, h', e3, rs.pres, rs.new, ⟨k, hk, fun hn => k1 fun hc => hn ⟨hc, fun h => hone h.1⟩, fun hn => k2 hn.1⟩, ⟨j, hj, d1, d2, d3, d4, fun hn => d5 ?_, fun hn => d6 hn.1⟩, rs.fit⟩
    intro hc
    exact hn ⟨hc, fun h => hone h.1⟩
end

end INNC
