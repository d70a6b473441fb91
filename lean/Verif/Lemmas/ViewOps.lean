import Verif.Lemmas.Views
import Verif.Lemmas.Reshape
import Verif.Lemmas.Regularize
/- Lemmas: the view operations slice and transpose as operations on the heap, and their exceptions. -/
namespace INNC
open Spec
variable {F : Type}

theorem sliceGo_index' {d w : Str} {ds : List Str} (n : Nat) (ns : List Nat) (st : Int) (sts : List Int) (off : Nat)
    (hd : (ssplit d ':').map trim = [w]) :
    sliceGo (d :: ds) (n :: ns) (st :: sts) off = (do
      let d ← sliceIndex w n st
      sliceGo ds ns sts (wrapU (off + d))) := sliceGo_index (ds := d :: ds) n ns st sts off hd

theorem sliceGo_range' {d : Str} {ds ps : List Str} (n : Nat) (ns : List Nat) (st : Int) (sts : List Int) (off : Nat)
    (hd : (ssplit d ':').map trim = ps) (hl : ps.length ≠ 1) :
    sliceGo (d :: ds) (n :: ns) (st :: sts) off = (do
      let (n', st', d) ← sliceRange (ps.getD 0 []) (ps.getD 1 []) (ps.getD 2 []) n st
      let (ns', sts', offset') ← sliceGo ds ns sts (wrapU (off + d))
      return (n' :: ns', st' :: sts', offset')) := sliceGo_range (ds := d :: ds) n ns st sts off hd hl

theorem mem_takeWhile {α : Type} {p : α → Bool} {c : α} : ∀ {l : List α}, c ∈ l.takeWhile p → p c = true
  | x :: l, h => by
    rw [List.takeWhile_cons] at h
    split at h
    · rcases List.mem_cons.1 h with rfl | h
      · assumption
      · exact mem_takeWhile h
    · simp at h

/-! ### Views on a storage -/

theorem Spec.Preserves.ts_len {h h' : Heap F} (hp : Preserves h h') : h.ts.length ≤ h'.ts.length := by
  by_contra hc
  obtain ⟨_, hi, _⟩ := hp.ts h'.ts.length _ (List.getElem?_eq_getElem (by omega))
  have := getElem?_lt hi
  omega

theorem ViewMade.viewable {h h' : Heap F} {base r : Nat} {b : Impl} {dt : DType} {v : Layout} {d : Nat} (vm : ViewMade h h' base r b dt v d)
    (hb : h.ts[base]? = some b) {u : Nat} (hu : Viewable h u) : Viewable h' u := by
  obtain ⟨i, hi, ht, hg⟩ := hu
  by_cases he : u = base
  · subst he
    rw [hb] at hi
    obtain rfl := Option.some.inj hi
    cases hrg : b.requiresGrad with
    | false => exact ⟨b, (vm.same hrg).ts _ _ hb, ht, fun g e => Nat.lt_of_lt_of_le (hg g e) vm.pres.ts_len⟩
    | true =>
      obtain ⟨b', _, g, gi, _, _, q1, rfl, q3, _⟩ := vm.shared hrg
      exact ⟨_, q1, ht, fun g0 e => by obtain rfl := Option.some.inj e; exact getElem?_lt q3⟩
  · exact ⟨i, vm.other u i he hi, ht, fun g e => Nat.lt_of_lt_of_le (hg g e) vm.pres.ts_len⟩

/-- A view whose indices are indices of the base. -/
theorem view_ok [FOps F] {h : Heap F} {t : Nat} {i : Impl} {f : List Nat → Val F} (hi : h.ts[t]? = some i)
    (hr : Reads h i f) (hg : ∀ g, i.grad = some g → g < h.ts.length) {v : Layout}
    (h1 : v.strides.length = v.sizes.length) (h2 : v.offset < 18446744073709551616) (h3 : Tame v.sizes v.strides)
    (σ : List Nat → List Nat)
    (hσ : ∀ idx, InBox v.sizes idx → InBox i.view.sizes (σ idx) ∧ position v idx = position i.view (σ idx)) :
    ReturnsView (Tensor.makeView i.dtype v i.data t h) h t i.dtype v.sizes f σ := by
  obtain ⟨h', e, vm⟩ := makeView_ok hi (fun _ => hg) i.dtype v i.data
  obtain ⟨j, hj, d1, d2, d3, d4, d5, d6, d7⟩ := vm.obj
  obtain ⟨i', hi', _, e2, e3⟩ := vm.pres.ts t i hi
  refine ⟨_, h', e, ⟨j, hj, d1, by rw [d2], ?_⟩, fun idx hb => ?_, ⟨i', j, hi', hj, by rw [e3, d3]⟩, vm.pres, Nat.le_refl _,
    ⟨j, hj, by rw [d2]; exact h3, ?_⟩, fun u hu => vm.viewable hi hu⟩
  · refine (hr.extends fun s hs => vm.pres.st _ s hs).view d3 d1 (by rw [d2]; exact h1) (by rw [d2]; exact h2) σ ?_
    rw [d2]; exact hσ
  · exact ⟨j, i', hj, hi', by rw [e3, d3], by rw [d2]; exact hb, by rw [e2]; exact (hσ idx hb).1, by
      rw [d2, e2]; exact (hσ idx hb).2⟩
  · intro g hgj
    cases hrg : i.requiresGrad with
    | false => rw [d7 hrg] at hgj; simp at hgj
    | true =>
      obtain ⟨b', j', g1, gi, g', gj, _, _, _, _, _, q1, q2, q3, _⟩ := vm.shared hrg
      rw [hj] at q1
      obtain rfl := Option.some.inj q1
      rw [hgj] at q2
      obtain rfl := Option.some.inj q2
      exact getElem?_lt q3

/-! ### slice -/

theorem position_wrapped {off : Nat} {D x p : Int} (h : (off : Int) + D = p) (h0 : 0 ≤ p) (h1 : p < 18446744073709551616) :
    (wrapU (off + D) : Int) + x = p + x := by
  rw [h]; unfold wrapU; omega

theorem vol_pos_of_inBox {s idx : List Nat} (h : InBox s idx) : 0 < vol s := h.vol_pos

theorem inBox_zero : ∀ {s : List Nat}, 0 < vol s → InBox s (List.replicate s.length 0)
  | [], _ => trivial
  | n :: s, h => by
    have h' : 0 < n * vol s := h
    refine ⟨Nat.pos_of_mul_pos_right h', inBox_zero (Nat.pos_of_mul_pos_left h')⟩

theorem dot_replicate_zero : ∀ (sts : List Int) (n : Nat), dot sts (List.replicate n 0) = 0
  | [], n => by cases n <;> rfl
  | st :: sts, 0 => rfl
  | st :: sts, n + 1 => by
    simp only [List.replicate_succ, dot]
    rw [dot_replicate_zero sts n]; simp

/-- The offset computed modulo 2^64 is exact if the view has an element. -/
theorem wrapped_offset {h : Heap F} {i : Impl} {f : List Nat → Val F} (hr : Reads h i f) {ns : List Nat} {sts : List Int}
    {D : Int} {σ : List Nat → List Nat}
    (hσ : ∀ idx, InBox ns idx → InBox i.view.sizes (σ idx) ∧ D + dot sts idx = dot i.view.strides (σ idx)) :
    ∀ idx, InBox ns idx → InBox i.view.sizes (σ idx) ∧
      position ⟨ns, sts, wrapU (i.view.offset + D)⟩ idx = position i.view (σ idx) := by
  intro idx hb
  refine ⟨(hσ idx hb).1, ?_⟩
  have hz := hσ _ (inBox_zero hb.vol_pos)
  rw [dot_replicate_zero] at hz
  have hp := hr.range hz.1
  unfold position at hp ⊢
  rw [← (hσ idx hb).2]
  simp only
  rw [position_wrapped (p := (i.view.offset : Int) + D) rfl (by omega) (by omega)]
  ring

theorem slice_view [FOps F] {h : Heap F} {t : Nat} {i : Impl} {f : List Nat → Val F} (hi : h.ts[t]? = some i)
    (hr : Reads h i f) (ht : Tame i.view.sizes i.view.strides)
    {specs : List AxisSpec} {s : Str} (hsp : Spells specs s) (hsel : Selects specs i.view.sizes)
    (h64 : ∀ x ∈ specs, x.Is64) (hfit : StepsFit specs i.view.strides) :
    ∃ v, Tensor.slice t s h = Tensor.makeView i.dtype v i.data t h ∧ v.sizes = selShape specs i.view.sizes ∧
      Tame v.sizes v.strides ∧ SubView i.view v (selIndex specs i.view.sizes) := by
  obtain ⟨sts', D, e, ok⟩ := sliceGo_ok _ _ _ _ i.view.offset hsp.axes hsel h64 hr.strides ht hfit hr.offset
  have hlen : specs.length ≤ i.view.sizes.length := by
    clear e ok h64 hsp hfit
    generalize i.view.sizes = ns at hsel
    induction specs generalizing ns with
    | nil => simp
    | cons x xs ih =>
      cases ns with
      | nil => cases x <;> exact absurd hsel (by simp [Selects])
      | cons n ns =>
        have : Selects xs ns := by cases x <;> exact hsel.2
        simpa using ih ns this
  have e' : sliceLayout i.view s = .ok ⟨selShape specs i.view.sizes, sts', wrapU (i.view.offset + D)⟩ := by
    unfold sliceLayout
    have h1 : runExpect (decide ((ssplit s ',').length ≤ i.view.sizes.length)) = .ok () :=
      runExpect_decide (Nat.le_trans hsp.axes.length hlen)
    show Res.bind (runExpect _) _ = _
    rw [h1]
    show Res.bind (sliceGo _ _ _ _) _ = _
    rw [e]; rfl
  unfold Tensor.slice
  rw [M.bind_ok (getT_ok hi), e', M.bind_ok (M.lift_ok _ _)]
  exact ⟨_, rfl, rfl, ok.tame, ok.len, wrapU_lt _, wrapped_offset hr ok.pos⟩

theorem slice_ok [FOps F] {h : Heap F} {t : Nat} {i : Impl} {f : List Nat → Val F} (hi : h.ts[t]? = some i)
    (hr : Reads h i f) (ht : Tame i.view.sizes i.view.strides) (hg : ∀ g, i.grad = some g → g < h.ts.length)
    {specs : List AxisSpec} {s : Str} (hsp : Spells specs s) (hsel : Selects specs i.view.sizes)
    (h64 : ∀ x ∈ specs, x.Is64) (hfit : StepsFit specs i.view.strides) :
    ReturnsView (Tensor.slice t s h) h t i.dtype (selShape specs i.view.sizes) f
      (selIndex specs i.view.sizes) := by
  obtain ⟨v, e, h1, h2, sv⟩ := slice_view hi hr ht hsp hsel h64 hfit
  rw [e, ← h1]
  exact view_ok hi hr hg sv.len sv.off h2 _ sv.pos

/-! ### Exceptions of slice -/

theorem runExpect_false {b : Bool} (h : b = false) : runExpect b = .throw .runtime := by subst h; rfl

theorem slice_too_many [FOps F] {h : Heap F} {t : Nat} {i : Impl} (hi : h.ts[t]? = some i) {s : Str}
    (hn : i.view.sizes.length < (ssplit s ',').length) : Tensor.slice t s h = .throw .runtime h := by
  have e' : sliceLayout i.view s = .throw .runtime := by
    unfold sliceLayout
    show Res.bind (runExpect _) _ = _
    rw [runExpect_false (by simpa using hn)]; rfl
  unfold Tensor.slice
  rw [M.bind_ok (getT_ok hi), e']
  rfl

/-- Number of comma-separated parts. -/
theorem length_ssplitGo : ∀ (s cur : Str), (ssplitGo ',' s cur).length = s.count ',' + 1
  | [], cur => rfl
  | c :: cs, cur => by
    unfold ssplitGo
    by_cases h : c = ','
    · subst h
      rw [if_pos rfl]
      simp [length_ssplitGo cs []]
    · rw [if_neg h, length_ssplitGo cs _, List.count_cons_of_ne h]

theorem length_ssplit {s : Str} (h : s ≠ []) : (ssplit s ',').length = s.count ',' + 1 := by
  cases s with
  | nil => exact absurd rfl h
  | cons c cs => exact length_ssplitGo _ _

theorem Spec.Leading.split {pre : List AxisSpec} {s1 : Str} (h : Leading pre s1) (p u : Str) (hp : ',' ∉ p) (hu : Trailing u) :
    ∃ ds1 ds2, List.Forall₂ SpellsAxis pre ds1 ∧ ssplitGo ',' (s1 ++ p ++ u) [] = ds1 ++ p :: ds2 := by
  induction h with
  | nil =>
    rcases hu with rfl | ⟨v, rfl⟩
    · exact ⟨[], [], .nil, by simp [ssplitGo_none p [] hp]⟩
    · exact ⟨[], ssplitGo ',' v [], .nil, by simp [ssplitGo_cons v p [] hp]⟩
  | @cons x xs s t hx hxs ih =>
    obtain ⟨ds1, ds2, h1, h2⟩ := ih
    refine ⟨s :: ds1, ds2, .cons hx h1, ?_⟩
    have : s ++ ',' :: t ++ p ++ u = s ++ ',' :: (t ++ p ++ u) := by simp
    rw [this, ssplitGo_cons _ _ _ hx.not_comma, h2]
    simp

/-- The axes before a faulty one are processed, then its exception is thrown. -/
theorem sliceGo_lead {e : Exc} {p : Str} {ds2 : List Str} : ∀ (pre : List AxisSpec) (ds1 : List Str) (sizes : List Nat)
    (strides : List Int) (off : Nat), List.Forall₂ SpellsAxis pre ds1 → Selects pre sizes → (∀ x ∈ pre, x.Is64) →
    strides.length = sizes.length → Tame sizes strides → StepsFit pre strides →
    (∀ off, sliceGo (p :: ds2) (sizes.drop pre.length) (strides.drop pre.length) off = .throw e) →
    sliceGo (ds1 ++ p :: ds2) sizes strides off = .throw e
  | [], _, sizes, strides, off, .nil, _, _, _, _, _, he => by simpa using he off
  | x :: xs, d :: ds, [], _, _, _, hs, _, _, _, _, _ => by cases x <;> exact absurd hs (by simp [Selects])
  | x :: xs, d :: ds, n :: ns, [], _, _, hs, _, hl, _, _, _ => by simp at hl
  | x :: xs, d :: ds, n :: ns, st :: sts, off, .cons hx hxs, hs, h64, hl, ht, hf, he => by
    obtain ⟨hn, hst, hspan, htame⟩ := ht
    have hlen : sts.length = ns.length := by simpa using hl
    have h64' : ∀ y ∈ xs, y.Is64 := fun y hy => h64 y (by simp [hy])
    have hx64 := h64 x (by simp)
    have he' : ∀ off, sliceGo (p :: ds2) (ns.drop xs.length) (sts.drop xs.length) off = .throw e := by
      intro off; simpa using he off
    rw [List.cons_append]
    have hp := hx.parts
    generalize hps : (ssplit d ':').map trim = ps at hp
    cases hp with
    | @index k w hw =>
      obtain ⟨hk, hs'⟩ := hs
      have hf' : StepsFit xs sts := by simpa [StepsFit] using hf
      obtain ⟨e1, _⟩ := sliceIndex_ok (st := st) hw hx64 hk hn hspan
      rw [sliceGo_index' n ns st sts off hps, e1]
      exact sliceGo_lead xs ds ns sts _ hxs hs' h64' hlen htame hf' he'
    | @range a b c _ hl1 p0 p1 p2 =>
      obtain ⟨hc, hs'⟩ := hs
      have hf' : StepsFit xs sts ∧ ∀ k, c = some k → k ≠ -9223372036854775808 ∧ IsI64 (k * st) := by
        cases c with
        | none => exact ⟨by simpa [StepsFit] using hf, fun k hk => by simp at hk⟩
        | some k =>
          obtain ⟨h1, h2, h3⟩ := hf
          exact ⟨h3, fun k' hk' => by obtain rfl := Option.some.inj hk'; exact ⟨h1, h2⟩⟩
      obtain ⟨st', d', e1, _⟩ := sliceRange_ok p0 p1 p2 hx64 hc hn hst hspan hf'.2
      rw [sliceGo_range' n ns st sts off hps hl1, e1]
      show Res.bind (sliceGo (ds ++ p :: ds2) _ _ _) _ = _
      rw [sliceGo_lead xs ds ns sts _ hxs hs' h64' hlen htame hf'.1 he']
      rfl

/-- Leading axes are fine, the next one (of size `n`) throws whatever its stride is: slicing throws. -/
theorem slice_lead_throw [FOps F] {h : Heap F} {t : Nat} {i : Impl} (hi : h.ts[t]? = some i)
    (hl : i.view.strides.length = i.view.sizes.length)
    (ht : Tame i.view.sizes i.view.strides) {pre : List AxisSpec} {s1 p u : Str} (hpre : Leading pre s1) (hp : ',' ∉ p)
    (hu : Trailing u) (h0 : s1 ++ p ++ u ≠ []) (hsel : Selects pre i.view.sizes) (h64 : ∀ x ∈ pre, x.Is64)
    (hfit : StepsFit pre i.view.strides) {n : Nat} (hn : i.view.sizes[pre.length]? = some n) {e : Exc}
    (he : ∀ ds ns st sts off, sliceGo (p :: ds) (n :: ns) (st :: sts) off = .throw e) :
    Tensor.slice t (s1 ++ p ++ u) h =
      .throw (if (s1 ++ p ++ u).count ',' < i.view.sizes.length then e else .runtime) h := by
  split
  · rename_i hc
    have hsp : ssplit (s1 ++ p ++ u) ',' = ssplitGo ',' (s1 ++ p ++ u) [] := by
      cases hs : s1 ++ p ++ u with
      | nil => exact absurd hs h0
      | cons c cs => rfl
    obtain ⟨ds1, ds2, h1, h2⟩ := hpre.split p u hp hu
    have hlt := getElem?_lt hn
    have e' : sliceLayout i.view (s1 ++ p ++ u) = .throw e := by
      unfold sliceLayout
      have h3 : runExpect (decide ((ssplit (s1 ++ p ++ u) ',').length ≤ i.view.sizes.length)) = .ok () :=
        runExpect_decide (by rw [length_ssplit h0]; omega)
      show Res.bind (runExpect _) _ = _
      rw [h3]
      show Res.bind (sliceGo _ _ _ _) _ = _
      rw [hsp, h2, sliceGo_lead pre ds1 _ _ _ h1 hsel h64 hl ht hfit]
      · rfl
      · intro off
        have hlt2 : pre.length < i.view.strides.length := by omega
        rw [List.drop_eq_getElem_cons hlt, List.drop_eq_getElem_cons hlt2]
        have : i.view.sizes[pre.length] = n := by
          rw [List.getElem?_eq_getElem hlt] at hn; exact Option.some.inj hn
        rw [this]
        exact he _ _ _ _ _
    unfold Tensor.slice
    rw [M.bind_ok (getT_ok hi), e']
    rfl
  · rename_i hc
    exact slice_too_many hi (by rw [length_ssplit h0]; omega)

theorem trim_split (p : Str) : ∃ a b, Blank a ∧ Blank b ∧ p = a ++ trim p ++ b := by
  have hpre : ∀ s : Str, ∃ a, Blank a ∧ s = a ++ s.dropWhile isWs := by
    intro s
    refine ⟨s.takeWhile isWs, fun c hc => isWs_iff.1 ?_, by simp⟩
    exact mem_takeWhile hc
  obtain ⟨b, hb, e1⟩ := hpre p.reverse
  obtain ⟨a, ha, e2⟩ := hpre (rtrim p)
  refine ⟨a, b.reverse, ha, hb.reverse, ?_⟩
  unfold trim
  have e3 : p = rtrim p ++ b.reverse := by
    conv => lhs; rw [← List.reverse_reverse p, e1]
    rw [List.reverse_append]
    rfl
  conv => lhs; rw [e3, e2]
  rfl

theorem stoll_notNumber {p : Str} (h : NotNumber p) : stoll (trim p) = .throw .invalidArgument := by
  obtain ⟨a, b, ha, hb, e⟩ := trim_split p
  apply stoll_not_number
  intro c t hd
  obtain ⟨a', ha', e'⟩ : ∃ a', Blank a' ∧ trim p = a' ++ (trim p).dropWhile isWs :=
    ⟨(trim p).takeWhile isWs, fun c hc => isWs_iff.1 (mem_takeWhile hc), by simp⟩
  rw [hd] at e'
  have haa : Blank (a ++ a') := fun c hc => by
    rcases List.mem_append.1 hc with h | h
    · exact ha c h
    · exact ha' c h
  refine ⟨h (a ++ a') [] c (t ++ b) haa (by simp) (by rw [e, e']; simp), ?_⟩
  intro x hx ht
  cases t with
  | nil => simp at ht
  | cons y ys =>
    simp only [List.head?_cons, Option.some.injEq] at ht
    subst ht
    refine h (a ++ a') [c] y (ys ++ b) haa (by rcases hx with rfl | rfl <;> simp) (by rw [e, e']; simp)

theorem sliceGo_index_throw {k : Int} {p : Str} {n : Nat} (hp : Padded k p) (h64 : IsI64 k)
    (hk : ¬ (-(n : Int) ≤ k ∧ k < n)) (hn : n ≤ 4611686018427387904) (ds ns st sts off) :
    sliceGo (p :: ds) (n :: ns) (st :: sts) off = .throw .runtime := by
  have e : (ssplit p ':').map trim = [trim p] := by
    rw [ssplit_single p (Padded.ne_nil hp) (hp.not_mem (Or.inr rfl))]; rfl
  rw [sliceGo_index' n ns st sts off e, sliceIndex_throw (trim_padded' hp) h64 hk hn]
  rfl

theorem sliceGo_zero_throw {a b c : Str} {n : Nat} (hn : 0 < n) (ha : ':' ∉ a) (hb : ':' ∉ b)
    (hc : Padded 0 c) (ds ns st sts off) :
    sliceGo ((a ++ ':' :: b ++ ':' :: c) :: ds) (n :: ns) (st :: sts) off = .throw .runtime := by
  have e : (ssplit (a ++ ':' :: b ++ ':' :: c) ':').map trim = [trim a, trim b, trim c] := by
    rw [List.append_assoc, List.cons_append, ssplit_append _ _ ha, ssplitGo_cons _ _ _ hb,
      ssplitGo_none _ _ (hc.not_mem (Or.inr rfl))]
    simp
  rw [sliceGo_range' n ns st sts off e (by simp)]
  have : sliceRange (trim a) (trim b) (trim c) n st = .throw .runtime := by
    unfold sliceRange
    rw [if_neg (by omega), sliceStep_zero (trim_padded' hc)]
    rfl
  show Res.bind (sliceRange (trim a) (trim b) (trim c) n st) _ = _
  rw [this]; rfl

theorem sliceGo_index_invalid {p : Str} {n : Nat} (hp : NotNumber p) (h0 : p ≠ []) (hc : ':' ∉ p) (ds ns st sts off) :
    sliceGo (p :: ds) (n :: ns) (st :: sts) off = .throw .invalidArgument := by
  have e : (ssplit p ':').map trim = [trim p] := by rw [ssplit_single p h0 hc]; rfl
  have e2 : sliceIndex (trim p) n st = .throw .invalidArgument := by
    unfold sliceIndex
    rw [stoll_notNumber hp]; rfl
  rw [sliceGo_index' n ns st sts off e, e2]
  rfl

/-- A step that is neither blank nor a number is rejected. -/
theorem sliceGo_step_invalid {a b c : Str} {n : Nat} (hn : 0 < n) (ha : ':' ∉ a) (hb : ':' ∉ b) (hcc : ':' ∉ c)
    (hc : NotNumber c) (hc0 : ¬ Blank c) (ds ns st sts off) :
    sliceGo ((a ++ ':' :: b ++ ':' :: c) :: ds) (n :: ns) (st :: sts) off = .throw .invalidArgument := by
  have e : (ssplit (a ++ ':' :: b ++ ':' :: c) ':').map trim = [trim a, trim b, trim c] := by
    rw [List.append_assoc, List.cons_append, ssplit_append _ _ ha, ssplitGo_cons _ _ _ hb, ssplitGo_none _ _ hcc]
    simp
  rw [sliceGo_range' n ns st sts off e (by simp)]
  have hne : trim c ≠ [] := by
    intro h
    obtain ⟨x, y, hx, hy, e⟩ := trim_split c
    rw [h] at e
    refine hc0 fun ch hch => ?_
    rw [e] at hch
    simp only [List.append_nil, List.mem_append] at hch
    exact hch.elim (hx ch) (hy ch)
  have e2 : sliceStep (trim c) = .throw .invalidArgument := by
    unfold sliceStep
    rw [if_pos (by simpa using hne), stoll_notNumber hc]; rfl
  have : sliceRange (trim a) (trim b) (trim c) n st = .throw .invalidArgument := by
    unfold sliceRange
    rw [if_neg (by omega), e2]
    rfl
  show Res.bind (sliceRange (trim a) (trim b) (trim c) n st) _ = _
  rw [this]; rfl

/-- A start that is neither blank nor a number is rejected (the step being fine). -/
theorem sliceGo_start_invalid {a b : Str} {n : Nat} (hn : 0 < n) (ha : ':' ∉ a) (hb : ':' ∉ b)
    (hc : NotNumber a) (hc0 : ¬ Blank a) (ds ns st sts off) :
    sliceGo ((a ++ ':' :: b) :: ds) (n :: ns) (st :: sts) off = .throw .invalidArgument := by
  have e : (ssplit (a ++ ':' :: b) ':').map trim = [trim a, trim b] := by
    rw [ssplit_append _ _ ha, ssplitGo_none _ _ hb]
    simp
  rw [sliceGo_range' n ns st sts off e (by simp)]
  have hne : trim a ≠ [] := by
    intro h
    obtain ⟨x, y, hx, hy, e⟩ := trim_split a
    rw [h] at e
    refine hc0 fun ch hch => ?_
    rw [e] at hch
    simp only [List.append_nil, List.mem_append] at hch
    exact hch.elim (hx ch) (hy ch)
  have e2 : ∀ k, sliceBeg (trim a) k n = .throw .invalidArgument := by
    intro k
    unfold sliceBeg
    rw [if_pos (by simpa using hne), stoll_notNumber hc]; rfl
  have : sliceRange (trim a) (trim b) [] n st = .throw .invalidArgument := by
    unfold sliceRange
    rw [if_neg (by omega)]
    show Res.bind (sliceBeg _ _ _) _ = _
    rw [e2]; rfl
  show Res.bind (sliceRange (trim a) (trim b) [] n st) _ = _
  rw [this]; rfl

/-! ### transpose -/

theorem swapped_swapped {α : Type} (l : List α) (i j : Nat) : swapped (swapped l i j) i j = l := by
  unfold swapped
  cases hi : l[i]? with
  | none => simp [hi]
  | some a =>
    cases hj : l[j]? with
    | none => simp [hi, hj]
    | some b =>
      have h1 := getElem?_lt hi
      have h2 := getElem?_lt hj
      simp only
      by_cases hij : i = j
      · subst hij
        rw [hi] at hj
        obtain rfl := Option.some.inj hj
        have : ∀ m : List α, i < m.length → m = l.set i a → l.set i a = l → m = l := fun m _ h h' => h.trans h'
        have hset : l.set i a = l := by
          apply List.ext_getElem? ; intro k
          by_cases hk : k = i
          · subst hk; rw [List.getElem?_set_self h1, hi]
          · rw [List.getElem?_set_ne (Ne.symm hk)]
        simp [hset, hi]
      · have e1 : ((l.set i b).set j a)[i]? = some b := by
          rw [List.getElem?_set_ne (Ne.symm hij), List.getElem?_set_self h1]
        have e2 : ((l.set i b).set j a)[j]? = some a := by
          rw [List.getElem?_set_self (by simpa using h2)]
        rw [e1, e2]
        simp only
        apply List.ext_getElem?
        intro k
        by_cases hk : k = j
        · subst hk; rw [List.getElem?_set_self (by simpa using h2), hj]
        · rw [List.getElem?_set_ne (Ne.symm hk)]
          by_cases hk' : k = i
          · subst hk'; rw [List.getElem?_set_self (by simpa using h1), hi]
          · rw [List.getElem?_set_ne (Ne.symm hk'), List.getElem?_set_ne (Ne.symm hk), List.getElem?_set_ne (Ne.symm hk')]

theorem swapped_of {α : Type} {l : List α} {i j : Nat} {a b : α} (hi : l[i]? = some a) (hj : l[j]? = some b) :
    swapped l i j = (l.set i b).set j a := by
  unfold swapped; rw [hi, hj]

theorem getElem?_swapped {α : Type} {l : List α} {i j : Nat} (hi : i < l.length) (hj : j < l.length) (k : Nat) :
    (swapped l i j)[k]? = l[if k = i then j else if k = j then i else k]? := by
  have h1 : l[i]? = some l[i] := List.getElem?_eq_getElem hi
  have h2 : l[j]? = some l[j] := List.getElem?_eq_getElem hj
  rw [swapped_of h1 h2]
  by_cases hk : k = j
  · subst hk
    rw [List.getElem?_set_self (by simpa using hj)]
    by_cases hk' : k = i
    · subst hk'; simp [h1]
    · rw [if_neg hk', if_pos rfl, h1]
  · rw [List.getElem?_set_ne (Ne.symm hk)]
    by_cases hk' : k = i
    · subst hk'; rw [List.getElem?_set_self hi, if_pos rfl, h2]
    · rw [List.getElem?_set_ne (Ne.symm hk'), if_neg hk', if_neg hk]

theorem length_swapped {α : Type} (l : List α) (i j : Nat) : (swapped l i j).length = l.length := by
  unfold swapped; split <;> simp

theorem inBox_iff : ∀ {s idx : List Nat}, InBox s idx ↔
    idx.length = s.length ∧ ∀ (k n j : Nat), s[k]? = some n → idx[k]? = some j → j < n
  | [], [] => by simp [InBox]
  | [], j :: idx => by simp [InBox]
  | n :: s, [] => by simp [InBox]
  | n :: s, j :: idx => by
    have ih := inBox_iff (s := s) (idx := idx)
    show j < n ∧ InBox s idx ↔ _
    rw [ih]
    constructor
    · rintro ⟨h1, h2, h3⟩
      refine ⟨by simpa using h2, fun k n' j' hn hj => ?_⟩
      cases k with
      | zero => simp at hn hj; omega
      | succ k => exact h3 k n' j' (by simpa using hn) (by simpa using hj)
    · rintro ⟨h2, h3⟩
      exact ⟨h3 0 n j rfl rfl, by simpa using h2, fun k n' j' hn hj => h3 (k + 1) n' j' (by simpa using hn) (by simpa using hj)⟩

theorem tame_iff : ∀ {s : List Nat} {sts : List Int}, Tame s sts ↔
    ∀ (k n : Nat) (st : Int), s[k]? = some n → sts[k]? = some st →
      n ≤ 4611686018427387904 ∧ IsI64 st ∧ st.natAbs * (n - 1) < 4611686018427387904
  | [], sts => by simp [Tame]
  | n :: s, [] => by simp [Tame]
  | n :: s, st :: sts => by
    have ih := tame_iff (s := s) (sts := sts)
    show (_ ∧ _ ∧ _ ∧ Tame s sts) ↔ _
    rw [ih]
    constructor
    · rintro ⟨h1, h2, h3, h4⟩ k n' st' hn hst
      cases k with
      | zero => simp at hn hst; subst hn hst; exact ⟨h1, h2, h3⟩
      | succ k => exact h4 k n' st' (by simpa using hn) (by simpa using hst)
    · intro h
      obtain ⟨h1, h2, h3⟩ := h 0 n st rfl rfl
      exact ⟨h1, h2, h3, fun k n' st' hn hst => h (k + 1) n' st' (by simpa using hn) (by simpa using hst)⟩

theorem dot_set_left : ∀ (sts : List Int) (idx : List Nat) (i : Nat) (c x : Int) (a : Nat), sts[i]? = some c →
    idx[i]? = some a → dot (sts.set i x) idx = dot sts idx + (x - c) * a
  | st :: sts, j :: idx, 0, c, x, a, h1, h2 => by
    simp at h1 h2; subst h1 h2
    simp only [List.set_cons_zero, dot]; ring
  | st :: sts, j :: idx, i + 1, c, x, a, h1, h2 => by
    simp only [List.set_cons_succ, dot]
    rw [dot_set_left sts idx i c x a (by simpa using h1) (by simpa using h2)]; ring

theorem dot_set_right : ∀ (sts : List Int) (idx : List Nat) (i : Nat) (c : Int) (a y : Nat), sts[i]? = some c →
    idx[i]? = some a → dot sts (idx.set i y) = dot sts idx + c * ((y : Int) - a)
  | st :: sts, j :: idx, 0, c, a, y, h1, h2 => by
    simp at h1 h2; subst h1 h2
    simp only [List.set_cons_zero, dot]; ring
  | st :: sts, j :: idx, i + 1, c, a, y, h1, h2 => by
    simp only [List.set_cons_succ, dot]
    rw [dot_set_right sts idx i c a y (by simpa using h1) (by simpa using h2)]; ring

theorem dot_swapped {sts : List Int} {idx : List Nat} {i j : Nat} (hij : i ≠ j) (hl : idx.length = sts.length)
    (hi : i < sts.length) (hj : j < sts.length) : dot (swapped sts i j) idx = dot sts (swapped idx i j) := by
  have h1 : sts[i]? = some sts[i] := List.getElem?_eq_getElem hi
  have h2 : sts[j]? = some sts[j] := List.getElem?_eq_getElem hj
  have h3 : idx[i]? = some (idx[i]'(by omega)) := List.getElem?_eq_getElem (by omega)
  have h4 : idx[j]? = some (idx[j]'(by omega)) := List.getElem?_eq_getElem (by omega)
  rw [swapped_of h1 h2, swapped_of h3 h4]
  rw [dot_set_left _ _ j sts[j] _ _ (by rw [List.getElem?_set_ne hij]; exact h2) h4, dot_set_left _ _ i _ _ _ h1 h3,
    dot_set_right _ _ j _ (idx[j]'(by omega)) _ h2 (by rw [List.getElem?_set_ne hij]; exact h4), dot_set_right _ _ i _ _ _ h1 h3]
  ring

theorem inBox_swapped {s idx : List Nat} {i j : Nat} (hi : i < s.length) (hj : j < s.length) (h : InBox (swapped s i j) idx) :
    InBox s (swapped idx i j) := by
  obtain ⟨hl, hb⟩ := inBox_iff.1 h
  rw [length_swapped] at hl
  refine inBox_iff.2 ⟨by rw [length_swapped]; exact hl, fun k n a hn ha => ?_⟩
  rw [getElem?_swapped (by omega) (by omega)] at ha
  refine hb _ n a ?_ ha
  rw [getElem?_swapped hi hj, ← hn]
  congr 1
  split_ifs <;> omega

theorem transposeLayout_ok {v : Layout} {i j : Nat} (hl : v.strides.length = v.sizes.length) (hi : i < v.sizes.length)
    (hj : j < v.sizes.length) (hij : i ≠ j) :
    transposeLayout v i j = .ok ⟨swapped v.sizes i j, swapped v.strides i j, v.offset⟩ := by
  have h1 : v.sizes[i]? = some v.sizes[i] := List.getElem?_eq_getElem hi
  have h2 : v.sizes[j]? = some v.sizes[j] := List.getElem?_eq_getElem hj
  have h3 : v.strides[i]? = some (v.strides[i]'(by omega)) := List.getElem?_eq_getElem (by omega)
  have h4 : v.strides[j]? = some (v.strides[j]'(by omega)) := List.getElem?_eq_getElem (by omega)
  unfold transposeLayout
  show Res.bind (runExpect _) _ = _
  rw [runExpect_decide ⟨hi, hj⟩]
  show Res.bind (runExpect _) _ = _
  rw [runExpect_decide hij, swapped_of h1 h2, swapped_of h3 h4]
  unfold vecAt
  rw [h1, h2, h3, h4]
  rfl

theorem transpose_view [FOps F] {h : Heap F} {t : Nat} {i : Impl} {f : List Nat → Val F} (hi : h.ts[t]? = some i)
    (hr : Reads h i f) (ht : Tame i.view.sizes i.view.strides)
    {a b : Nat} (ha : a < i.view.sizes.length) (hb : b < i.view.sizes.length) (hab : a ≠ b) :
    ∃ v, Tensor.transpose t a b h = Tensor.makeView i.dtype v i.data t h ∧ v.sizes = swapped i.view.sizes a b ∧
      Tame v.sizes v.strides ∧ SubView i.view v (fun idx => swapped idx a b) := by
  unfold Tensor.transpose
  rw [M.bind_ok (getT_ok hi), transposeLayout_ok hr.strides ha hb hab, M.bind_ok (M.lift_ok _ _)]
  have hl := hr.strides
  refine ⟨_, rfl, rfl, ?_, ?_, hr.offset, ?_⟩
  · refine tame_iff.2 fun k n st hn hst => ?_
    simp only at hn hst
    rw [getElem?_swapped ha hb] at hn
    rw [getElem?_swapped (by omega) (by omega)] at hst
    exact tame_iff.1 ht _ n st hn hst
  · simp only [length_swapped]; exact hl
  · intro idx hbx
    have hbx : InBox (swapped i.view.sizes a b) idx := hbx
    refine ⟨inBox_swapped ha hb hbx, ?_⟩
    have := hbx.length
    rw [length_swapped] at this
    unfold position
    simp only
    rw [dot_swapped hab (by omega) (by omega) (by omega)]

theorem transpose_ok [FOps F] {h : Heap F} {t : Nat} {i : Impl} {f : List Nat → Val F} (hi : h.ts[t]? = some i)
    (hr : Reads h i f) (ht : Tame i.view.sizes i.view.strides) (hg : ∀ g, i.grad = some g → g < h.ts.length)
    {a b : Nat} (ha : a < i.view.sizes.length) (hb : b < i.view.sizes.length) (hab : a ≠ b) :
    ReturnsView (Tensor.transpose t a b h) h t i.dtype (swapped i.view.sizes a b) f (fun idx => swapped idx a b) := by
  obtain ⟨v, e, h1, h2, sv⟩ := transpose_view hi hr ht ha hb hab
  rw [e, ← h1]
  exact view_ok hi hr hg sv.len sv.off h2 _ sv.pos

theorem transpose_throw [FOps F] {h : Heap F} {t : Nat} {i : Impl} (hi : h.ts[t]? = some i) {a b : Nat}
    (hab : a = b ∨ i.view.sizes.length ≤ a ∨ i.view.sizes.length ≤ b) : Tensor.transpose t a b h = .throw .runtime h := by
  have e : transposeLayout i.view a b = .throw .runtime := by
    unfold transposeLayout
    by_cases h1 : a < i.view.sizes.length ∧ b < i.view.sizes.length
    · show Res.bind (runExpect _) _ = _
      rw [runExpect_decide h1]
      show Res.bind (runExpect _) _ = _
      rw [runExpect_false (by simp; omega)]; rfl
    · show Res.bind (runExpect _) _ = _
      rw [runExpect_false (by simpa using h1)]; rfl
  unfold Tensor.transpose
  rw [M.bind_ok (getT_ok hi), e]
  rfl

end INNC
