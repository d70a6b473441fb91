import Verif.Lemmas.BinaryStop
import Verif.Lemmas.Build
import Verif.Lemmas.MemNew
import Verif.Lemmas.ProgramCalls
import Verif.Spec.Outcome
/-
The outcome of a binary operation for any two shapes.
-/
namespace INNC
open Spec
variable {F : Type} [FOps F]

/-- The body of the element loop. -/
def zipBodyM (D S L R : DType) (f : Val F → Val F → Res (Val F)) (dst l r : Impl) (sv : List Nat) : M F Unit := do
  let x ← load L l (← M.lift (cntFromAugIndex l.view sv))
  let y ← load R r (← M.lift (cntFromAugIndex r.view sv))
  let z ← M.lift (f x y)
  let z ← M.lift (cConv S D z)
  store D dst (← M.lift (cntFromAugIndex dst.view sv)) z

/-- The element loop when the first elements are computed and the next one stops it. -/
theorem zipLoop_first {H : Heap F} {dst l r : Impl} {fl fr g : List Nat → Val F} {D S L R : DType} {range : List Nat}
    {f : Val F → Val F → Res (Val F)} (hw : Slots H dst) (hrange : dst.view.sizes = range) (hD : dst.dtype = D)
    (hl : Reads H l fl) (hr : Reads H r fr) (hL : l.dtype = L) (hR : r.dtype = R)
    (hdl : l.data ≠ dst.data) (hdr : r.data ≠ dst.data) {l1 l2 : List (List Nat)} {x : List Nat} (e : rowMajor range = l1 ++ x :: l2)
    (h1 : ∀ idx ∈ l1, Reaches l idx ∧ Reaches r idx ∧
      (f (fl (project l.view.sizes idx)) (fr (project r.view.sizes idx)) >>= cConv S D) = .ok (g idx))
    {Q : Out (Heap F) Unit → Prop} (hQ : ∀ H', ¬ Q (.ok () H'))
    (hx : ∀ c, Q (zipBodyM D S L R f dst l r x (H.setCells dst.data c))) : Q (zipLoop D S L R range f dst l r H) := by
  subst hD hrange
  obtain ⟨s, cells, hs, hd, hb, hlen, hc⟩ := hw.cells
  have hh : H.setCells dst.data cells = H := Heap.setCells_eq_self hs hb
  let p : List Nat → Nat := fun idx => (position dst.view idx).toNat
  have hp : ∀ idx, InBox dst.view.sizes idx → wrapU (dst.view.pos idx) = p idx ∧ p idx < cells.length := by
    intro idx hi
    refine ⟨(hw.wrap hi).1, ?_⟩
    obtain ⟨q, hq, hql⟩ := hc idx hi
    simp only [p, hq]; simpa using hql
  have hmem : ∀ y ∈ l1, InBox dst.view.sizes y := fun y hy => mem_rowMajor.1 (by rw [e]; simp [hy])
  unfold zipLoop
  rw [forEach_eq, e, runAll_append]
  have h2 := runAll_cells (zipBodyM dst.dtype S L R f dst l r) H dst.data
    (fun idx c => c.modify (p idx) (fun _ => some (g idx))) (fun c => c.length = cells.length) l1 cells rfl
    (fun y _ c hc => by simpa using hc)
    (fun y hy c hc => by
      obtain ⟨r1, r2, r3⟩ := h1 y hy
      refine (zipBody (hl.setCells_ne hdl c) (hr.setCells_ne hdr c) hL hR r1 r2 f).trans ?_
      rw [r3, M.bind_ok (M.lift_ok _ _), hw.aug (hmem y hy), M.bind_ok (M.lift_ok _ _), (hp y (hmem y hy)).1,
        store_ok (Heap.setCells_st_self hs c) hd rfl (by rw [hc]; exact (hp y (hmem y hy)).2),
        Heap.setCells_setCells, set_eq_modify])
  rw [hh] at h2
  show Q ((runAll (zipBodyM dst.dtype S L R f dst l r) l1 >>= fun _ => runAll (zipBodyM dst.dtype S L R f dst l r) (x :: l2)) H)
  rw [M.bind_ok h2, runAll, M.bind_def]
  have h3 := hx (l1.foldl (fun c idx => c.modify (p idx) (fun _ => some (g idx))) cells)
  cases ho : zipBodyM dst.dtype S L R f dst l r x (H.setCells dst.data (l1.foldl (fun c idx => c.modify (p idx) (fun _ => some (g idx))) cells)) with
  | ok u H' => rw [ho] at h3; exact absurd h3 (hQ H')
  | throw ex H' => rw [ho] at h3; exact h3
  | ub u => rw [ho] at h3; exact h3

/-- An index at which a property fails comes with the first one. -/
theorem firstNot_or (s : List Nat) (P : List Nat → Prop) : (∀ idx, InBox s idx → P idx) ∨ ∃ idx, FirstNot s P idx := by
  classical
  by_cases h : ∃ idx ∈ rowMajor s, ¬ P idx
  · obtain ⟨l1, x, l2, e, hx, hl1⟩ := exists_first (fun idx => ¬ P idx) (rowMajor s) h
    have hxb : InBox s x := mem_rowMajor.1 (by rw [e]; simp)
    refine .inr ⟨x, hxb, hx, fun y hy hr => ?_⟩
    have h1 : (rowMajor s)[rank s y]? = some y := rowMajor_getElem? hy
    have h2 : (rowMajor s)[rank s x]? = some x := rowMajor_getElem? hxb
    have h3 : (rowMajor s)[l1.length]? = some x := by rw [e]; simp
    have h4 : rank s x = l1.length := by
      have hlt1 := getElem?_lt h2
      have hlt2 := getElem?_lt h3
      rw [List.getElem?_eq_getElem hlt1] at h2
      rw [List.getElem?_eq_getElem hlt2] at h3
      exact ((nodup_rowMajor s).getElem_inj_iff).1 ((Option.some.inj h2).trans (Option.some.inj h3).symm)
    rw [h4] at hr
    rw [e, List.getElem?_append_left hr] at h1
    exact not_not.1 (hl1 y (List.mem_of_getElem? h1))
  · exact .inl fun idx hb => by
      by_contra hn
      exact h ⟨idx, mem_rowMajor.2 hb, hn⟩

theorem firstNot_split {s : List Nat} {P : List Nat → Prop} {x : List Nat} (hf : FirstNot s P x) :
    ∃ l1 l2, rowMajor s = l1 ++ x :: l2 ∧ ∀ y ∈ l1, InBox s y ∧ P y := by
  obtain ⟨hb, hn, hlt⟩ := hf
  have h2 : (rowMajor s)[rank s x]? = some x := rowMajor_getElem? hb
  have hl := getElem?_lt h2
  refine ⟨(rowMajor s).take (rank s x), (rowMajor s).drop (rank s x + 1), ?_, fun y hy => ?_⟩
  · rw [List.getElem?_eq_getElem hl] at h2
    conv => lhs; rw [← List.take_append_drop (rank s x) (rowMajor s), List.drop_eq_getElem_cons hl, Option.some.inj h2]
  · obtain ⟨k, hk, e⟩ := List.mem_iff_getElem.1 hy
    have hk' : k < rank s x := by
      have := hk
      simp only [List.length_take] at this
      omega
    have e1 : (rowMajor s)[k]? = some y := by
      rw [List.getElem_take] at e
      rw [List.getElem?_eq_getElem (by omega), e]
    have hy' : InBox s y := mem_rowMajor.1 (List.mem_of_getElem? e1)
    refine ⟨hy', hlt y hy' ?_⟩
    have e2 : (rowMajor s)[rank s y]? = some y := rowMajor_getElem? hy'
    have hl1 := getElem?_lt e1
    have hl2 := getElem?_lt e2
    rw [List.getElem?_eq_getElem hl1] at e1
    rw [List.getElem?_eq_getElem hl2] at e2
    have : rank s y = k := ((nodup_rowMajor s).getElem_inj_iff).1 ((Option.some.inj e2).trans (Option.some.inj e1).symm)
    omega

theorem maxShape_len {sl sr idx : List Nat} (hb : InBox (maxShape sl sr) idx) : sl.length ≤ idx.length ∧ sr.length ≤ idx.length := by
  rw [hb.length, length_maxShape]
  exact ⟨le_max_left _ _, le_max_right _ _⟩

theorem stretchRev_zero : ∀ {u v : List Nat}, stretchRev u v → 0 ∈ u ∨ 0 ∈ v
  | a :: u, b :: v, h => by
    rcases h with ⟨h, _⟩ | ⟨_, h⟩ | h
    · exact .inl (by simp [h])
    · exact .inr (by simp [h])
    · rcases stretchRev_zero h with h | h
      · exact .inl (by simp [h])
      · exact .inr (by simp [h])
  | [], _, h => by simp [stretchRev] at h
  | _ :: _, [], h => by simp [stretchRev] at h

theorem not_inBox_zero {s idx : List Nat} (h : 0 ∈ s) : ¬ InBox s idx := fun hb => vol_pos_iff.1 hb.vol_pos h

theorem meets_aug {u idx : List Nat} (hl : u.length ≤ idx.length) (hb : InBox u (project u idx)) : ∃ p, augRev u.reverse idx.reverse = .ok p := by
  by_contra hn
  have h1 := cntFromAugIndex_not_ok (v := ⟨u, u.map fun _ => 0, 0⟩) (idx := idx) fun p hp => hn ⟨p, hp⟩
  rw [cntFromAugIndex_project hl hb, cntFromIndex_eq hb.length (by simp) (by simp)] at h1
  exact h1 _ rfl

/-- The shapes for which some index of the result has no element in an operand: those for which the operation throws. -/
theorem not_meets_iff (sl sr : List Nat) : (∃ idx, InBox (maxShape sl sr) idx ∧ ¬ Meets sl sr idx) ↔
    0 ∉ maxShape sl sr ∧ (bshape sl sr = none ∨ stretched sl sr) := by
  constructor
  · rintro ⟨idx, hb, hn⟩
    refine ⟨vol_pos_iff.1 hb.vol_pos, ?_⟩
    by_contra hc
    rw [not_or] at hc
    obtain ⟨s, hs⟩ := Option.ne_none_iff_exists'.1 hc.1
    rw [maxShape_eq hs hc.2] at hb
    exact hn ⟨project_inBox_left hs hb, project_inBox_right hs hb⟩
  · rintro ⟨h0, h⟩
    have hz := inBox_zero (vol_pos_iff.2 h0)
    by_cases hl : 0 ∈ sl
    · exact ⟨_, hz, fun hm => not_inBox_zero hl hm.1⟩
    by_cases hr : 0 ∈ sr
    · exact ⟨_, hz, fun hm => not_inBox_zero hr hm.2⟩
    rcases h with h | h
    · obtain ⟨s, idx, hbr, hb, hor⟩ := broadcastRange_incompatible h hl hr
      rw [broadcastRange_max] at hbr
      have hs : maxShape sl sr = s := by simpa using hbr
      subst hs
      have hlen := maxShape_len hb
      refine ⟨idx, hb, fun hm => ?_⟩
      rcases hor with hor | hor
      · obtain ⟨p, hp⟩ := meets_aug hlen.1 hm.1
        exact hor p hp
      · obtain ⟨p, hp⟩ := meets_aug hlen.2 hm.2
        exact hor p hp
    · rcases stretchRev_zero h with h | h
      · exact absurd (by simpa using h) hl
      · exact absurd (by simpa using h) hr

section arith
variable {op : AOp} {h : Heap F} {l r : Nat} {dl dr : DType} {sl sr : List Nat} {fl fr g : List Nat → Val F}

/-- The element loop of an operation, run up to its first element that stops it. -/
theorem arith_first (hl : Denotes h l dl sl fl) (hr : Denotes h r dr sr fr)
    (hsize : vol (maxShape sl sr) * (later dl dr).size < 9223372036854775808) {x : List Nat}
    (hx : FirstNot (maxShape sl sr) (fun idx => Meets sl sr idx ∧ (elemBinary op dl dr (fl (project sl idx)) (fr (project sr idx))).isSome = true) x) :
    (¬ Meets sl sr x ∧ ∃ h', arithT op l r h = .throw .runtime h' ∧ Extends h h') ∨
    (Meets sl sr x ∧ elemBinary op dl dr (fl (project sl x)) (fr (project sr x)) = none ∧
      (arithT op l r h = .ub .overflow ∨ arithT op l r h = .ub .divZero)) := by
  obtain ⟨li, hli, rfl, rfl, hlr⟩ := hl
  obtain ⟨ri, hri, rfl, rfl, hrr⟩ := hr
  obtain ⟨l1, l2, e, hl1⟩ := firstNot_split hx
  have hbr := broadcastRange_max li.view.sizes ri.view.sizes
  generalize hs : maxShape li.view.sizes ri.view.sizes = s at *
  have hslots := slots_alloc (dt := later li.dtype ri.dtype) hsize h
  have hext := extends_alloc h (later li.dtype ri.dtype) s
  have hne1 : li.data ≠ h.st.length := by have := hlr.data_lt; omega
  have hne2 : ri.data ≠ h.st.length := by have := hrr.data_lt; omega
  have hlen : ∀ idx, InBox s idx → li.view.sizes.length ≤ idx.length ∧ ri.view.sizes.length ≤ idx.length := fun idx hb => by
    rw [← hs] at hb; exact maxShape_len hb
  let g : List Nat → Val F := fun idx =>
    (elemBinary op li.dtype ri.dtype (fl (project li.view.sizes idx)) (fr (project ri.view.sizes idx))).getD (.i 0)
  have hgood : ∀ idx, (elemBinary op li.dtype ri.dtype (fl (project li.view.sizes idx)) (fr (project ri.view.sizes idx))).isSome = true →
      elemBinary op li.dtype ri.dtype (fl (project li.view.sizes idx)) (fr (project ri.view.sizes idx)) = some (g idx) := by
    intro idx hsome
    obtain ⟨z, hz⟩ := Option.isSome_iff_exists.1 hsome
    simp only [g, hz, Option.getD_some]
  have hreach : ∀ idx, InBox s idx → Meets li.view.sizes ri.view.sizes idx → Reaches li idx ∧ Reaches ri idx := fun idx hb hm =>
    ⟨⟨(hlen idx hb).1, hm.1⟩, ⟨(hlen idx hb).2, hm.2⟩⟩
  have hE : ∀ c, Extends h ((h.alloc (later li.dtype ri.dtype) s).setCells h.st.length c) := fun c => hext.setCells (Nat.le_refl _) c
  by_cases hm : Meets li.view.sizes ri.view.sizes x
  · have hnone : elemBinary op li.dtype ri.dtype (fl (project li.view.sizes x)) (fr (project ri.view.sizes x)) = none := by
      cases he : elemBinary op li.dtype ri.dtype (fl (project li.view.sizes x)) (fr (project ri.view.sizes x)) with
      | none => rfl
      | some z => exact absurd ⟨hm, by rw [he]; rfl⟩ hx.2.1
    refine .inr ⟨hm, hnone, ?_⟩
    obtain ⟨hx1, hx2⟩ := hreach x hx.1 hm
    let Q : Out (Heap F) Unit → Prop := fun o => o = .ub .overflow ∨ o = .ub .divZero
    have hQ : ∀ {u : UB} {H : Heap F} {k : Val F → M F Unit}, u = .overflow ∨ u = .divZero → Q ((M.lift (.ub u) >>= k) H) := by
      intro u H k hu
      rw [M.bind_ub (M.lift_ub u H)]
      rcases hu with rfl | rfl
      · exact Or.inl rfl
      · exact Or.inr rfl
    have hk : Q (kernelCall (arithKernel op) (arithOrder op) li ri (newImpl (later li.dtype ri.dtype) s h.st.length)
        (h.alloc (later li.dtype ri.dtype) s)) := by
      rw [kernelCall_arith]
      by_cases hsw : swaps op li.dtype ri.dtype
      · rw [if_pos hsw, arithKernel_eq op (fun _ => later_of_swaps hsw) (by rw [broadcastRange_comm]; exact hbr) rfl]
        refine zipLoop_first (g := g) hslots rfl (later_comm _ _) (hrr.of_extends hext) (hlr.of_extends hext) rfl rfl hne2 hne1 e
          (fun idx hi => ?_) (by simp [Q]) (fun c => ?_)
        · obtain ⟨hb, hm', hsome⟩ := hl1 idx hi
          have := hgood idx hsome
          rw [elemBinary_eq, if_pos hsw] at this
          exact ⟨(hreach idx hb hm').2, (hreach idx hb hm').1, (kernelElem_ok (hrr.typed _ hm'.2) (hlr.typed _ hm'.1) this).1⟩
        · rw [elemBinary_eq, if_pos hsw] at hnone
          change Q (zipBodyM _ _ _ _ _ _ _ _ x ((h.alloc (later li.dtype ri.dtype) s).setCells h.st.length c))
          unfold zipBodyM
          rw [zipBody ((hrr.of_extends hext).setCells_ne hne2 c) ((hlr.of_extends hext).setCells_ne hne1 c) rfl rfl hx2 hx1]
          rcases kernelElem_none (hrr.typed _ hx2.2) (hlr.typed _ hx1.2) hnone with e | e
          · first | rw [e] | (erw [e])
            exact hQ (Or.inl rfl)
          · first | rw [e] | (erw [e])
            exact hQ (Or.inr rfl)
      · rw [if_neg hsw, arithKernel_eq op (fun ho => later_of_not_swaps hsw ho) hbr rfl]
        refine zipLoop_first (g := g) hslots rfl rfl (hlr.of_extends hext) (hrr.of_extends hext) rfl rfl hne1 hne2 e
          (fun idx hi => ?_) (by simp [Q]) (fun c => ?_)
        · obtain ⟨hb, hm', hsome⟩ := hl1 idx hi
          have := hgood idx hsome
          rw [elemBinary_eq, if_neg hsw] at this
          exact ⟨(hreach idx hb hm').1, (hreach idx hb hm').2, (kernelElem_ok (hlr.typed _ hm'.1) (hrr.typed _ hm'.2) this).1⟩
        · rw [elemBinary_eq, if_neg hsw] at hnone
          change Q (zipBodyM _ _ _ _ _ _ _ _ x ((h.alloc (later li.dtype ri.dtype) s).setCells h.st.length c))
          unfold zipBodyM
          rw [zipBody ((hlr.of_extends hext).setCells_ne hne1 c) ((hrr.of_extends hext).setCells_ne hne2 c) rfl rfl hx1 hx2]
          rcases kernelElem_none (hlr.typed _ hx1.2) (hrr.typed _ hx2.2) hnone with e | e
          · first | rw [e] | (erw [e])
            exact hQ (Or.inl rfl)
          · first | rw [e] | (erw [e])
            exact hQ (Or.inr rfl)
    rw [arithT_eq]
    exact applyBinary_stop (Q := Q) (Q' := fun o => o = .ub .overflow ∨ o = .ub .divZero) hli hri hbr hsize hk (by simp [Q]) (by simp [Q])
      (by simp [Q])
  · refine .inl ⟨hm, ?_⟩
    have hnr : ¬ (Reaches li x ∧ Reaches ri x) := fun hc => hm ⟨hc.1.2, hc.2.2⟩
    let Q : Out (Heap F) Unit → Prop := fun o => ∃ H, o = .throw .runtime H ∧ Extends h H
    have hk : Q (kernelCall (arithKernel op) (arithOrder op) li ri (newImpl (later li.dtype ri.dtype) s h.st.length)
        (h.alloc (later li.dtype ri.dtype) s)) := by
      rw [kernelCall_arith]
      by_cases hsw : swaps op li.dtype ri.dtype
      · rw [if_pos hsw, arithKernel_eq op (fun _ => later_of_swaps hsw) (by rw [broadcastRange_comm]; exact hbr) rfl]
        refine zipLoop_first (g := g) hslots rfl (later_comm _ _) (hrr.of_extends hext) (hlr.of_extends hext) rfl rfl hne2 hne1 e
          (fun idx hi => ?_) (by simp [Q]) (fun c => ?_)
        · obtain ⟨hb, hm', hsome⟩ := hl1 idx hi
          have := hgood idx hsome
          rw [elemBinary_eq, if_pos hsw] at this
          exact ⟨(hreach idx hb hm').2, (hreach idx hb hm').1, (kernelElem_ok (hrr.typed _ hm'.2) (hlr.typed _ hm'.1) this).1⟩
        · change Q (zipBodyM _ _ _ _ _ _ _ _ x ((h.alloc (later li.dtype ri.dtype) s).setCells h.st.length c))
          unfold zipBodyM
          rw [zipBody_throw ((hrr.of_extends hext).setCells_ne hne2 c) rfl (hlen x hx.1).2 (hlen x hx.1).1 (fun hc => hnr ⟨hc.2, hc.1⟩)]
          exact ⟨_, rfl, hE c⟩
      · rw [if_neg hsw, arithKernel_eq op (fun ho => later_of_not_swaps hsw ho) hbr rfl]
        refine zipLoop_first (g := g) hslots rfl rfl (hlr.of_extends hext) (hrr.of_extends hext) rfl rfl hne1 hne2 e
          (fun idx hi => ?_) (by simp [Q]) (fun c => ?_)
        · obtain ⟨hb, hm', hsome⟩ := hl1 idx hi
          have := hgood idx hsome
          rw [elemBinary_eq, if_neg hsw] at this
          exact ⟨(hreach idx hb hm').1, (hreach idx hb hm').2, (kernelElem_ok (hlr.typed _ hm'.1) (hrr.typed _ hm'.2) this).1⟩
        · change Q (zipBodyM _ _ _ _ _ _ _ _ x ((h.alloc (later li.dtype ri.dtype) s).setCells h.st.length c))
          unfold zipBodyM
          rw [zipBody_throw ((hlr.of_extends hext).setCells_ne hne1 c) rfl (hlen x hx.1).1 (hlen x hx.1).2 hnr]
          exact ⟨_, rfl, hE c⟩
    rw [arithT_eq]
    refine applyBinary_stop (Q := Q) (Q' := fun o => ∃ h', o = .throw .runtime h' ∧ Extends h h') hli hri hbr hsize hk
      (by simp [Q]) (fun e H hq => ?_) (by simp [Q])
    obtain ⟨H', e1, e2⟩ := hq
    exact ⟨H', by simpa using e1, e2⟩

/-- The element loop of an operation all of whose elements exist. -/
theorem arith_all (hl : Denotes h l dl sl fl) (hr : Denotes h r dr sr fr)
    (hsize : vol (maxShape sl sr) * (later dl dr).size < 9223372036854775808)
    (hg : ∀ idx, InBox (maxShape sl sr) idx → Meets sl sr idx ∧ elemBinary op dl dr (fl (project sl idx)) (fr (project sr idx)) = some (g idx)) :
    ∃ h', arithT op l r h = .ok h.ts.length h' ∧ Denotes h' h.ts.length (later dl dr) (maxShape sl sr) g ∧ Extends h h' ∧ Spec.Fresh h h' h.ts.length ∧
      ∃ j, h'.ts[h.ts.length]? = some j ∧ j.grad = none ∧ j.view = Layout.contig (maxShape sl sr) := by
  obtain ⟨li, hli, rfl, rfl, hlr⟩ := hl
  obtain ⟨ri, hri, rfl, rfl, hrr⟩ := hr
  have hbr := broadcastRange_max li.view.sizes ri.view.sizes
  have hlen := fun idx hb => maxShape_len (sl := li.view.sizes) (sr := ri.view.sizes) (idx := idx) hb
  have hb1 : ∀ idx, InBox (maxShape li.view.sizes ri.view.sizes) idx → Reaches li idx := fun idx hb => ⟨(hlen idx hb).1, (hg idx hb).1.1⟩
  have hb2 : ∀ idx, InBox (maxShape li.view.sizes ri.view.sizes) idx → Reaches ri idx := fun idx hb => ⟨(hlen idx hb).2, (hg idx hb).1.2⟩
  generalize hs : maxShape li.view.sizes ri.view.sizes = s at *
  have hslots := slots_alloc (dt := later li.dtype ri.dtype) hsize h
  have hext := extends_alloc h (later li.dtype ri.dtype) s
  have hne1 : li.data ≠ h.st.length := by have := hlr.data_lt; omega
  have hne2 : ri.data ≠ h.st.length := by have := hrr.data_lt; omega
  have hk : ∃ c', kernelCall (arithKernel op) (arithOrder op) li ri (newImpl (later li.dtype ri.dtype) s h.st.length)
        (h.alloc (later li.dtype ri.dtype) s) = .ok () ((h.alloc (later li.dtype ri.dtype) s).setCells h.st.length c') ∧
      Reads ((h.alloc (later li.dtype ri.dtype) s).setCells h.st.length c')
        (newImpl (later li.dtype ri.dtype) s h.st.length) g := by
    rw [kernelCall_arith]
    by_cases hsw : swaps op li.dtype ri.dtype
    · rw [if_pos hsw, arithKernel_eq op (fun _ => later_of_swaps hsw) (by rw [broadcastRange_comm]; exact hbr) rfl]
      refine zipLoop_ok hslots rfl (later_comm _ _) (hrr.of_extends hext) (hlr.of_extends hext) rfl rfl hne2 hne1 hb2 hb1 ?_
      intro idx hb
      have := (hg idx hb).2
      rw [elemBinary_eq, if_pos hsw] at this
      exact kernelElem_ok (hrr.typed _ (hb2 idx hb).2) (hlr.typed _ (hb1 idx hb).2) this
    · rw [if_neg hsw, arithKernel_eq op (fun ho => later_of_not_swaps hsw ho) hbr rfl]
      refine zipLoop_ok hslots rfl rfl (hlr.of_extends hext) (hrr.of_extends hext) rfl rfl hne1 hne2 hb1 hb2 ?_
      intro idx hb
      have := (hg idx hb).2
      rw [elemBinary_eq, if_neg hsw] at this
      exact kernelElem_ok (hlr.typed _ (hb1 idx hb).2) (hrr.typed _ (hb2 idx hb).2) this
  rw [arithT_eq]
  obtain ⟨h', j, e1, e2, e3, e4, e5, e6, _, e7, _⟩ := applyBinary_ok (back := arithBack op) hli hri hbr hsize hk
  exact ⟨h', e1, e2, e3, e4, j, e5, e6, e7⟩

end arith

section compare
variable {op : COp} {h : Heap F} {l r : Nat} {dl dr : DType} {sl sr : List Nat} {fl fr : List Nat → Val F}

theorem cmpElem_ok {x y : Val F} (hx : x.HasType dl) (hy : y.HasType dr) :
    (cmpVal op dl dr x y >>= cConv .i8 .i8) = .ok (.i (if elemCompare op dl dr x y then 1 else 0)) := by
  unfold cmpVal
  rw [cmp_eq op hx hy]
  simp [cConv]

theorem cmp_all (hl : Denotes h l dl sl fl) (hr : Denotes h r dr sr fr) (hsize : vol (maxShape sl sr) < 9223372036854775808)
    (hg : ∀ idx, InBox (maxShape sl sr) idx → Meets sl sr idx) :
    ∃ h', Tensor.cmp op l r h = .ok h.ts.length h' ∧ Built h h' h.ts.length .i8 (maxShape sl sr) (fun idx =>
      .i (if elemCompare op dl dr (fl (project sl idx)) (fr (project sr idx)) then 1 else 0)) none := by
  obtain ⟨li, hli, rfl, rfl, hlr⟩ := hl
  obtain ⟨ri, hri, rfl, rfl, hrr⟩ := hr
  have hbr := broadcastRange_max li.view.sizes ri.view.sizes
  have hlen := fun idx hb => maxShape_len (sl := li.view.sizes) (sr := ri.view.sizes) (idx := idx) hb
  have hb1 : ∀ idx, InBox (maxShape li.view.sizes ri.view.sizes) idx → Reaches li idx := fun idx hb => ⟨(hlen idx hb).1, (hg idx hb).1⟩
  have hb2 : ∀ idx, InBox (maxShape li.view.sizes ri.view.sizes) idx → Reaches ri idx := fun idx hb => ⟨(hlen idx hb).2, (hg idx hb).2⟩
  generalize hs : maxShape li.view.sizes ri.view.sizes = s at *
  have hsize : vol s * DType.i8.size < 9223372036854775808 := by simpa [DType.size] using hsize
  have hext := extends_alloc h .i8 s
  unfold Tensor.cmp
  rw [M.bind_ok (getT_ok hli), M.bind_ok (getT_ok hri), hbr, M.bind_ok (M.lift_ok _ _),
    M.bind_ok (create_ok hsize h), M.bind_ok (getT_ok (alloc_getT h _ _))]
  obtain ⟨c', e2, r2⟩ := zipLoop_ok (S := .i8) (f := cmpVal op li.dtype ri.dtype)
    (g := fun idx => .i (if elemCompare op li.dtype ri.dtype (fl (project li.view.sizes idx))
      (fr (project ri.view.sizes idx)) then 1 else 0)) (slots_alloc hsize h) rfl rfl
    (hlr.of_extends hext) (hrr.of_extends hext) rfl rfl (by have := hlr.data_lt; show li.data ≠ h.st.length; omega)
    (by have := hrr.data_lt; show ri.data ≠ h.st.length; omega) hb1 hb2 (fun idx hb => by
      refine ⟨cmpElem_ok (hlr.typed _ (hb1 idx hb).2) (hrr.typed _ (hb2 idx hb).2), ?_⟩
      show Val.HasType DType.i8 _
      split <;> (rw [hasType_i]; decide))
  have e2' : tensorCmp op li.dtype ri.dtype (newImpl .i8 s h.st.length) li ri (h.alloc .i8 s) = .ok () _ := e2
  rw [M.bind_ok e2']
  exact ⟨_, rfl, built_new (Extends.refl h) rfl r2⟩

theorem cmp_first (hl : Denotes h l dl sl fl) (hr : Denotes h r dr sr fr) (hsize : vol (maxShape sl sr) < 9223372036854775808)
    {x : List Nat} (hx : FirstNot (maxShape sl sr) (Meets sl sr) x) : ∃ h', Tensor.cmp op l r h = .throw .runtime h' ∧ Extends h h' := by
  obtain ⟨li, hli, rfl, rfl, hlr⟩ := hl
  obtain ⟨ri, hri, rfl, rfl, hrr⟩ := hr
  obtain ⟨l1, l2, e, hl1⟩ := firstNot_split hx
  have hbr := broadcastRange_max li.view.sizes ri.view.sizes
  have hlen := fun idx hb => maxShape_len (sl := li.view.sizes) (sr := ri.view.sizes) (idx := idx) hb
  generalize hs : maxShape li.view.sizes ri.view.sizes = s at *
  have hsize : vol s * DType.i8.size < 9223372036854775808 := by simpa [DType.size] using hsize
  have hext := extends_alloc h .i8 s
  unfold Tensor.cmp
  rw [M.bind_ok (getT_ok hli), M.bind_ok (getT_ok hri), hbr, M.bind_ok (M.lift_ok _ _),
    M.bind_ok (create_ok hsize h), M.bind_ok (getT_ok (alloc_getT h _ _))]
  have hne1 : li.data ≠ h.st.length := by have := hlr.data_lt; omega
  have hne2 : ri.data ≠ h.st.length := by have := hrr.data_lt; omega
  let Q : Out (Heap F) Unit → Prop := fun o => ∃ H, o = .throw .runtime H ∧ Extends h H
  have hk : Q (tensorCmp op li.dtype ri.dtype (newImpl .i8 s h.st.length) li ri (h.alloc .i8 s)) := by
    refine zipLoop_first (S := .i8) (f := cmpVal op li.dtype ri.dtype) (g := fun idx => .i (if elemCompare op li.dtype ri.dtype (fl (project li.view.sizes idx))
      (fr (project ri.view.sizes idx)) then 1 else 0)) (slots_alloc hsize h) rfl rfl
      (hlr.of_extends hext) (hrr.of_extends hext) rfl rfl hne1 hne2 e (fun idx hi => ?_) (by simp [Q]) (fun c => ?_)
    · obtain ⟨hb, hm⟩ := hl1 idx hi
      exact ⟨⟨(hlen idx hb).1, hm.1⟩, ⟨(hlen idx hb).2, hm.2⟩, cmpElem_ok (hlr.typed _ hm.1) (hrr.typed _ hm.2)⟩
    · change Q (zipBodyM _ _ _ _ _ _ _ _ x ((h.alloc .i8 s).setCells h.st.length c))
      unfold zipBodyM
      rw [zipBody_throw ((hlr.of_extends hext).setCells_ne hne1 c) rfl (hlen x hx.1).1 (hlen x hx.1).2 (fun hc => hx.2.1 ⟨hc.1.2, hc.2.2⟩)]
      exact ⟨_, rfl, hext.setCells (Nat.le_refl _) c⟩
  obtain ⟨H, e1, e2⟩ := hk
  rw [M.bind_throw e1]
  exact ⟨H, rfl, e2⟩

end compare

end INNC
