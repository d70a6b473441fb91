import Verif.Lemmas.Binary
import Mathlib.Tactic.Ring
/-
Binary operations that do not return.
-/
namespace INNC
open Spec
variable {F : Type} [FOps F]

/-- The element loop when some elements stop it: the loop ends with the outcome of one of them. -/
theorem zipLoop_stop {H : Heap F} {dst l r : Impl} {fl fr g : List Nat → Val F} {D S L R : DType} {range : List Nat}
    {f : Val F → Val F → Res (Val F)} (hw : Slots H dst) (hrange : dst.view.sizes = range) (hD : dst.dtype = D)
    (hl : Reads H l fl) (hr : Reads H r fr) (hL : l.dtype = L) (hR : r.dtype = R)
    (hdl : l.data ≠ dst.data) (hdr : r.data ≠ dst.data) (bad : List Nat → Prop)
    (h1 : ∀ idx, InBox range idx → ¬ bad idx → Reaches l idx ∧ Reaches r idx ∧
      (f (fl (project l.view.sizes idx)) (fr (project r.view.sizes idx)) >>= cConv S D) = .ok (g idx))
    (Q : Out (Heap F) Unit → Prop)
    (hbad : ∀ idx, InBox range idx → bad idx → ∀ H' : Heap F, Reads H' l fl → Reads H' r fr →
      (∃ c, H' = H.setCells dst.data c) →
      Q ((do
        let x ← load L l (← M.lift (cntFromAugIndex l.view idx))
        let y ← load R r (← M.lift (cntFromAugIndex r.view idx))
        let z ← M.lift (f x y)
        let z ← M.lift (cConv S D z)
        store D dst (← M.lift (cntFromAugIndex dst.view idx)) z : M F Unit) H') ∧
      ∀ H'', (do
        let x ← load L l (← M.lift (cntFromAugIndex l.view idx))
        let y ← load R r (← M.lift (cntFromAugIndex r.view idx))
        let z ← M.lift (f x y)
        let z ← M.lift (cConv S D z)
        store D dst (← M.lift (cntFromAugIndex dst.view idx)) z : M F Unit) H' ≠ .ok () H'')
    (hex : ∃ idx, InBox range idx ∧ bad idx) : Q (zipLoop D S L R range f dst l r H) := by
  subst hD hrange
  obtain ⟨s, cells, hs, hd, hb, hlen, hc⟩ := hw.cells
  have hh : H.setCells dst.data cells = H := Heap.setCells_eq_self hs hb
  let p : List Nat → Nat := fun idx => (position dst.view idx).toNat
  have hp : ∀ idx, InBox dst.view.sizes idx → wrapU (dst.view.pos idx) = p idx ∧ p idx < cells.length := by
    intro idx hi
    refine ⟨(hw.wrap hi).1, ?_⟩
    obtain ⟨q, hq, hql⟩ := hc idx hi
    simp only [p, hq]; simpa using hql
  unfold zipLoop
  rw [forEach_eq]
  obtain ⟨idx0, hi0, hb0⟩ := hex
  have := runAll_stop (fun sv => do
    let x ← load L l (← M.lift (cntFromAugIndex l.view sv))
    let y ← load R r (← M.lift (cntFromAugIndex r.view sv))
    let z ← M.lift (f x y)
    let z ← M.lift (cConv S dst.dtype z)
    store dst.dtype dst (← M.lift (cntFromAugIndex dst.view sv)) z : List Nat → M F Unit)
    H dst.data (fun idx c => c.modify (p idx) (fun _ => some (g idx)))
    (fun c => c.length = cells.length) bad (rowMajor dst.view.sizes) cells rfl
    (fun x _ _ c hc => by simpa using hc)
    (fun x hx hnb c hc => by
      have hx' := mem_rowMajor.1 hx
      obtain ⟨r1, r2, r3⟩ := h1 x hx' hnb
      refine (zipBody (hl.setCells_ne hdl c) (hr.setCells_ne hdr c) hL hR r1 r2 f).trans ?_
      rw [r3, M.bind_ok (M.lift_ok _ _), hw.aug hx', M.bind_ok (M.lift_ok _ _), (hp x hx').1,
        store_ok (Heap.setCells_st_self hs c) hd rfl (by rw [hc]; exact (hp x hx').2),
        Heap.setCells_setCells, set_eq_modify])
    Q
    (fun x hx hbx c _ => hbad x (mem_rowMajor.1 hx) hbx _ (hl.setCells_ne hdl c) (hr.setCells_ne hdr c)
      ⟨c, rfl⟩)
    ⟨idx0, mem_rowMajor.2 hi0, hb0⟩
  rwa [hh] at this

theorem bcastRev_comm : ∀ {u v : List Nat}, u.length = v.length → bcastRev u v = bcastRev v u
  | [], [], _ => rfl
  | a :: u, b :: v, h => by
    simp only [bcastRev]
    rw [bcastRev_comm (u := u) (v := v) (by simpa using h), max_comm]
    congr 2
    by_cases h1 : a = 1 <;> by_cases h2 : b = 1 <;> simp [h1, h2]

theorem broadcastRange_comm (u v : List Nat) : broadcastRange u v = broadcastRange v u := by
  unfold broadcastRange
  rcases Nat.lt_trichotomy u.length v.length with h | h | h
  · rw [if_pos h, if_neg (by omega)]
  · rw [if_neg (by omega), if_neg (by omega)]
    simp only
    rw [bcastRev_comm (by simpa using h)]
  · rw [if_neg (by omega), if_pos h]

theorem create_inv {h H : Heap F} {dt : DType} {v : Layout} {pre : Bool} {c : Nat}
    (hc : create dt v pre h = .ok c H) : ∃ d, H.ts[c]? = some ⟨dt, v, d, none, false, false, none⟩ := by
  unfold create mkStorage at hc
  cases pre
  · rw [if_neg (by simp), M.bind_ok (x := newS _) (a := h.st.length) rfl] at hc
    simp only [createOn, newT, Out.ok.injEq] at hc
    obtain ⟨rfl, rfl⟩ := hc
    exact ⟨_, by simp; rfl⟩
  · rw [if_pos rfl] at hc
    split at hc
    · rw [M.bind_ok (x := newS _) (a := h.st.length) rfl] at hc
      simp only [createOn, newT, Out.ok.injEq] at hc
      obtain ⟨rfl, rfl⟩ := hc
      exact ⟨_, by simp; rfl⟩
    · rw [M.bind_throw (M.raise_run _ _)] at hc
      exact absurd hc (by simp)

theorem applyNoGradBinary_eq {h : Heap F} {l r : Nat} {li ri : Impl} {s : List Nat} (k : Tensor.Kernel F) (ord : Bool)
    (hl : h.ts[l]? = some li) (hr : h.ts[r]? = some ri)
    (hs : broadcastRange li.view.sizes ri.view.sizes = .ok s) :
    Tensor.applyNoGradBinary k l r ord h =
      (do
        let c ← create (later li.dtype ri.dtype) (Layout.contig s) true
        let d ← getT c
        kernelCall k ord li ri d
        pure c : M F Nat) h := by
  unfold Tensor.applyNoGradBinary kernelCall
  rw [M.bind_ok (getT_ok hl), M.bind_ok (getT_ok hr)]
  simp only [larger_eq_later]
  rw [hs, M.bind_ok (M.lift_ok _ _)]
  rw [M.bind_def, M.bind_def]
  cases create (F := F) (later li.dtype ri.dtype) (Layout.contig s) true h with
  | throw e H1 => rfl
  | ub u => rfl
  | ok c H1 =>
    simp only
    rw [M.bind_def, M.bind_def]
    cases getT (F := F) c H1 with
    | throw e H1 => rfl
    | ub u => rfl
    | ok d H2 =>
      simp only
      cases ord
      · simp only [Bool.not_false, if_true]
        split <;> rfl
      · simp only [Bool.not_true]
        rfl

theorem arithKernel_not_ok (op : AOp) {L R : DType} {dst i j : Impl} {s idx : List Nat}
    (hbr : broadcastRange i.view.sizes j.view.sizes = .ok s) (hb : InBox s idx) (hds : dst.view.sizes = s)
    (hor : (∀ p, augRev i.view.sizes.reverse idx.reverse ≠ .ok p) ∨
      (∀ p, augRev j.view.sizes.reverse idx.reverse ≠ .ok p)) (H H' : Heap F) :
    arithKernel (F := F) op L R dst i j H ≠ .ok () H' := by
  cases op
  · show tensorAdd L R dst i j H ≠ _
    rw [tensorAdd, hbr, M.bind_ok (M.lift_ok _ _)]; exact zipLoop_not_ok hb hor _ _
  · show tensorSub L R dst i j H ≠ _
    rw [tensorSub, hbr, M.bind_ok (M.lift_ok _ _)]; exact zipLoop_not_ok hb hor _ _
  · show tensorMul L R dst i j H ≠ _
    rw [tensorMul, hds]; exact zipLoop_not_ok hb hor _ _
  · show tensorDiv L R dst i j H ≠ _
    rw [tensorDiv, hds]; exact zipLoop_not_ok hb hor _ _

omit [FOps F] in
theorem bind_not_ok_left {α β : Type} {x : M F α} {f : α → M F β} {H : Heap F} (h : ∀ a H', x H ≠ .ok a H') (b : β)
    (H' : Heap F) : (x >>= f) H ≠ .ok b H' := by
  rw [M.bind_def]
  cases hx : x H with
  | ok a H1 => exact absurd hx (h a H1)
  | throw e H1 => simp
  | ub u => simp

theorem augRev_throw : ∀ (ss is : List Nat), ss.length ≤ is.length →
    ¬ InBox ss (List.zipWith (fun n i => if n = 1 then 0 else i) ss is) → augRev ss is = .throw .runtime
  | [], is, _, hb => by simp [InBox] at hb
  | s :: ss, [], h, _ => by simp at h
  | s :: ss, i :: is, h, hb => by
    have hl : ss.length ≤ is.length := by simpa using h
    unfold augRev
    by_cases h1 : s = 1
    · simp only [h1, ne_eq, not_true_eq_false, if_false, List.tail_cons]
      rw [augRev_throw ss is hl]
      · rfl
      · intro hc; exact hb (by simp [InBox, h1, hc])
    · simp only [ne_eq, h1, not_false_eq_true, if_true]
      by_cases h2 : i < s
      · rw [runExpect_decide h2]
        rw [augRev_throw ss is hl]
        · rfl
        · intro hc; exact hb (by simp [InBox, h1, hc, h2])
      · rw [runExpect_not h2]; rfl

theorem cntFromAugIndex_throw {v : Layout} {idx : List Nat} (h : v.sizes.length ≤ idx.length)
    (hb : ¬ InBox v.sizes (project v.sizes idx)) : cntFromAugIndex v idx = .throw .runtime := by
  have e : List.zipWith (fun n i => if n = 1 then 0 else i) v.sizes.reverse idx.reverse =
      (project v.sizes idx).reverse := by
    rw [zipWith_take_left, List.length_reverse, List.take_reverse, project, ← List.reverse_zipWith]
    simp; omega
  unfold cntFromAugIndex
  rw [augRev_throw]
  · rfl
  · simpa using h
  · rw [e]; intro hc; exact hb (by simpa using (inBox_reverse.1 hc))

/-- The body of `zipLoop` when one of the operands is out of range: the expectation fails. -/
theorem zipBody_throw {H : Heap F} {dst l r : Impl} {fl : List Nat → Val F} {D S L R : DType}
    (hl : Reads H l fl) (hL : l.dtype = L) {sv : List Nat} (h1 : l.view.sizes.length ≤ sv.length)
    (h2 : r.view.sizes.length ≤ sv.length) (hn : ¬ (Reaches l sv ∧ Reaches r sv)) (f : Val F → Val F → Res (Val F)) :
    (do
      let x ← load L l (← M.lift (cntFromAugIndex l.view sv))
      let y ← load R r (← M.lift (cntFromAugIndex r.view sv))
      let z ← M.lift (f x y)
      let z ← M.lift (cConv S D z)
      store D dst (← M.lift (cntFromAugIndex dst.view sv)) z : M F Unit) H = .throw .runtime H := by
  subst hL
  by_cases hb : InBox l.view.sizes (project l.view.sizes sv)
  · have e1 := hl.load_aug h1 hb
    have hb2 : ¬ InBox r.view.sizes (project r.view.sizes sv) := fun hc => hn ⟨⟨h1, hb⟩, ⟨h2, hc⟩⟩
    rw [← bind_assoc, M.bind_ok e1, cntFromAugIndex_throw h2 hb2, M.bind_throw (M.lift_throw _ _)]
  · rw [cntFromAugIndex_throw h1 hb, M.bind_throw (M.lift_throw _ _)]

theorem vol_eq_prod : ∀ s : List Nat, vol s = s.prod
  | [] => rfl
  | a :: s => by simp [vol, vol_eq_prod s]

theorem vol_reverse (s : List Nat) : vol s.reverse = vol s := by
  rw [vol_eq_prod, vol_eq_prod]; exact List.prod_reverse s

theorem vol_pos' : ∀ {s : List Nat}, 0 ∉ s → 0 < vol s
  | [], _ => by simp [vol]
  | a :: s, h => by
    simp only [List.mem_cons, not_or] at h
    exact Nat.mul_pos (by omega) (vol_pos' h.2)

theorem bcastRev_vol : ∀ {u v r : List Nat}, v.length ≤ u.length → bcastRev u v = .ok r → 0 ∉ u → 0 ∉ v →
    vol r ≤ vol u * vol v
  | [], [], r, _, h, _, _ => by simp [bcastRev] at h; subst h; simp [vol]
  | [], _ :: _, _, h, _, _, _ => by simp at h
  | a :: u, [], r, _, h, hu, _ => by
    obtain ⟨r', h1, _⟩ := bcastRev_total u [] (by simp)
    simp only [bcastRev, h1] at h
    have : r = a :: r' := by simpa using h.symm
    subst this
    simp only [List.mem_cons, not_or] at hu
    have := bcastRev_vol (by simp) h1 hu.2 (by simp)
    simp only [vol, Nat.mul_one] at this ⊢
    exact Nat.mul_le_mul_left _ this
  | a :: u, b :: v, r, hl, h, hu, hv => by
    have hl' : v.length ≤ u.length := by simpa using hl
    obtain ⟨r', h1, _⟩ := bcastRev_total u v hl'
    simp only [bcastRev, h1] at h
    have hr : r = max a b :: r' := by
      cases hb : (decide (a ≠ 1) || decide (b ≠ 1) || decide (a = b)) with
      | true => rw [hb] at h; simpa [runExpect] using h.symm
      | false => rw [hb] at h; simp [runExpect] at h
    subst hr
    simp only [List.mem_cons, not_or] at hu hv
    have := bcastRev_vol hl' h1 hu.2 hv.2
    simp only [vol]
    have hm : max a b ≤ a * b := by
      rcases Nat.le_total a b with h | h
      · rw [max_eq_right h]; exact Nat.le_mul_of_pos_left _ (by omega)
      · rw [max_eq_left h]; exact Nat.le_mul_of_pos_right _ (by omega)
    calc max a b * vol r' ≤ (a * b) * (vol u * vol v) := Nat.mul_le_mul hm this
      _ = a * vol u * (b * vol v) := by ring

theorem broadcastRange_vol {u v r : List Nat} (h : broadcastRange u v = .ok r) (hu : 0 ∉ u) (hv : 0 ∉ v) :
    vol r ≤ vol u * vol v := by
  unfold broadcastRange at h
  by_cases hlen : u.length < v.length
  · obtain ⟨r', h1, _⟩ := bcastRev_total v.reverse u.reverse (by simp; omega)
    simp only [hlen, if_true] at h
    rw [h1] at h
    have : r = r'.reverse := by simpa using h.symm
    subst this
    have := bcastRev_vol (by simp; omega) h1 (by simpa using hv) (by simpa using hu)
    rw [vol_reverse, vol_reverse] at this
    rw [vol_reverse, Nat.mul_comm]; exact this
  · obtain ⟨r', h1, _⟩ := bcastRev_total u.reverse v.reverse (by simp; omega)
    simp only [hlen, if_false] at h
    rw [h1] at h
    have : r = r'.reverse := by simpa using h.symm
    subst this
    have := bcastRev_vol (by simp; omega) h1 (by simpa using hu) (by simpa using hv)
    rw [vol_reverse, vol_reverse] at this
    rw [vol_reverse]; exact this

theorem broadcastRange_length {u v r : List Nat} (h : broadcastRange u v = .ok r) : r.length = max u.length v.length := by
  unfold broadcastRange at h
  by_cases hlen : u.length < v.length
  · obtain ⟨r', h1, h2, _⟩ := bcastRev_total v.reverse u.reverse (by simp; omega)
    simp only [hlen, if_true] at h
    rw [h1] at h
    have : r = r'.reverse := by simpa using h.symm
    subst this
    simp [h2]; omega
  · obtain ⟨r', h1, h2, _⟩ := bcastRev_total u.reverse v.reverse (by simp; omega)
    simp only [hlen, if_false] at h
    rw [h1] at h
    have : r = r'.reverse := by simpa using h.symm
    subst this
    simp [h2]; omega

theorem applyBinary_stop {h : Heap F} {l r : Nat} {li ri : Impl} {s : List Nat} {k : Tensor.Kernel F} {ord : Bool}
    {back : BackKind} {Q : Out (Heap F) Unit → Prop} {Q' : Out (Heap F) Nat → Prop}
    (hl : h.ts[l]? = some li) (hr : h.ts[r]? = some ri)
    (hs : broadcastRange li.view.sizes ri.view.sizes = .ok s)
    (hsize : vol s * (later li.dtype ri.dtype).size < 9223372036854775808)
    (hk : Q (kernelCall k ord li ri (newImpl (later li.dtype ri.dtype) s h.st.length)
        (h.alloc (later li.dtype ri.dtype) s)))
    (hok : ∀ H, ¬ Q (.ok () H)) (hth : ∀ e H, Q (.throw e H) → Q' (.throw e H)) (hub : ∀ u, Q (.ub u) → Q' (.ub u)) :
    Q' (Tensor.applyBinary k back l r ord h) := by
  have hrun' := applyNoGradBinary_run k ord hl hr hs hsize
  unfold Tensor.applyBinary
  cases he : kernelCall k ord li ri (newImpl (later li.dtype ri.dtype) s h.st.length)
        (h.alloc (later li.dtype ri.dtype) s) with
  | ok a H => rw [he] at hk; exact absurd hk (hok H)
  | throw e H =>
    rw [he] at hk
    rw [M.bind_throw he] at hrun'
    rw [M.bind_throw hrun']
    exact hth e H hk
  | ub u =>
    rw [he] at hk
    rw [M.bind_ub he] at hrun'
    rw [M.bind_ub hrun']
    exact hub u hk

/-- An undefined element makes the operation undefined. -/
theorem arith_undefined {op : AOp} {h : Heap F} {l r : Nat} {dl dr : DType} {sl sr s : List Nat}
    {fl fr : List Nat → Val F}
    (hl : Denotes h l dl sl fl) (hr : Denotes h r dr sr fr) (hs : bshape sl sr = some s) (hst : ¬ stretched sl sr)
    (hsize : vol s * (later dl dr).size < 9223372036854775808)
    (hbad : ∃ idx, InBox s idx ∧ elemBinary op dl dr (fl (project sl idx)) (fr (project sr idx)) = none) :
    arithT op l r h = .ub .overflow ∨ arithT op l r h = .ub .divZero := by
  obtain ⟨li, hli, rfl, rfl, hlr⟩ := hl
  obtain ⟨ri, hri, rfl, rfl, hrr⟩ := hr
  have hbr := broadcastRange_eq hs hst
  have hslots := slots_alloc (dt := later li.dtype ri.dtype) hsize h
  have hext := extends_alloc h (later li.dtype ri.dtype) s
  have hne1 : li.data ≠ h.st.length := by have := hlr.data_lt; omega
  have hne2 : ri.data ≠ h.st.length := by have := hrr.data_lt; omega
  have hb1 : ∀ idx, InBox s idx → Reaches li idx := fun idx hb =>
    ⟨by rw [hb.length]; exact bshape_length_left hs, project_inBox_left hs hb⟩
  have hb2 : ∀ idx, InBox s idx → Reaches ri idx := fun idx hb =>
    ⟨by rw [hb.length]; exact bshape_length_right hs, project_inBox_right hs hb⟩
  let bad : List Nat → Prop := fun idx =>
    elemBinary op li.dtype ri.dtype (fl (project li.view.sizes idx)) (fr (project ri.view.sizes idx)) = none
  let g : List Nat → Val F := fun idx =>
    (elemBinary op li.dtype ri.dtype (fl (project li.view.sizes idx)) (fr (project ri.view.sizes idx))).getD (.i 0)
  have hgood : ∀ idx, ¬ bad idx → elemBinary op li.dtype ri.dtype (fl (project li.view.sizes idx))
      (fr (project ri.view.sizes idx)) = some (g idx) := by
    intro idx hnb
    simp only [bad, g] at *
    cases he : elemBinary op li.dtype ri.dtype (fl (project li.view.sizes idx)) (fr (project ri.view.sizes idx)) with
    | none => exact absurd he hnb
    | some z => rfl
  let Q : Out (Heap F) Unit → Prop := fun o => o = .ub .overflow ∨ o = .ub .divZero
  have hQ : ∀ {u : UB} {H : Heap F} {k : Val F → M F Unit}, u = .overflow ∨ u = .divZero →
      Q ((M.lift (.ub u) >>= k) H) ∧ ∀ H'', (M.lift (.ub u) >>= k) H ≠ .ok () H'' := by
    intro u H k hu
    rw [M.bind_ub (M.lift_ub u H)]
    rcases hu with rfl | rfl
    · exact ⟨Or.inl rfl, by simp⟩
    · exact ⟨Or.inr rfl, by simp⟩
  have hk : Q (kernelCall (arithKernel op) (arithOrder op) li ri (newImpl (later li.dtype ri.dtype) s h.st.length)
        (h.alloc (later li.dtype ri.dtype) s)) := by
    rw [kernelCall_arith]
    by_cases hsw : swaps op li.dtype ri.dtype
    · rw [if_pos hsw, arithKernel_eq op (fun _ => later_of_swaps hsw) (broadcastRange_comm_ok hs hst) rfl]
      refine zipLoop_stop (g := g) hslots rfl (later_comm _ _) (hrr.of_extends hext) (hlr.of_extends hext) rfl rfl
        hne2 hne1 bad ?_ Q ?_ hbad
      · intro idx hb hnb
        have := hgood idx hnb
        rw [elemBinary_eq, if_pos hsw] at this
        exact ⟨hb2 idx hb, hb1 idx hb,
          (kernelElem_ok (hrr.typed _ (hb2 idx hb).2) (hlr.typed _ (hb1 idx hb).2) this).1⟩
      · intro idx hb hbd H' hr1 hl1 _
        have : elemBinary op li.dtype ri.dtype (fl (project li.view.sizes idx)) (fr (project ri.view.sizes idx)) = none := hbd
        rw [elemBinary_eq, if_pos hsw] at this
        rw [zipBody hr1 hl1 rfl rfl (hb2 idx hb) (hb1 idx hb)]
        rcases kernelElem_none (hrr.typed _ (hb2 idx hb).2) (hlr.typed _ (hb1 idx hb).2) this with e | e
        · first | rw [e] | (erw [e])
          exact hQ (Or.inl rfl)
        · first | rw [e] | (erw [e])
          exact hQ (Or.inr rfl)
    · rw [if_neg hsw, arithKernel_eq op (fun ho => later_of_not_swaps hsw ho) hbr rfl]
      refine zipLoop_stop (g := g) hslots rfl rfl (hlr.of_extends hext) (hrr.of_extends hext) rfl rfl
        hne1 hne2 bad ?_ Q ?_ hbad
      · intro idx hb hnb
        have := hgood idx hnb
        rw [elemBinary_eq, if_neg hsw] at this
        exact ⟨hb1 idx hb, hb2 idx hb,
          (kernelElem_ok (hlr.typed _ (hb1 idx hb).2) (hrr.typed _ (hb2 idx hb).2) this).1⟩
      · intro idx hb hbd H' hl1 hr1 _
        have : elemBinary op li.dtype ri.dtype (fl (project li.view.sizes idx)) (fr (project ri.view.sizes idx)) = none := hbd
        rw [elemBinary_eq, if_neg hsw] at this
        rw [zipBody hl1 hr1 rfl rfl (hb1 idx hb) (hb2 idx hb)]
        rcases kernelElem_none (hlr.typed _ (hb1 idx hb).2) (hrr.typed _ (hb2 idx hb).2) this with e | e
        · change Q ((M.lift (cArith op _ _ _ _ >>= cConv _ (later li.dtype ri.dtype)) >>= _) H') ∧
            ∀ H'', (M.lift (cArith op _ _ _ _ >>= cConv _ (later li.dtype ri.dtype)) >>= _) H' ≠ .ok () H''
          rw [e]; exact hQ (Or.inl rfl)
        · change Q ((M.lift (cArith op _ _ _ _ >>= cConv _ (later li.dtype ri.dtype)) >>= _) H') ∧
            ∀ H'', (M.lift (cArith op _ _ _ _ >>= cConv _ (later li.dtype ri.dtype)) >>= _) H' ≠ .ok () H''
          rw [e]; exact hQ (Or.inr rfl)
  rw [arithT_eq]
  refine applyBinary_stop (Q := Q) (Q' := fun o => o = .ub .overflow ∨ o = .ub .divZero) hli hri hbr hsize hk
    (by simp [Q]) (by simp [Q]) (fun u hu => ?_)
  rcases hu with hu | hu
  · left; simpa using hu
  · right; simpa using hu

end INNC
