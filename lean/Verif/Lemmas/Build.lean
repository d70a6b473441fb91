import Verif.Lemmas.Binary
/-
Operations that build a new contiguous tensor.
-/
namespace INNC
open Spec
variable {F : Type}

/-- What a tensor-building operation leaves behind: a new contiguous tensor, recorded with `gf`. -/
structure Built (h h' : Heap F) (t : Nat) (dt : DType) (sizes : List Nat) (f : List Nat → Val F)
    (gf : Option GradFn) : Prop where
  denotes : Denotes h' t dt sizes f
  ext : Extends h h'
  fresh : Fresh h h' t
  obj : ∃ d, h'.ts[t]? = some ⟨dt, Layout.contig sizes, d, none, gf.isSome, false, gf⟩ ∧ h.st.length ≤ d
  gver : h'.gver = h.gver

/-- The storage of the tensor has `n` elements. -/
def Sized (h : Heap F) (t n : Nat) : Prop :=
  ∃ i s c, h.ts[t]? = some i ∧ h.st[i.data]? = some s ∧ s.blob = some c ∧ c.length = n

theorem Built.returns {h h' : Heap F} {t dt sizes f gf} {o : Out (Heap F) Nat} (hb : Built h h' t dt sizes f gf)
    (ho : o = .ok t h') : Returns o h dt sizes f := ⟨t, h', ho, hb.denotes, hb.ext, hb.fresh⟩

theorem Spec.Extends.st_len {h h' : Heap F} (he : Extends h h') : h.st.length ≤ h'.st.length := by
  by_contra hc
  have hlt : h'.st.length < h.st.length := by omega
  have := he.st h'.st.length _ (List.getElem?_eq_getElem hlt)
  rw [List.getElem?_eq_none (by omega)] at this; simp at this

theorem Spec.Extends.ts_len {h h' : Heap F} (he : Extends h h') : h.ts.length ≤ h'.ts.length := by
  by_contra hc
  have hlt : h'.ts.length < h.ts.length := by omega
  have := he.ts h'.ts.length _ (List.getElem?_eq_getElem hlt)
  rw [List.getElem?_eq_none (by omega)] at this; simp at this

/-- A tensor just allocated and filled. -/
theorem built_new {h H : Heap F} {dt : DType} {s : List Nat} {c : List (Option (Val F))} {g : List Nat → Val F}
    (he : Extends h H) (hgv : H.gver = h.gver)
    (hr : Reads ((H.alloc dt s).setCells H.st.length c) (newImpl dt s H.st.length) g) :
    Built h ((H.alloc dt s).setCells H.st.length c) H.ts.length dt s g none where
  denotes := ⟨_, alloc_getT H dt s, rfl, rfl, hr⟩
  ext := (he.trans (extends_alloc H dt s)).setCells he.st_len c
  fresh := ⟨he.ts_len, _, alloc_getT H dt s, he.st_len⟩
  obj := ⟨H.st.length, alloc_getT H dt s, he.st_len⟩
  gver := hgv

theorem Built.setGradFn {h h' : Heap F} {t dt sizes f} (hb : Built h h' t dt sizes f none) (k : BackKind)
    (ins : List Nat) : ∃ h'', Tensor.setGradFn t k ins h' = .ok () h'' ∧
      Built h h'' t dt sizes f (some ⟨k, ins, 0, 0, 0⟩) ∧ h''.st = h'.st ∧ h''.ts.length = h'.ts.length ∧
      ∀ u, u ≠ t → h''.ts[u]? = h'.ts[u]? := by
  obtain ⟨d, hd, hdl⟩ := hb.obj
  refine ⟨_, setGradFn_ok hd k ins, ⟨?_, hb.ext.setT hb.fresh.1 _, ?_, ?_, hb.gver⟩, rfl, by simp, ?_⟩
  · obtain ⟨i, hi, h1, h2, hr⟩ := hb.denotes
    rw [hd] at hi
    obtain rfl := Option.some.inj hi
    exact ⟨_, List.getElem?_set_self (getElem?_lt hd), h1, h2, (hr.set_ts _).flags rfl rfl rfl⟩
  · exact ⟨hb.fresh.1, _, List.getElem?_set_self (getElem?_lt hd), hdl⟩
  · exact ⟨d, List.getElem?_set_self (getElem?_lt hd), hdl⟩
  · intro u hu
    exact List.getElem?_set_ne (fun hc => hu hc.symm)

section
variable [FOps F]

theorem cConv_of_convert {s t : DType} {v w : Val F} (hv : v.HasType s) (hc : convert s t v = some w) :
    cConv s t v = .ok w := by
  rw [cConv_eq hv, hc]; rfl

theorem zeroVal_eq (t : DType) : (zeroVal t : Val F) = zeroElem t := by
  unfold zeroVal zeroElem; rw [isInt_eq]

theorem zeroElem_hasType (t : DType) : (zeroElem t : Val F).HasType t := by
  unfold zeroElem
  cases t <;> simp [isInteger, Val.HasType, DType.isInt, DType.isFloat, DType.idx, DType.floatStart, fitsInt, DType.bits,
    DType.size]

/-- An element-by-element assignment loop. -/
theorem assign_ok {H : Heap F} {dst : Impl} (hw : Slots H dst) (op : List Nat → M F Unit)
    (v : List Nat → Val F) (hv : ∀ idx, InBox dst.view.sizes idx → (v idx).HasType dst.dtype)
    (hop : ∀ idx, InBox dst.view.sizes idx → ∀ c,
      op idx (H.setCells dst.data c) =
        (do store dst.dtype dst (wrapU (dst.view.pos idx)) (v idx) : M F Unit) (H.setCells dst.data c)) :
    ∃ c', forEach dst.view.sizes op H = .ok () (H.setCells dst.data c') ∧ Reads (H.setCells dst.data c') dst v := by
  rw [forEach_eq]
  obtain ⟨c', e1, e2, _⟩ := runAll_assign hw op v hv hop
  exact ⟨c', e1, e2⟩

theorem copyLoop_ok {H : Heap F} {dst frm : Impl} {f g : List Nat → Val F} (hw : Slots H dst) (hf : Reads H frm f)
    (hne : frm.data ≠ dst.data) (hs : frm.view.sizes = dst.view.sizes)
    (hg : ∀ idx, InBox dst.view.sizes idx → cConv frm.dtype dst.dtype (f idx) = .ok (g idx))
    (ht : ∀ idx, InBox dst.view.sizes idx → (g idx).HasType dst.dtype) :
    ∃ c', copyLoop dst.dtype frm.dtype dst frm H = .ok () (H.setCells dst.data c') ∧
      Reads (H.setCells dst.data c') dst g := by
  unfold copyLoop
  refine assign_ok hw _ g ht fun idx hb c => ?_
  have e1 := (hf.setCells_ne hne c).load_index (idx := idx) (by rw [hs]; exact hb)
  rw [← bind_assoc, M.bind_ok e1, hg idx hb, M.bind_ok (M.lift_ok _ _), hw.index hb, M.bind_ok (M.lift_ok _ _)]

theorem tensorFill_eq (T N : DType) {dst : Impl} (hst : dst.view.strides.length = dst.view.sizes.length)
    (ho : dst.view.offset < 18446744073709551616) (n : Impl) : tensorFill (F := F) T N dst n = (do
      let num ← load N n 0
      let num ← M.lift (cConv N T num)
      forEach dst.view.sizes fun sv => do
        store T dst (← M.lift (cntFromIndex dst.view sv)) num) := by
  unfold tensorFill
  by_cases h : dst.view.sizes.length ≠ 0
  · simp only [if_pos h]
  · simp only [if_neg h]
    have h0 : dst.view.sizes = [] := List.length_eq_zero_iff.1 (by omega)
    have h1 : dst.view.strides = [] := List.length_eq_zero_iff.1 (by omega)
    congr 1; funext a; congr 1; funext b
    rw [h0, forEach_eq]
    have : cntFromIndex dst.view [] = .ok dst.view.offset := by
      rw [cntFromIndex_eq (by rw [h0]) (by rw [hst]) ho]
      simp only [Layout.pos, h1, dot]
      rw [Int.add_zero, wrapU_natCast ho]
    funext H
    simp only [rowMajor, runAll]
    rw [this]
    show _ = ((store T dst dst.view.offset b >>= fun _ => pure ()) : M F Unit) H
    rw [M.bind_def]
    cases store (F := F) T dst dst.view.offset b H <;> rfl

theorem fill_ok {H : Heap F} {dst n : Impl} {v w : Val F} (hw : Slots H dst) (hn : Reads H n fun _ => v)
    (hn0 : n.view.sizes = []) (hno : n.view.offset = 0) (hc : cConv n.dtype dst.dtype v = .ok w) (ht : w.HasType dst.dtype) :
    ∃ c', tensorFill dst.dtype n.dtype dst n H = .ok () (H.setCells dst.data c') ∧
      Reads (H.setCells dst.data c') dst fun _ => w := by
  rw [tensorFill_eq _ _ hw.strides hw.offset]
  have e1 : load n.dtype n 0 H = .ok v H := by
    obtain ⟨s, cells, hs, hd, hb, _, hcell⟩ := hn.cells
    obtain ⟨p, hp, hcp⟩ := hcell [] (by rw [hn0]; trivial)
    have h0 : n.view.strides = [] := List.length_eq_zero_iff.1 (by rw [hn.strides, hn0]; rfl)
    simp only [position, hno, h0, dot] at hp
    obtain rfl : p = 0 := by omega
    exact load_ok hs hd hb hcp
  rw [M.bind_ok e1, hc, M.bind_ok (M.lift_ok _ _)]
  refine assign_ok hw _ _ (fun _ _ => ht) fun idx hb c => ?_
  rw [hw.index hb, M.bind_ok (M.lift_ok _ _)]

theorem createScalar_ok {dt : DType} {v : Val F} (hv : v.HasType dt) (h : Heap F) :
    ∃ h', Tensor.createScalar dt v h = .ok h.ts.length h' ∧ Built h h' h.ts.length dt [] (fun _ => v) none ∧
      h'.ts.length = h.ts.length + 1 ∧ h'.st.length = h.st.length + 1 := by
  have hsz : vol [] * dt.size < 9223372036854775808 := by cases dt <;> decide
  unfold Tensor.createScalar
  rw [M.bind_ok (create_ok hsz h), M.bind_ok (getT_ok (alloc_getT h dt []))]
  have hst := store_ok (F := F) (v := v) (p := 0) (i := newImpl dt [] h.st.length) (alloc_getS h dt []) rfl rfl
    (by simp [vol])
  rw [M.bind_ok hst]
  refine ⟨_, rfl, built_new (Extends.refl h) rfl ?_, by simp [Heap.alloc], by simp [Heap.alloc, Heap.setCells]⟩
  refine ⟨rfl, by show 0 < _; decide, ⟨_, _, Heap.setCells_st_self (alloc_getS h dt []) _, rfl, rfl, ?_, ?_⟩, fun _ _ => hv⟩
  · simp [vol]
  · intro idx hb
    have : idx = [] := by
      cases idx with
      | nil => rfl
      | cons a l => exact absurd hb (by simp [newImpl, Layout.contig, InBox])
    subst this
    exact ⟨0, rfl, by simp [vol]⟩

theorem zeroS_alloc (H : Heap F) (dt : DType) (s : List Nat) :
    zeroS H.st.length (H.alloc dt s) =
      .ok () ((H.alloc dt s).setCells H.st.length (List.replicate (vol s) (some (zeroElem dt)))) := by
  unfold zeroS
  rw [M.bind_ok (getS_ok (alloc_getS H dt s))]
  simp only [setS, List.map_replicate, zeroVal_eq]
  congr 1
  unfold Heap.setCells
  congr 1
  apply List.ext_getElem?
  intro e
  rw [List.getElem?_modify, List.getElem?_set]
  by_cases he : H.st.length = e
  · subst he
    simp [Heap.alloc]
  · simp [he]

theorem reads_const {H : Heap F} {dt : DType} {s : List Nat} {v : Val F} (hsz : vol s * dt.size < 9223372036854775808)
    (hv : v.HasType dt) :
    Reads ((H.alloc dt s).setCells H.st.length (List.replicate (vol s) (some v))) (newImpl dt s H.st.length) fun _ => v := by
  have hw := slots_alloc hsz H
  refine ⟨hw.strides, hw.offset, ⟨_, _, Heap.setCells_st_self (alloc_getS H dt s) _, rfl, rfl, ?_, ?_⟩, fun _ _ => hv⟩
  · simpa using vol_lt_of_bytes hsz
  · intro idx hb
    obtain ⟨s', cells, h1, _, h3, _, h5⟩ := hw.cells
    rw [show (newImpl dt s H.st.length).data = H.st.length from rfl, alloc_getS] at h1
    obtain rfl := Option.some.inj h1
    obtain ⟨p, hp, hlt⟩ := h5 idx hb
    refine ⟨p, hp, ?_⟩
    obtain rfl := Option.some.inj h3
    simp only [List.length_replicate] at hlt
    simp [hlt]

theorem zeros_ok {dt : DType} {s : List Nat} (hsz : vol s * dt.size < 9223372036854775808) (h : Heap F) :
    ∃ h', Tensor.zeros s dt h = .ok h.ts.length h' ∧ Built h h' h.ts.length dt s (fun _ => zeroElem dt) none ∧
      h' = (h.alloc dt s).setCells h.st.length (List.replicate (vol s) (some (zeroElem dt))) := by
  unfold Tensor.zeros
  rw [M.bind_ok (create_ok hsz h), M.bind_ok (getT_ok (alloc_getT h dt s))]
  rw [show (newImpl dt s h.st.length).data = h.st.length from rfl, M.bind_ok (zeroS_alloc h dt s)]
  exact ⟨_, rfl, built_new (Extends.refl h) rfl (reads_const hsz (zeroElem_hasType dt)), rfl⟩

/-- `full` and `ones`: fill with a converted number. -/
theorem fillNew_ok {nt dt : DType} {v w : Val F} {s : List Nat} (hv : v.HasType nt) (hc : convert nt dt v = some w)
    (hsz : vol s * dt.size < 9223372036854775808) (h : Heap F) :
    ∃ h' t, (do
      let one ← Tensor.createScalar nt v
      let ret ← create dt (Layout.contig s) true
      tensorFill dt nt (← getT ret) (← getT one)
      return ret : M F Nat) h = .ok t h' ∧ Built h h' t dt s (fun _ => w) none := by
  obtain ⟨h1, e1, b1, l1, l2⟩ := createScalar_ok hv h
  rw [M.bind_ok e1, M.bind_ok (create_ok hsz h1), M.bind_ok (getT_ok (alloc_getT h1 dt s))]
  obtain ⟨d, hd, hdl⟩ := b1.obj
  have hd' := (extends_alloc h1 dt s).ts _ _ hd
  rw [M.bind_ok (getT_ok hd')]
  obtain ⟨i, hi, hi1, hi2, hr⟩ := b1.denotes
  rw [hd] at hi
  obtain rfl := Option.some.inj hi
  obtain ⟨c', e2, r2⟩ := fill_ok (dst := newImpl dt s h1.st.length) (slots_alloc hsz h1)
    (hr.of_extends (extends_alloc h1 dt s)) rfl rfl (w := w)
    (cConv_of_convert hv hc) (convert_hasType hc)
  have e2' : tensorFill dt nt (newImpl dt s h1.st.length) _ (h1.alloc dt s) = .ok () _ := e2
  rw [M.bind_ok e2']
  exact ⟨_, _, rfl, built_new b1.ext b1.gver r2⟩

theorem clone_ok {h : Heap F} {t : Nat} {dt : DType} {s : List Nat} {f : List Nat → Val F} (hd : Denotes h t dt s f)
    (hsz : vol s * dt.size < 9223372036854775808) :
    ∃ h' i, h.ts[t]? = some i ∧ Tensor.clone t h = .ok h.ts.length h' ∧
      Built h h' h.ts.length dt s f (if i.requiresGrad then some ⟨.clone, [t], 0, 0, 0⟩ else none) := by
  obtain ⟨i, hi, rfl, rfl, hr⟩ := hd
  unfold Tensor.clone
  rw [M.bind_ok (getT_ok hi), M.bind_ok (create_ok hsz h), M.bind_ok (getT_ok (alloc_getT h _ _))]
  obtain ⟨c', e2, r2⟩ := copyLoop_ok (dst := newImpl i.dtype i.view.sizes h.st.length) (g := f) (slots_alloc hsz h)
    (hr.of_extends (extends_alloc h i.dtype i.view.sizes)) (by have := hr.data_lt; show i.data ≠ h.st.length; omega) rfl
    (fun idx hb => by simp [cConv, newImpl]) (fun idx hb => hr.typed idx hb)
  rw [show tensorClone (F := F) i.dtype i.dtype = copyLoop i.dtype i.dtype from rfl]
  rw [show copyLoop (F := F) i.dtype i.dtype (newImpl i.dtype i.view.sizes h.st.length) i =
    copyLoop (newImpl i.dtype i.view.sizes h.st.length).dtype i.dtype (newImpl i.dtype i.view.sizes h.st.length) i from rfl,
    M.bind_ok e2]
  have hb := built_new (Extends.refl h) rfl r2
  cases hg : i.requiresGrad with
  | false => exact ⟨_, i, hi, rfl, by simp only [hg]; exact hb⟩
  | true =>
    obtain ⟨h'', e3, b3, _⟩ := hb.setGradFn .clone [t]
    refine ⟨h'', i, hi, ?_, by simp only [hg]; exact b3⟩
    simp only [Bool.not_true]
    rw [if_neg (by simp)]
    exact (M.bind_ok e3)

theorem toType_ok {h : Heap F} {t : Nat} {i : Impl} {dt : DType} {f g : List Nat → Val F} (hi : h.ts[t]? = some i)
    (hr : Reads h i f) (hne : dt ≠ i.dtype) (hgrad : ¬ (i.requiresGrad = true ∧ isInteger dt = true))
    (hsz : vol i.view.sizes * dt.size < 9223372036854775808)
    (hg : ∀ idx, InBox i.view.sizes idx → convert i.dtype dt (f idx) = some (g idx)) :
    ∃ h', Tensor.toType t dt h = .ok h.ts.length h' ∧
      Built h h' h.ts.length dt i.view.sizes g (if i.requiresGrad then some ⟨.clone, [t], 0, 0, 0⟩ else none) := by
  unfold Tensor.toType
  rw [M.bind_ok (getT_ok hi)]
  rw [if_neg (by simp [isInt_eq]; simpa using hgrad), if_neg hne]
  rw [M.bind_ok (create_ok hsz h), M.bind_ok (getT_ok (alloc_getT h _ _))]
  obtain ⟨c', e2, r2⟩ := copyLoop_ok (dst := newImpl dt i.view.sizes h.st.length) (g := g) (slots_alloc hsz h)
    (hr.of_extends (extends_alloc h dt i.view.sizes)) (by have := hr.data_lt; show i.data ≠ h.st.length; omega) rfl
    (fun idx hb => cConv_of_convert (hr.typed idx hb) (hg idx hb)) (fun idx hb => convert_hasType (hg idx hb))
  rw [show tensorToType (F := F) dt i.dtype (newImpl dt i.view.sizes h.st.length) i =
    copyLoop (newImpl dt i.view.sizes h.st.length).dtype i.dtype (newImpl dt i.view.sizes h.st.length) i from rfl,
    M.bind_ok e2]
  have hb := built_new (Extends.refl h) rfl r2
  cases hg : i.requiresGrad with
  | false => exact ⟨_, rfl, hb⟩
  | true =>
    obtain ⟨h'', e3, b3, _⟩ := hb.setGradFn .clone [t]
    refine ⟨h'', ?_, b3⟩
    simp only [Bool.not_true]
    rw [if_neg (by simp)]
    exact (M.bind_ok e3)

theorem cmp_ok {op : COp} {h : Heap F} {l r : Nat} {dl dr : DType} {sl sr s : List Nat} {fl fr : List Nat → Val F}
    (hl : Denotes h l dl sl fl) (hr : Denotes h r dr sr fr) (hs : bshape sl sr = some s) (hst : ¬ stretched sl sr)
    (hsize : vol s * DType.i8.size < 9223372036854775808) :
    ∃ h', Tensor.cmp op l r h = .ok h.ts.length h' ∧ Built h h' h.ts.length .i8 s (fun idx =>
      .i (if elemCompare op dl dr (fl (project sl idx)) (fr (project sr idx)) then 1 else 0)) none := by
  obtain ⟨li, hli, rfl, rfl, hlr⟩ := hl
  obtain ⟨ri, hri, rfl, rfl, hrr⟩ := hr
  have hbr := broadcastRange_eq hs hst
  have hext := extends_alloc h .i8 s
  have hb1 : ∀ idx, InBox s idx → Reaches li idx := fun idx hb =>
    ⟨by rw [hb.length]; exact bshape_length_left hs, project_inBox_left hs hb⟩
  have hb2 : ∀ idx, InBox s idx → Reaches ri idx := fun idx hb =>
    ⟨by rw [hb.length]; exact bshape_length_right hs, project_inBox_right hs hb⟩
  unfold Tensor.cmp
  rw [M.bind_ok (getT_ok hli), M.bind_ok (getT_ok hri), hbr, M.bind_ok (M.lift_ok _ _),
    M.bind_ok (create_ok hsize h), M.bind_ok (getT_ok (alloc_getT h _ _))]
  obtain ⟨c', e2, r2⟩ := zipLoop_ok (S := .i8) (f := cmpVal op li.dtype ri.dtype)
    (g := fun idx => .i (if elemCompare op li.dtype ri.dtype (fl (project li.view.sizes idx))
      (fr (project ri.view.sizes idx)) then 1 else 0)) (slots_alloc hsize h) rfl rfl
    (hlr.of_extends hext) (hrr.of_extends hext) rfl rfl (by have := hlr.data_lt; show li.data ≠ h.st.length; omega)
    (by have := hrr.data_lt; show ri.data ≠ h.st.length; omega) hb1 hb2 (fun idx hb => by
      constructor
      · unfold cmpVal
        rw [cmp_eq op (hlr.typed _ (hb1 idx hb).2) (hrr.typed _ (hb2 idx hb).2)]
        simp [cConv, newImpl]
      · show Val.HasType DType.i8 _
        split <;> (rw [hasType_i]; decide))
  have e2' : tensorCmp op li.dtype ri.dtype (newImpl .i8 s h.st.length) li ri (h.alloc .i8 s) = .ok () _ := e2
  rw [M.bind_ok e2']
  exact ⟨_, rfl, built_new (Extends.refl h) rfl r2⟩

/-- Assignments to some positions of a storage, one after the other. -/
theorem eyeGo_ok {dt : DType} {n m : Nat} (hsz : vol [n, m] * dt.size < 9223372036854775808) (H : Heap F)
    {one : Val F} (hone : convert .i32 dt (.i 1 : Val F) = some one) : ∀ (l : List Nat) (c : List (Option (Val F))),
    (∀ i ∈ l, i < n ∧ i < m) → c.length = vol [n, m] →
    eyeGo dt (newImpl dt [n, m] H.st.length) l ((H.alloc dt [n, m]).setCells H.st.length c) =
      .ok () ((H.alloc dt [n, m]).setCells H.st.length
        (l.foldl (fun c i => c.modify (rank [n, m] [i, i]) fun _ => some one) c)) := by
  have hw := slots_alloc hsz H
  intro l
  induction l with
  | nil => intro c _ _; rfl
  | cons i l ih =>
    intro c hl hc
    have hi := hl i (by simp)
    have hbox : InBox [n, m] [i, i] := ⟨hi.1, hi.2, trivial⟩
    have hcv : cConv .i32 dt (.i 1 : Val F) = .ok one :=
      cConv_of_convert (by rw [hasType_i]; decide) hone
    have hpos : cntFromIndex (newImpl dt [n, m] H.st.length).view [i, i] = .ok (rank [n, m] [i, i]) := by
      rw [hw.index hbox, (hw.wrap hbox).1,
        show (newImpl dt [n, m] H.st.length).view = Layout.contig [n, m] from rfl,
        contig_position (vol_lt_of_bytes hsz) hbox]; simp
    rw [eyeGo, hcv, M.bind_ok (M.lift_ok _ _), hpos, M.bind_ok (M.lift_ok _ _)]
    have hst := store_ok (F := F) (v := one) (i := newImpl dt [n, m] H.st.length) (p := rank [n, m] [i, i])
      (Heap.setCells_st_self (alloc_getS H dt [n, m]) c) rfl rfl (by rw [hc]; exact rank_lt hbox)
    rw [M.bind_ok hst]
    rw [show (newImpl dt [n, m] H.st.length).data = H.st.length from rfl, Heap.setCells_setCells, set_eq_modify]
    rw [ih _ (fun j hj => hl j (by simp [hj])) (by simpa using hc)]
    rfl

theorem eye_ok {dt : DType} {n m : Nat} (hsz : vol [n, m] * dt.size < 9223372036854775808) (h : Heap F)
    {one : Val F} (hone : convert .i32 dt (.i 1 : Val F) = some one) :
    ∃ h', Tensor.eye n m dt h = .ok h.ts.length h' ∧
      Built h h' h.ts.length dt [n, m] (fun idx => if idx.getD 0 0 = idx.getD 1 0 then one else zeroElem dt) none := by
  have hw := slots_alloc hsz h
  unfold Tensor.eye
  rw [M.bind_ok (create_ok hsz h), M.bind_ok (getT_ok (alloc_getT h dt _))]
  rw [show (newImpl dt [n, m] h.st.length).data = h.st.length from rfl, M.bind_ok (zeroS_alloc h dt _)]
  have e : tensorEye dt (newImpl dt [n, m] h.st.length) ((h.alloc dt [n, m]).setCells h.st.length
      (List.replicate (vol [n, m]) (some (zeroElem dt)))) = _ :=
    eyeGo_ok hsz h hone (List.range (min n m)) _ (fun i hi => by simp at hi; omega) (by simp)
  rw [M.bind_ok e]
  refine ⟨_, rfl, built_new (Extends.refl h) rfl ?_⟩
  refine ⟨hw.strides, hw.offset, ⟨_, _, Heap.setCells_st_self (alloc_getS h dt _) _, rfl, rfl, ?_, ?_⟩, ?_⟩
  · rw [foldl_modify_length]; simpa using vol_lt_of_bytes hsz
  · intro idx hb
    refine ⟨rank [n, m] idx, contig_position (vol_lt_of_bytes hsz) hb, ?_⟩
    have hb' : InBox [n, m] idx := hb
    match idx, hb' with
    | [a, b], hb' =>
      by_cases hab : a = b
      · subst hab
        rw [foldl_modify_at (fun i => rank [n, m] [i, i]) (fun _ _ => some one) (List.nodup_range) ?_ (x := a) ?_]
        · have := rank_lt hb'
          simp [this]
        · intro x hx y hy hxy
          simp at hx hy
          have := rank_inj (sizes := [n, m]) (idx := [x, x]) (idx' := [y, y]) ⟨by omega, by omega, trivial⟩
            ⟨by omega, by omega, trivial⟩ hxy
          simpa using this
        · have h1 := hb'.1; have h2 := hb'.2.1
          simp; omega
      · rw [foldl_modify_ne]
        · have := rank_lt hb'
          simp [this, hab]
        · intro x hx hxy
          simp at hx
          have := rank_inj (sizes := [n, m]) (idx := [x, x]) (idx' := [a, b]) ⟨by omega, by omega, trivial⟩ hb' hxy
          simp at this
          omega
  · intro idx hb
    show Val.HasType dt _
    split
    · exact convert_hasType hone
    · exact zeroElem_hasType dt

theorem blobGo_ok {dt : DType} {s : List Nat} (H : Heap F) : ∀ (l : List (Val F)) (k : Nat)
    (c : List (Option (Val F))), c.length = vol s → k + l.length ≤ vol s →
    Tensor.blobGo dt (newImpl dt s H.st.length) k l ((H.alloc dt s).setCells H.st.length c) =
      .ok () ((H.alloc dt s).setCells H.st.length (c.take k ++ l.map some ++ c.drop (k + l.length))) := by
  intro l
  induction l with
  | nil => intro k c hc hk; simp [Tensor.blobGo]
  | cons v l ih =>
    intro k c hc hk
    simp only [List.length_cons] at hk
    have hst := store_ok (F := F) (v := v) (i := newImpl dt s H.st.length) (p := k)
      (Heap.setCells_st_self (alloc_getS H dt s) c) rfl rfl (by rw [hc]; omega)
    rw [Tensor.blobGo]
    have hst' : store dt (newImpl dt s H.st.length) k v ((H.alloc dt s).setCells H.st.length c) = .ok () _ := hst
    rw [M.bind_ok hst']
    rw [show (newImpl dt s H.st.length).data = H.st.length from rfl, Heap.setCells_setCells]
    rw [ih (k + 1) _ (by simpa using hc) (by omega)]
    congr 2
    apply List.ext_getElem?
    intro e
    simp only [List.getElem?_append, List.length_append, List.length_take, List.length_set, List.length_map,
      List.getElem?_take, List.getElem?_drop, List.getElem?_set, List.getElem?_map, List.length_cons, List.map_cons]
    rw [hc, Nat.min_eq_left (by omega), Nat.min_eq_left (by omega)]
    by_cases h1 : e < k
    · simp [h1, show e < k + 1 by omega, show e < k + 1 + l.length by omega, show e < k + (l.length + 1) by omega,
        show ¬ k = e by omega]
    · by_cases h2 : e = k
      · subst h2
        simp [show e < vol s by omega, show e < e + 1 + l.length by omega]
      · by_cases h3 : e < k + 1 + l.length
        · rw [if_pos h3, if_neg (by omega), if_pos (by omega), if_neg (by omega)]
          obtain ⟨q, rfl⟩ : ∃ q, e = k + 1 + q := ⟨e - k - 1, by omega⟩
          rw [show k + 1 + q - (k + 1) = q by omega, show k + 1 + q - k = q + 1 by omega]; simp
        · rw [if_neg h3, if_neg (by omega)]
          rw [if_neg (by omega)]
          congr 1; omega

theorem fromBlob_ok {dt : DType} {s : List Nat} {data : List (Val F)} (hsz : vol s * dt.size < 9223372036854775808)
    (h : Heap F) (hlen : vol s ≤ data.length) (hty : ∀ v ∈ data, v.HasType dt) (g : List Nat → Val F)
    (hg : ∀ idx, InBox s idx → data[rank s idx]? = some (g idx)) :
    ∃ h', Tensor.fromBlob data s dt h = .ok h.ts.length h' ∧ Built h h' h.ts.length dt s g none := by
  have hw := slots_alloc hsz h
  have hv := vol_lt_of_bytes hsz
  have hn : wrapU ((numel s : Int) * dt.size) / dt.size = vol s := by
    rw [numel_eq_vol (by omega), ← Int.natCast_mul, wrapU_natCast (by omega)]
    exact Nat.mul_div_cancel _ dt.size_pos
  unfold Tensor.fromBlob
  rw [M.bind_ok (create_ok hsz h), M.bind_ok (getT_ok (alloc_getT h dt _))]
  simp only [hn]
  rw [if_neg (by omega)]
  have hself : (h.alloc dt s).setCells h.st.length (List.replicate (vol s) none) = h.alloc dt s :=
    Heap.setCells_eq_self (alloc_getS h dt s) rfl
  have e := blobGo_ok (dt := dt) (s := s) h (data.take (vol s)) 0 (List.replicate (vol s) none) (by simp) (by simp)
  rw [hself] at e
  rw [M.bind_ok e]
  refine ⟨_, rfl, built_new (Extends.refl h) rfl ?_⟩
  refine ⟨hw.strides, hw.offset, ⟨_, _, Heap.setCells_st_self (alloc_getS h dt _) _, rfl, rfl, ?_, ?_⟩, ?_⟩
  · simp; omega
  · intro idx hb
    have hr := rank_lt (sizes := s) hb
    refine ⟨rank s idx, contig_position hv hb, ?_⟩
    have := hg idx hb
    rw [List.take_zero, List.nil_append, List.getElem?_append_left (by simp; omega), List.getElem?_map,
      List.getElem?_take, if_pos hr, this]
    rfl
  · intro idx hb
    exact hty _ (List.mem_of_getElem? (hg idx hb))

end
section
variable [FOps F]
open Tensor
theorem convert_one (s t : DType) (hs : s = .i8 ∨ s = .i32) : convert s t (.i 1 : Val F) = some (oneElem t) := by
  rcases hs with rfl | rfl <;> cases t <;> rfl

theorem randGo_eq {i : Impl} (hi : i.dtype = .f32) (size : Nat) : ∀ (l : List F) (k : Nat),
    4 * (k + l.length) ≤ size → randGo i 4 size k l = blobGo .f32 i k (l.map .f)
  | [], _, _ => rfl
  | x :: l, k, hk => by
    have hk : 4 * (k + (l.length + 1)) ≤ size := by simpa using hk
    unfold randGo
    rw [if_neg (by omega), if_neg (by rw [hi]; decide), List.map_cons]
    unfold blobGo
    rw [hi, randGo_eq hi size l (k + 1) (by omega)]

theorem randn_ok {sizes : List Nat} (hsz : vol sizes * DType.f32.size < 9223372036854775808) (rnd : Nat → F) (h : Heap F) :
    ∃ h', randn rnd sizes .f32 h = .ok h.ts.length h' ∧
      Built h h' h.ts.length .f32 sizes (fun idx => .f (rnd (rank sizes idx))) none := by
  have hv := vol_lt_of_bytes hsz
  have key := fromBlob_ok (F := F) (dt := .f32) (s := sizes) (data := (List.range (vol sizes)).map fun k => .f (rnd k)) hsz h
    (by simp) (by intro v hv; obtain ⟨k, _, rfl⟩ := List.mem_map.1 hv; rfl) (fun idx => .f (rnd (rank sizes idx)))
    (fun idx hb => by rw [List.getElem?_map, List.getElem?_range (rank_lt hb)]; rfl)
  obtain ⟨h', e, b⟩ := key
  refine ⟨h', Eq.trans ?_ e, b⟩
  unfold randn fromBlob
  show ((create .f32 (Layout.contig sizes) true >>= _ : M F Nat) h) = _
  rw [M.bind_ok (create_ok hsz h), M.bind_ok (create_ok hsz h), M.bind_ok (getT_ok (alloc_getT h _ _)),
    M.bind_ok (getT_ok (alloc_getT h _ _))]
  have hn : wrapU ((numel sizes : Int) * DType.f32.size) / DType.f32.size = vol sizes := by
    rw [numel_eq_vol (by omega), ← Int.natCast_mul, wrapU_natCast (by omega)]
    exact Nat.mul_div_cancel _ (DType.size_pos _)
  simp only [hn]
  rw [if_pos trivial, if_neg (by simp), List.take_of_length_le (by simp)]
  have hS : (getS (h.st.length) : M F _) (h.alloc .f32 sizes) = _ := getS_ok (alloc_getS h .f32 sizes)
  rw [show (newImpl DType.f32 sizes h.st.length).data = h.st.length from rfl, M.bind_ok hS]
  rw [randGo_eq rfl _ _ _ ?_, List.map_map, numel_eq_vol (by omega)]
  · rfl
  · simp [numel_eq_vol (show vol sizes < _ by omega), DType.size, Nat.mul_comm]
end

end INNC
