import Verif.Lemmas.Extreme
/-
Absolute values.
-/
namespace INNC
open Spec
variable {F : Type} [FOps F]

/-! ### Loops that assign to two tensors -/

theorem reads_fold {h : Heap F} {dst : Impl} (hw : Slots h dst) {s : Storage F} {cells : List (Option (Val F))}
    (hs : h.st[dst.data]? = some s) (hb : s.blob = some cells)
    (v : List Nat → Val F) (hv : ∀ idx, InBox dst.view.sizes idx → (v idx).HasType dst.dtype) :
    Reads (h.setCells dst.data ((rowMajor dst.view.sizes).foldl
      (fun c idx => c.modify (position dst.view idx).toNat (fun _ => some (v idx))) cells)) dst v := by
  obtain ⟨s', cells', hs', hd, hb', hlen, hc⟩ := hw.cells
  rw [hs] at hs'
  obtain rfl := Option.some.inj hs'
  rw [hb] at hb'
  obtain rfl := Option.some.inj hb'
  refine ⟨hw.strides, hw.offset, ⟨_, _, Heap.setCells_st_self hs _, hd, rfl, ?_, ?_⟩, hv⟩
  · rw [foldl_modify_length (fun idx => (position dst.view idx).toNat) (fun idx _ => some (v idx))]; exact hlen
  · intro idx hi
    have hwi := hw.wrap hi
    refine ⟨(position dst.view idx).toNat, by omega, ?_⟩
    rw [foldl_modify_at (fun idx => (position dst.view idx).toNat) (fun idx _ => some (v idx)) (nodup_rowMajor _) ?_
      (mem_rowMajor.2 hi)]
    · obtain ⟨q, hq, hql⟩ := hc idx hi
      rw [hq, Int.toNat_natCast, List.getElem?_eq_getElem hql]; rfl
    · intro a ha b hb hab
      have h1 := hw.wrap (mem_rowMajor.1 ha)
      have h2 := hw.wrap (mem_rowMajor.1 hb)
      apply hw.inj a b (mem_rowMajor.1 ha) (mem_rowMajor.1 hb)
      omega

theorem Heap.setCells_comm (h : Heap F) {d e : Nat} (hne : d ≠ e) (c c' : List (Option (Val F))) :
    (h.setCells d c).setCells e c' = (h.setCells e c').setCells d c := by
  unfold Heap.setCells
  congr 1
  exact List.modify_modify_ne _ _ _ hne

theorem assign2_ok {H : Heap F} {g dst : Impl} (hg : Slots H g) (hw : Slots H dst) (hne : g.data ≠ dst.data)
    (hsz : g.view.sizes = dst.view.sizes) (op : List Nat → M F Unit)
    (u v : List Nat → Val F) (hu : ∀ idx, InBox dst.view.sizes idx → (u idx).HasType g.dtype)
    (hv : ∀ idx, InBox dst.view.sizes idx → (v idx).HasType dst.dtype)
    (hop : ∀ idx, InBox dst.view.sizes idx → ∀ c c',
      op idx ((H.setCells g.data c).setCells dst.data c') =
        (do
          store g.dtype g (wrapU (g.view.pos idx)) (u idx)
          store dst.dtype dst (wrapU (dst.view.pos idx)) (v idx) : M F Unit) ((H.setCells g.data c).setCells dst.data c')) :
    ∃ c c', forEach dst.view.sizes op H = .ok () ((H.setCells g.data c).setCells dst.data c') ∧
      Reads ((H.setCells g.data c).setCells dst.data c') g u ∧
      Reads ((H.setCells g.data c).setCells dst.data c') dst v := by
  obtain ⟨s, cells, hs, hd, hb, hlen, hc⟩ := hw.cells
  obtain ⟨sg, cellsg, hsg, hdg, hbg, hleng, hcg⟩ := hg.cells
  have key : ∀ (l : List (List Nat)) (c c' : List (Option (Val F))), (∀ x ∈ l, InBox dst.view.sizes x) →
      c.length = cellsg.length → c'.length = cells.length →
      runAll op l ((H.setCells g.data c).setCells dst.data c') = .ok ()
        ((H.setCells g.data (l.foldl (fun c idx => c.modify (position g.view idx).toNat (fun _ => some (u idx))) c)).setCells
          dst.data (l.foldl (fun c idx => c.modify (position dst.view idx).toNat (fun _ => some (v idx))) c')) := by
    intro l
    induction l with
    | nil => intro c c' _ _ _; rfl
    | cons x l ih =>
      intro c c' hin hl hl'
      have hx := hin x (by simp)
      have hxg : InBox g.view.sizes x := by rw [hsz]; exact hx
      have e1 : store g.dtype g (wrapU (g.view.pos x)) (u x) ((H.setCells g.data c).setCells dst.data c') =
          .ok () ((H.setCells g.data (c.modify (position g.view x).toNat (fun _ => some (u x)))).setCells dst.data c') := by
        have : ((H.setCells g.data c).setCells dst.data c').st[g.data]? = some ⟨sg.dt, sg.size, some c⟩ := by
          rw [Heap.setCells_st_ne _ hne]; exact Heap.setCells_st_self hsg c
        rw [(hg.wrap hxg).1]
        obtain ⟨q, hq, hql⟩ := hcg x hxg
        rw [store_ok this hdg rfl (by rw [hq]; simpa [hl] using hql)]
        rw [Heap.setCells_comm _ (fun hc => hne hc.symm), Heap.setCells_setCells, set_eq_modify]
      have e2 : store dst.dtype dst (wrapU (dst.view.pos x)) (v x)
          ((H.setCells g.data (c.modify (position g.view x).toNat (fun _ => some (u x)))).setCells dst.data c') =
          .ok () ((H.setCells g.data (c.modify (position g.view x).toNat (fun _ => some (u x)))).setCells dst.data
            (c'.modify (position dst.view x).toNat (fun _ => some (v x)))) := by
        have : ((H.setCells g.data (c.modify (position g.view x).toNat (fun _ => some (u x)))).setCells dst.data c').st[dst.data]? =
            some ⟨s.dt, s.size, some c'⟩ := by
          refine Heap.setCells_st_self (s := s) ?_ c'
          rw [Heap.setCells_st_ne _ (fun hc => hne hc.symm)]; exact hs
        rw [(hw.wrap hx).1]
        obtain ⟨q, hq, hql⟩ := hc x hx
        rw [store_ok this hd rfl (by rw [hq]; simpa [hl'] using hql)]
        rw [Heap.setCells_setCells, set_eq_modify]
      rw [runAll, M.bind_ok ((hop x hx c c').trans (by rw [M.bind_ok e1]; exact e2))]
      exact ih _ _ (fun y hy => hin y (by simp [hy])) (by simpa using hl) (by simpa using hl')
  have h0 : (H.setCells g.data cellsg).setCells dst.data cells = H := by
    rw [Heap.setCells_eq_self hsg hbg, Heap.setCells_eq_self hs hb]
  have hrun := key (rowMajor dst.view.sizes) cellsg cells (fun x hx => mem_rowMajor.1 hx) rfl rfl
  rw [h0] at hrun
  refine ⟨_, _, by rw [forEach_eq]; exact hrun, ?_, ?_⟩
  · have := reads_fold hg hsg hbg u (by rw [hsz]; exact hu)
    rw [hsz] at this
    exact this.setCells_ne hne _
  · have := reads_fold hw hs hb v hv
    rw [Heap.setCells_comm _ hne]
    exact this.setCells_ne (fun hc => hne hc.symm) _

/-! ### A tensor with a given layout -/

/-- The heap after creating a tensor with the layout `v` on a new storage of as many elements as `v` has. -/
def Heap.allocView (h : Heap F) (dt : DType) (v : Layout) : Heap F :=
  { h with
    st := h.st ++ [⟨dt, dt.size * vol v.sizes, some (List.replicate (vol v.sizes) none)⟩]
    ts := h.ts ++ [⟨dt, v, h.st.length, none, false, false, none⟩] }

theorem create_view {dt : DType} {v : Layout} (hv : vol v.sizes * dt.size < 9223372036854775808) (h : Heap F) :
    create dt v true h = .ok h.ts.length (h.allocView dt v) := by
  have hv' := vol_lt_of_bytes hv
  have hn : numel v.sizes = vol v.sizes := numel_eq_vol (by omega)
  have hw : wrapU ((dt.size : Int) * (numel v.sizes : Int)) = dt.size * vol v.sizes := by
    rw [hn, ← Int.natCast_mul, wrapU_natCast (by rw [Nat.mul_comm]; omega)]
  have hm : dt.size * vol v.sizes < maxAlloc := by unfold maxAlloc; rw [Nat.mul_comm]; exact hv
  unfold create
  simp only [hw, mkStorage, if_true, hm]
  rw [M.bind_ok (x := newS _) (a := h.st.length) (h' := { h with st := h.st ++ [⟨dt, dt.size * vol v.sizes,
    some (freshBlob dt (dt.size * vol v.sizes))⟩] }) rfl]
  simp only [createOn, newT, Heap.allocView, freshBlob, Nat.mul_div_cancel_left _ dt.size_pos]

theorem allocView_getT (h : Heap F) (dt : DType) (v : Layout) :
    (h.allocView dt v).ts[h.ts.length]? = some ⟨dt, v, h.st.length, none, false, false, none⟩ := by
  simp [Heap.allocView]

theorem allocView_getS (h : Heap F) (dt : DType) (v : Layout) :
    (h.allocView dt v).st[h.st.length]? =
      some ⟨dt, dt.size * vol v.sizes, some (List.replicate (vol v.sizes) none)⟩ := by
  simp [Heap.allocView]

theorem extends_allocView (h : Heap F) (dt : DType) (v : Layout) : Extends h (h.allocView dt v) where
  ts := fun t i hi => by
    simp only [Heap.allocView]; rw [List.getElem?_append_left (getElem?_lt hi)]; exact hi
  st := fun t i hi => by
    simp only [Heap.allocView]; rw [List.getElem?_append_left (getElem?_lt hi)]; exact hi

theorem slots_allocView {dt : DType} {v : Layout} (hd : Dense v) (hv : vol v.sizes * dt.size < 9223372036854775808)
    (h : Heap F) : Slots (h.allocView dt v) ⟨dt, v, h.st.length, none, false, false, none⟩ where
  strides := hd.strides
  offset := hd.offset
  cells := by
    have hv' := vol_lt_of_bytes hv
    refine ⟨_, _, allocView_getS h dt v, rfl, rfl, by simpa using hv', fun idx hb => ?_⟩
    obtain ⟨h1, h2⟩ := hd.inside idx hb
    exact ⟨(position v idx).toNat, by show position v idx = _; omega, by simp; omega⟩
  inj := hd.inj

/-! ### Single elements -/

theorem arith_self_int {t : DType} (ht : isInteger t = true) : width (DType.arith t t) = max 32 (width t) ∧
    isInteger (DType.arith t t) = true := by
  cases t <;> simp [isInteger] at ht <;> exact ⟨rfl, rfl⟩

theorem arith_self_float {t : DType} (ht : isInteger t = false) : DType.arith t t = t := by
  cases t <;> simp [isInteger] at ht <;> rfl

theorem nonneg_eq {t : DType} {v : Val F} (hv : v.HasType t) : cCmp .ge t .i32 v (.i 0) = .ok (nonneg t v) := by
  rw [cmp_eq .ge hv (hasType_i.2 ⟨rfl, by decide⟩)]
  congr 1
  cases v with
  | i n => rfl
  | f x =>
    rw [hasType_f] at hv
    cases t <;> simp [isInteger] at hv <;> rfl

theorem absVal_ok {t : DType} {v z : Val F} (hv : v.HasType t) (h : elemAbs t v = some z) :
    absVal t t v = .ok z ∧ absValGrad t t v = .ok z ∧ z.HasType t := by
  unfold absVal absValGrad
  rw [nonneg_eq hv, Res.ok_bind, Res.ok_bind]
  unfold elemAbs at h
  cases hn : nonneg t v with
  | true =>
    rw [hn, if_pos rfl] at h
    obtain rfl := Option.some.inj h
    refine ⟨?_, cConv_of_convert hv (convert_self hv), hv⟩
    simp only [if_true]
    cases v with
    | i n =>
      rw [hasType_i] at hv
      have hr : InRange (width (DType.arith t t)) n := by
        rw [(arith_self_int hv.1).1]; exact inRange_mono (by omega) hv.2
      rw [cConv_int hv.1 (arith_self_int hv.1).2 hv.2 (by rw [(arith_self_int hv.1).1]; omega), Res.ok_bind]
      refine cConv_of_convert (hasType_i.2 ⟨(arith_self_int hv.1).2, hr⟩) ?_
      unfold convert
      rw [if_pos hv.1]
      simp only
      rw [reduce_self (width_pos _) hv.2]
    | f x =>
      rw [hasType_f] at hv
      rw [arith_self_float hv]
      simp [cConv]
  | false =>
    rw [hn, if_neg (by simp)] at h
    simp only [Bool.false_eq_true, if_false]
    cases v with
    | i n =>
      rw [hasType_i] at hv
      simp only at h
      by_cases hr : InRange (max 32 (width t)) (-n)
      · rw [if_pos hr] at h
        obtain rfl := Option.some.inj h
        have hr' : InRange (width (DType.arith t t)) (-n) := by rw [(arith_self_int hv.1).1]; exact hr
        have hneg : cNeg t (.i n : Val F) = .ok (.i (-n)) := by
          simp only [cNeg, fitsInt_iff.2 hr', if_true]
        have hcv : cConv (DType.arith t t) t (.i (-n) : Val F) = .ok (.i (reduce (width t) (-n))) := by
          refine cConv_of_convert (hasType_i.2 ⟨(arith_self_int hv.1).2, hr'⟩) ?_
          unfold convert
          rw [if_pos hv.1]
        rw [hneg, Res.ok_bind, hcv]
        exact ⟨rfl, rfl, hasType_i.2 ⟨hv.1, reduce_inRange (width_pos _) _⟩⟩
      · rw [if_neg hr] at h; simp at h
    | f x =>
      rw [hasType_f] at hv
      obtain rfl := Option.some.inj h
      rw [arith_self_float hv]
      refine ⟨?_, ?_, hasType_f.2 hv⟩ <;> simp [cNeg, cConv]

theorem signVal_ok {t : DType} {v : Val F} (hv : v.HasType t) :
    signVal t v = .ok (elemSign t v) ∧ (elemSign t v).HasType t := by
  unfold signVal elemSign
  rw [nonneg_eq hv, Res.ok_bind]
  cases nonneg t v <;> cases t <;> exact ⟨rfl, by
    simp [isInteger, Val.HasType, DType.isInt, DType.isFloat, DType.idx, DType.floatStart, fitsInt, DType.bits,
    DType.size]⟩

/-! ### `abs` -/

omit [FOps F] in
/-- Contiguous tensors are dense. -/
theorem dense_contig {s : List Nat} (hv : vol s < 9223372036854775808) : Dense (Layout.contig s) where
  strides := length_contigStrides s
  offset := by show 0 < _; decide
  inside := fun idx hb => by
    have hb' : InBox s idx := hb
    rw [contig_position hv hb']
    have := rank_lt (sizes := s) hb'
    exact ⟨by omega, by show _ < ((vol s : Nat) : Int); exact_mod_cast this⟩
  inj := fun a b ha hb he => by
    rw [contig_position hv ha, contig_position hv hb] at he
    exact rank_inj ha hb (by exact_mod_cast he)

/-- A tensor built by an operation with the layout of an existing one. -/
structure BuiltView (h h' : Heap F) (t : Nat) (dt : DType) (v : Layout) (f : List Nat → Val F) (gf : Option GradFn) :
    Prop where
  denotes : Denotes h' t dt v.sizes f
  ext : Extends h h'
  fresh : Fresh h h' t
  obj : ∃ d, h'.ts[t]? = some ⟨dt, v, d, none, gf.isSome, false, gf⟩ ∧ h.st.length ≤ d
  gver : h'.gver = h.gver

theorem absT_ok {h : Heap F} {t : Nat} {i : Impl} {f g : List Nat → Val F} (hi : h.ts[t]? = some i) (hr : Reads h i f)
    (hd : Dense i.view) (hsz : vol i.view.sizes * i.dtype.size < 9223372036854775808) (hg : i.requiresGrad = false)
    (hel : ∀ idx, InBox i.view.sizes idx → elemAbs i.dtype (f idx) = some (g idx)) :
    ∃ h', Tensor.absT t h = .ok h.ts.length h' ∧ BuiltView h h' h.ts.length i.dtype i.view g none := by
  have hw := slots_allocView (F := F) hd hsz h
  have hne : i.data ≠ h.st.length := by have := hr.data_lt; omega
  have hext := extends_allocView h i.dtype i.view
  have hr' := hr.of_extends hext
  have hloop : ∃ c', tensorAbs i.dtype i.dtype ⟨i.dtype, i.view, h.st.length, none, false, false, none⟩ i none
      (h.allocView i.dtype i.view) = .ok () ((h.allocView i.dtype i.view).setCells h.st.length c') ∧
      Reads ((h.allocView i.dtype i.view).setCells h.st.length c')
        ⟨i.dtype, i.view, h.st.length, none, false, false, none⟩ g := by
    unfold tensorAbs
    refine assign_ok hw _ g (fun idx hb => (absVal_ok (hr.typed idx hb) (hel idx hb)).2.2) fun idx hb c => ?_
    have e1 := (hr'.setCells_ne hne c).load_index (idx := idx) hb
    rw [← bind_assoc, M.bind_ok e1, (absVal_ok (hr.typed idx hb) (hel idx hb)).1, M.bind_ok (M.lift_ok _ _), hw.index hb,
      M.bind_ok (M.lift_ok _ _)]
  obtain ⟨c', e2, r2⟩ := hloop
  unfold Tensor.absT
  rw [M.bind_ok (getT_ok hi), M.bind_ok (create_view hsz h)]
  simp only [hg, Bool.not_false, if_true]
  rw [M.bind_ok (getT_ok (allocView_getT h i.dtype i.view)), M.bind_ok e2]
  exact ⟨_, rfl, ⟨_, allocView_getT h _ _, rfl, rfl, r2⟩, hext.setCells (Nat.le_refl _) c',
    ⟨Nat.le_refl _, _, allocView_getT h _ _, Nat.le_refl _⟩, ⟨_, allocView_getT h _ _, Nat.le_refl _⟩, rfl⟩

theorem absT_grad_ok {h : Heap F} {t : Nat} {i : Impl} {f g : List Nat → Val F} (hi : h.ts[t]? = some i) (hr : Reads h i f)
    (hd : Dense i.view) (hsz : vol i.view.sizes * i.dtype.size < 9223372036854775808) (hg : i.requiresGrad = true)
    (hel : ∀ idx, InBox i.view.sizes idx → elemAbs i.dtype (f idx) = some (g idx)) :
    ∃ h', Tensor.absT t h = .ok h.ts.length h' ∧
      BuiltView h h' h.ts.length i.dtype i.view g (some ⟨.knownGrad (h.ts.length + 1), [t], 0, 0, 0⟩) ∧
      (Denotes h' (h.ts.length + 1) i.dtype i.view.sizes fun idx => elemSign i.dtype (f idx)) ∧
      Fresh h h' (h.ts.length + 1) := by
  let h1 := h.allocView i.dtype i.view
  have htl : h1.ts.length = h.ts.length + 1 := by simp [h1, Heap.allocView]
  have hsl : h1.st.length = h.st.length + 1 := by simp [h1, Heap.allocView]
  let dst : Impl := ⟨i.dtype, i.view, h.st.length, none, false, false, none⟩
  let gi : Impl := ⟨i.dtype, i.view, h1.st.length, none, false, false, none⟩
  let h2 := h1.allocView i.dtype i.view
  have hext1 := extends_allocView h i.dtype i.view
  have hext2 := extends_allocView h1 i.dtype i.view
  have hext : Extends h h2 := hext1.trans hext2
  have hw1 : Slots h1 dst := slots_allocView (F := F) hd hsz h
  have hw : Slots h2 dst := by
    obtain ⟨a, b, ⟨s, cells, c1, c2⟩, d⟩ := hw1
    exact ⟨a, b, ⟨s, cells, hext2.st _ _ c1, c2⟩, d⟩
  have hwg : Slots h2 gi := slots_allocView (F := F) hd hsz h1
  have hne : i.data ≠ h.st.length := by have := hr.data_lt; omega
  have hne' : i.data ≠ h1.st.length := by have := hr.data_lt; omega
  have hgd : gi.data ≠ dst.data := by show h1.st.length ≠ h.st.length; omega
  have hr' := hr.of_extends hext
  have hloop : ∃ c c', tensorAbs i.dtype i.dtype dst i (some gi) h2 =
      .ok () ((h2.setCells gi.data c).setCells dst.data c') ∧
      Reads ((h2.setCells gi.data c).setCells dst.data c') gi (fun idx => elemSign i.dtype (f idx)) ∧
      Reads ((h2.setCells gi.data c).setCells dst.data c') dst g := by
    unfold tensorAbs
    refine assign2_ok hwg hw hgd rfl _ (fun idx => elemSign i.dtype (f idx)) g
      (fun idx hb => (signVal_ok (hr.typed idx hb)).2)
      (fun idx hb => (absVal_ok (hr.typed idx hb) (hel idx hb)).2.2) fun idx hb c c' => ?_
    have e1 := ((hr'.setCells_ne (d := gi.data) hne' c).setCells_ne (d := dst.data) hne c').load_index (idx := idx) hb
    rw [← bind_assoc, M.bind_ok e1, (signVal_ok (hr.typed idx hb)).1, M.bind_ok (M.lift_ok _ _), hwg.index hb]
    rw [M.bind_ok (M.lift_ok _ _), (absVal_ok (hr.typed idx hb) (hel idx hb)).2.1]
    rfl
  obtain ⟨c, c', e2, rg, rd⟩ := hloop
  have hobj : h2.ts[h.ts.length]? = some dst := hext2.ts _ _ (allocView_getT h i.dtype i.view)
  have hobjg : h2.ts[h1.ts.length]? = some gi := allocView_getT h1 i.dtype i.view
  have hcall : Tensor.absT t h = (do
      Tensor.setGradFn h.ts.length (.knownGrad h1.ts.length) [t]
      return h.ts.length : M F Nat) ((h2.setCells gi.data c).setCells dst.data c') := by
    unfold Tensor.absT
    rw [M.bind_ok (getT_ok hi), M.bind_ok (create_view hsz h)]
    simp only [hg, Bool.not_true, Bool.false_eq_true, if_false]
    rw [M.bind_ok (create_view hsz _), M.bind_ok (getT_ok hobj), M.bind_ok (getT_ok hobjg), M.bind_ok e2]
  have e3 := setGradFn_ok (h := (h2.setCells gi.data c).setCells dst.data c') (i := dst) hobj (.knownGrad h1.ts.length) [t]
  rw [hcall, M.bind_ok e3]
  have hlt : h.ts.length < h2.ts.length := getElem?_lt hobj
  refine ⟨_, rfl, ⟨⟨_, List.getElem?_set_self hlt, rfl, rfl, (rd.set_ts _).flags rfl rfl rfl⟩, ?_, ?_, ?_, rfl⟩, ?_, ?_⟩
  · exact ((hext.setCells (by show h.st.length ≤ h1.st.length; omega) c).setCells (Nat.le_refl _) c').setT (Nat.le_refl _) _
  · exact ⟨Nat.le_refl _, _, List.getElem?_set_self hlt, Nat.le_refl _⟩
  · exact ⟨_, by rw [← htl]; exact List.getElem?_set_self hlt, Nat.le_refl _⟩
  · refine ⟨gi, ?_, rfl, rfl, rg.set_ts _⟩
    rw [← htl]
    exact (List.getElem?_set_ne (by omega)).trans hobjg
  · refine ⟨by omega, gi, ?_, by show h.st.length ≤ h1.st.length; omega⟩
    rw [← htl]
    exact (List.getElem?_set_ne (by omega)).trans hobjg

end INNC
