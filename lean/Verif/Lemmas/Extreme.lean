import Verif.Lemmas.Reduce
/-
Maximum and minimum.
-/
namespace INNC
open Spec
variable {F : Type} [FOps F]

/-- One step of the running extreme: keep the current element or take the one at `sv`, remembering its index. -/
def pick (keep : COp) (T : DType) (f : List Nat → Val F) (a : Val F × List Nat) (sv : List Nat) : Val F × List Nat :=
  if elemCompare keep T T a.1 (f sv) then a else (f sv, sv)

/-- Body of the loop of `tensorExtreme`. -/
def extBody (keep : COp) (T : DType) (dst frm : Impl) : List Nat → StateT (List Nat) (M F) Unit := fun sv => do
  let t ← (do load T frm (← M.lift (cntFromIndex frm.view sv)) : M F (Val F))
  let cur ← (load T dst 0 : M F (Val F))
  let k ← (M.lift (cCmp keep T T cur t) : M F Bool)
  if k then pure ()
  else do
    (store T dst 0 t : M F Unit)
    set sv

theorem extBody_ok {keep : COp} {H : Heap F} {dst frm : Impl} {s : Storage F} {f : List Nat → Val F}
    (hs : H.st[dst.data]? = some s) (hdt : s.dt = dst.dtype) (hf : Reads H frm f) (hne : frm.data ≠ dst.data)
    (hT : frm.dtype = dst.dtype) {acc : Val F} {best sv : List Nat} (hty : acc.HasType dst.dtype)
    (hb : InBox frm.view.sizes sv) :
    (extBody keep dst.dtype dst frm sv).run best (H.setCells dst.data [some acc]) =
      .ok ((), (pick keep dst.dtype f (acc, best) sv).2) (H.setCells dst.data [some (pick keep dst.dtype f (acc, best) sv).1]) := by
  have e1 := (hf.setCells_ne hne [some acc]).load_index hb
  rw [hT] at e1
  have hs' := Heap.setCells_st_self hs [some acc]
  have e2 : load dst.dtype dst 0 (H.setCells dst.data [some acc]) = .ok acc (H.setCells dst.data [some acc]) :=
    load_ok hs' hdt rfl rfl
  have hfty := hf.typed sv hb
  rw [hT] at hfty
  have e3 := cmp_eq keep hty hfty
  unfold extBody pick
  simp only [StateT.run_bind, StateT.run_monadLift, monadLift_self, bind_assoc, pure_bind]
  rw [← bind_assoc, M.bind_ok e1, M.bind_ok e2, e3, M.bind_ok (M.lift_ok _ _)]
  cases hk : elemCompare keep dst.dtype dst.dtype acc (f sv) with
  | true => rfl
  | false =>
    simp only [StateT.run_bind, StateT.run_monadLift, monadLift_self, bind_assoc, pure_bind, Bool.false_eq_true, if_false]
    rw [M.bind_ok (store_ok (v := f sv) hs' hdt rfl (by simp)), Heap.setCells_setCells]
    rfl

theorem extLoop_ok {keep : COp} {H : Heap F} {dst frm : Impl} {s : Storage F} {f : List Nat → Val F}
    (hs : H.st[dst.data]? = some s) (hdt : s.dt = dst.dtype) (hf : Reads H frm f) (hne : frm.data ≠ dst.data)
    (hT : frm.dtype = dst.dtype) : ∀ (l : List (List Nat)) (a : Val F × List Nat), a.1.HasType dst.dtype →
    (∀ sv ∈ l, InBox frm.view.sizes sv) →
    (runAll (extBody keep dst.dtype dst frm) l).run a.2 (H.setCells dst.data [some a.1]) =
      .ok ((), (l.foldl (pick keep dst.dtype f) a).2)
        (H.setCells dst.data [some (l.foldl (pick keep dst.dtype f) a).1]) := by
  intro l
  induction l with
  | nil => intro a _ _; rfl
  | cons x l ih =>
    intro a hty hin
    have hx := hin x (by simp)
    rw [runAll, StateT.run_bind, M.bind_ok (extBody_ok hs hdt hf hne hT hty hx)]
    refine ih (pick keep dst.dtype f a x) ?_ fun sv hsv => hin sv (by simp [hsv])
    unfold pick
    have hfty := hf.typed x hx
    rw [hT] at hfty
    split
    · exact hty
    · exact hfty

/-- The storage of the tensor object `i` starts with the element `x`. -/
def StartsWith (h : Heap F) (i : Impl) (x : Val F) : Prop :=
  ∃ s cells, h.st[i.data]? = some s ∧ s.blob = some cells ∧ cells[0]? = some (some x) ∧ s.dt = i.dtype ∧
    x.HasType i.dtype

/-- The running extreme over the whole tensor, starting at `x0`. -/
def best (keep : COp) (T : DType) (s : List Nat) (f : List Nat → Val F) (x0 : Val F) : Val F × List Nat :=
  (rowMajor s).foldl (pick keep T f) (x0, [])

theorem foldl_pick (keep : COp) (T : DType) (f : List Nat → Val F) : ∀ (l : List (List Nat)) (a : Val F × List Nat),
    l.foldl (pick keep T f) a = a ∨ ∃ b ∈ l, l.foldl (pick keep T f) a = (f b, b)
  | [], a => .inl rfl
  | x :: l, a => by
    rw [List.foldl_cons]
    rcases foldl_pick keep T f l (pick keep T f a x) with e | ⟨b, hb, e⟩
    · rw [e]
      unfold pick
      split
      · exact .inl rfl
      · exact .inr ⟨x, by simp, rfl⟩
    · exact .inr ⟨b, by simp [hb], e⟩

/-- The running extreme is one of the elements and bounds all of them. -/
theorem best_spec {keep : COp} {dt : DType} {s : List Nat} {f : List Nat → Val F} (ho : Ordered keep dt s f) :
    ∀ (l : List (List Nat)) (a0 : List Nat) (b0 : List Nat), InBox s a0 → (∀ x ∈ l, InBox s x) →
      ∃ a, InBox s a ∧ (l.foldl (pick keep dt f) (f a0, b0)).1 = f a ∧
        elemCompare keep dt dt (f a) (f a0) = true ∧ ∀ x ∈ l, elemCompare keep dt dt (f a) (f x) = true := by
  intro l
  induction l with
  | nil => intro a0 b0 ha _; exact ⟨a0, ha, rfl, by simpa using ho.total a0 a0 ha ha, by simp⟩
  | cons x l ih =>
    intro a0 b0 ha hin
    have hx := hin x (by simp)
    rw [List.foldl_cons]
    by_cases hc : elemCompare keep dt dt (f a0) (f x) = true
    · rw [show pick keep dt f (f a0, b0) x = (f a0, b0) by unfold pick; rw [if_pos hc]]
      obtain ⟨a, h1, h2, h3, h4⟩ := ih a0 b0 ha fun y hy => hin y (by simp [hy])
      refine ⟨a, h1, h2, h3, fun y hy => ?_⟩
      rcases List.mem_cons.1 hy with rfl | hy
      · exact ho.trans _ _ _ h1 ha hx h3 hc
      · exact h4 y hy
    · rw [show pick keep dt f (f a0, b0) x = (f x, x) by unfold pick; rw [if_neg hc]]
      obtain ⟨a, h1, h2, h3, h4⟩ := ih x x hx fun y hy => hin y (by simp [hy])
      refine ⟨a, h1, h2, ?_, fun y hy => ?_⟩
      · exact ho.trans _ _ _ h1 hx ha h3 ((ho.total a0 x ha hx).resolve_left hc)
      · rcases List.mem_cons.1 hy with rfl | hy
        · exact h3
        · exact h4 y hy

theorem zeros_inBox {s : List Nat} (hv : vol s ≠ 0) : InBox s (s.map fun _ => 0) := by
  induction s with
  | nil => trivial
  | cons a l ih =>
    simp only [vol] at hv
    exact ⟨Nat.pos_of_ne_zero fun hc => hv (by simp [hc]), ih fun hc => hv (by simp [hc])⟩

theorem best_hasType {keep : COp} {T : DType} {s : List Nat} {f : List Nat → Val F} {x0 : Val F}
    (hf : ∀ idx, InBox s idx → (f idx).HasType T) (hx : x0.HasType T) : (best keep T s f x0).1.HasType T := by
  unfold best
  have : ∀ (l : List (List Nat)) (a : Val F × List Nat), a.1.HasType T → (∀ sv ∈ l, InBox s sv) →
      (l.foldl (pick keep T f) a).1.HasType T := by
    intro l
    induction l with
    | nil => intro a ha _; exact ha
    | cons x l ih =>
      intro a ha hin
      refine ih _ ?_ fun sv hsv => hin sv (by simp [hsv])
      unfold pick
      split
      · exact ha
      · exact hf x (hin x (by simp))
  exact this _ _ hx fun sv hsv => mem_rowMajor.1 hsv

theorem tensorExtreme_eq (keep : COp) (T : DType) (dst frm : Impl) (grad : Option Impl) :
    tensorExtreme (F := F) keep T dst frm grad = (do
      let first ← load T frm 0
      store T dst 0 first
      let r ← (runAll (extBody keep T dst frm) (rowMajor frm.view.sizes)).run []
      match grad with
      | none => pure ()
      | some g => do
        let one ← M.lift (cConv .i32 T (.i 1 : Val F))
        store T g (← M.lift (cntFromIndex g.view r.2)) one) := by
  unfold tensorExtreme
  simp only [forEachWith_eq]
  rfl

theorem tensorExtreme_run {keep : COp} {H : Heap F} {dst frm : Impl} {s : Storage F} {f : List Nat → Val F} {x0 : Val F}
    {c : List (Option (Val F))}
    (hs : H.st[dst.data]? = some s) (hdt : s.dt = dst.dtype) (hb : s.blob = some c) (hc : c.length = 1)
    (hf : Reads H frm f) (hne : frm.data ≠ dst.data)
    (hT : frm.dtype = dst.dtype) (hx : StartsWith H frm x0) (grad : Option Impl) :
    tensorExtreme keep dst.dtype dst frm grad H = (match grad with
      | none => pure ()
      | some g => do
        let one ← M.lift (cConv .i32 dst.dtype (.i 1 : Val F))
        store dst.dtype g (← M.lift (cntFromIndex g.view (best keep dst.dtype frm.view.sizes f x0).2)) one : M F Unit)
      (H.setCells dst.data [some (best keep dst.dtype frm.view.sizes f x0).1]) := by
  obtain ⟨s0, cells, hs0, hb0, hc0, hd0, hty⟩ := hx
  rw [hT] at hty
  rw [tensorExtreme_eq]
  have e1 : load dst.dtype frm 0 H = .ok x0 H := load_ok hs0 (by rw [hd0, hT]) hb0 hc0
  rw [M.bind_ok e1, M.bind_ok (store_ok (v := x0) hs hdt hb (by omega))]
  have hset : c.set 0 (some x0) = [some x0] := by
    match c, hc with
    | [a], _ => rfl
  rw [hset]
  rw [M.bind_ok (extLoop_ok (keep := keep) hs hdt hf hne hT (rowMajor frm.view.sizes) (x0, []) hty
    (fun sv hsv => mem_rowMajor.1 hsv))]
  rfl

theorem startsWith_extends {h h' : Heap F} {i : Impl} {x : Val F} (hx : StartsWith h i x) (he : Extends h h') :
    StartsWith h' i x := by
  obtain ⟨s, c, h1, h2⟩ := hx
  exact ⟨s, c, he.st _ _ h1, h2⟩

/-- A tensor whose view starts at the first element of its storage. -/
theorem startsWith_of_offset {h : Heap F} {i : Impl} {f : List Nat → Val F} (hr : Reads h i f) (ho : i.view.offset = 0)
    (hv : vol i.view.sizes ≠ 0) : StartsWith h i (f (i.view.sizes.map fun _ => 0)) := by
  have hb : InBox i.view.sizes (i.view.sizes.map fun _ => 0) := by
    have : ∀ s : List Nat, vol s ≠ 0 → InBox s (s.map fun _ => 0) := by
      intro s
      induction s with
      | nil => intro _; trivial
      | cons a l ih =>
        intro hv
        simp only [vol] at hv
        exact ⟨Nat.pos_of_ne_zero fun hc => hv (by simp [hc]), ih fun hc => hv (by simp [hc])⟩
    exact this _ hv
  obtain ⟨s, cells, h1, h2, h3, _, h5⟩ := hr.cells
  obtain ⟨p, hp, hc⟩ := h5 _ hb
  have hz : ∀ (st : List Int) (s : List Nat), dot st (s.map fun _ => 0) = 0 := by
    intro st
    induction st with
    | nil => intro s; cases s <;> rfl
    | cons a l ih =>
      intro s
      cases s with
      | nil => rfl
      | cons b s => simp [dot, ih]
  unfold position at hp
  rw [ho, hz] at hp
  have : p = 0 := by simpa using hp.symm
  subst this
  exact ⟨s, cells, h1, h3, hc, h2, hr.typed _ hb⟩

/-- `max` and `min` of a tensor that does not require gradients. -/
theorem extreme_ok {keep : COp} {h : Heap F} {t : Nat} {i : Impl} {f : List Nat → Val F} {x0 : Val F}
    (hi : h.ts[t]? = some i) (hr : Reads h i f) (hx : StartsWith h i x0) (hg : i.requiresGrad = false) :
    ∃ h', Tensor.extreme keep t h = .ok h.ts.length h' ∧
      Built h h' h.ts.length i.dtype [] (fun _ => (best keep i.dtype i.view.sizes f x0).1) none := by
  have hsz : vol [] * i.dtype.size < 9223372036854775808 := by cases i.dtype <;> decide
  obtain ⟨h1, e1, b1, hh1⟩ := zeros_ok (F := F) (dt := i.dtype) hsz h
  have hobj : h1.ts[h.ts.length]? = some (newImpl i.dtype [] h.st.length) := by
    rw [hh1]; exact alloc_getT h _ _
  have hst : h1.st[(newImpl i.dtype [] h.st.length).data]? = some ⟨i.dtype, i.dtype.size * vol [],
      some (List.replicate (vol []) (some (zeroElem i.dtype)))⟩ := by
    rw [hh1]; exact Heap.setCells_st_self (alloc_getS h _ _) _
  have hne : i.data ≠ (newImpl i.dtype [] h.st.length).data := by have := hr.data_lt; show _ ≠ h.st.length; omega
  have hrun := tensorExtreme_run (keep := keep) hst rfl rfl rfl (hr.of_extends b1.ext) hne rfl
    (startsWith_extends hx b1.ext) none
  unfold Tensor.extreme
  rw [M.bind_ok (getT_ok hi), M.bind_ok e1]
  simp only [hg, Bool.not_false, if_true]
  rw [M.bind_ok (getT_ok hobj)]
  have hrun' : tensorExtreme keep i.dtype (newImpl i.dtype [] h.st.length) i none h1 =
    .ok () (h1.setCells h.st.length [some (best keep i.dtype i.view.sizes f x0).1]) := hrun
  rw [M.bind_ok hrun']
  refine ⟨_, rfl, ?_⟩
  have hrd := reads_const (H := h) (dt := i.dtype) (s := []) (v := (best keep i.dtype i.view.sizes f x0).1) hsz
    (best_hasType hr.typed (by obtain ⟨_, _, _, _, _, _, h6⟩ := hx; exact h6))
  rw [hh1, Heap.setCells_setCells]
  exact built_new (Extends.refl h) rfl hrd

theorem reads_scalar {H : Heap F} {i : Impl} {s : Storage F} {v : Val F} (hi : i.view = Layout.contig [])
    (hs : H.st[i.data]? = some s) (hd : s.dt = i.dtype) (hb : s.blob = some [some v]) (hv : v.HasType i.dtype) :
    Reads H i fun _ => v where
  strides := by rw [hi]; rfl
  offset := by rw [hi]; decide
  cells := ⟨s, _, hs, hd, hb, by simp, fun idx hb => by
    rw [hi] at hb ⊢
    have : idx = [] := by cases idx <;> simp_all [InBox, Layout.contig]
    subst this
    exact ⟨0, rfl, rfl⟩⟩
  typed := fun _ _ => hv

/-- Storing one element. -/
theorem Spec.Reads.store_at {H : Heap F} {i : Impl} {f : List Nat → Val F} (hr : Reads H i f)
    (hinj : ∀ a b, InBox i.view.sizes a → InBox i.view.sizes b → position i.view a = position i.view b → a = b)
    {idx : List Nat} (hb : InBox i.view.sizes idx) {v : Val F} (hv : v.HasType i.dtype) :
    ∃ c, (do store i.dtype i (← M.lift (cntFromIndex i.view idx)) v : M F Unit) H = .ok () (H.setCells i.data c) ∧
      Reads (H.setCells i.data c) i fun j => if j = idx then v else f j := by
  obtain ⟨s, cells, hs, hd, hbl, hlen, hc⟩ := hr.cells
  obtain ⟨p, hp, hcp⟩ := hc idx hb
  have hpl : p < cells.length := getElem?_lt hcp
  rw [cntFromIndex_eq hb.length (by rw [hr.strides]) hr.offset, M.bind_ok (M.lift_ok _ _)]
  rw [Layout.pos_eq, hp, wrapU_natCast (by omega)]
  refine ⟨_, store_ok hs hd hbl hpl, hr.strides, hr.offset, ?_, ?_⟩
  · refine ⟨_, _, Heap.setCells_st_self hs _, hd, rfl, by simpa using hlen, ?_⟩
    intro j hj
    obtain ⟨q, hq, hcq⟩ := hc j hj
    refine ⟨q, hq, ?_⟩
    by_cases hji : j = idx
    · subst hji
      rw [hp] at hq
      have : q = p := by exact_mod_cast hq.symm
      subst this
      simp [hpl]
    · rw [if_neg hji]
      have hqp : p ≠ q := by
        intro hc
        subst hc
        exact hji (hinj j idx hj hb (by rw [hp, hq]))
      rw [List.getElem?_set_ne hqp]
      exact hcq
  · intro j hj
    by_cases hji : j = idx
    · rw [if_pos hji]; exact hv
    · rw [if_neg hji]; exact hr.typed j hj

theorem oneElem_eq (T : DType) : cConv .i32 T (.i 1 : Val F) = .ok (oneElem T) ∧ (oneElem T : Val F).HasType T := by
  cases T <;> exact ⟨rfl, by
    simp [oneElem, isInteger, Val.HasType, DType.isInt, DType.isFloat, DType.idx, DType.floatStart, fitsInt, DType.bits,
    DType.size]⟩

/-- `max` and `min` of a tensor that requires gradients: the tensor with the local gradient has a 1 at the index of the
extreme, if that index has been recorded. -/
theorem extremeGrad_ok {keep : COp} {h : Heap F} {t : Nat} {i : Impl} {f : List Nat → Val F} {x0 : Val F}
    (hi : h.ts[t]? = some i) (hr : Reads h i f) (hx : StartsWith h i x0) (hg : i.requiresGrad = true)
    (hsize : vol i.view.sizes * i.dtype.size < 9223372036854775808) :
    (InBox i.view.sizes (best keep i.dtype i.view.sizes f x0).2 → ∃ h',
      Tensor.extreme keep t h = .ok h.ts.length h' ∧
      Built h h' h.ts.length i.dtype [] (fun _ => (best keep i.dtype i.view.sizes f x0).1)
        (some ⟨.knownGrad (h.ts.length + 1), [t], 0, 0, 0⟩) ∧
      (Denotes h' (h.ts.length + 1) i.dtype i.view.sizes fun j =>
        if j = (best keep i.dtype i.view.sizes f x0).2 then oneElem i.dtype else zeroElem i.dtype) ∧
      Fresh h h' (h.ts.length + 1)) ∧
    ((best keep i.dtype i.view.sizes f x0).2.length ≠ i.view.sizes.length →
      ∃ h', Tensor.extreme keep t h = .throw .runtime h' ∧ Extends h h') := by
  have hsz : vol [] * i.dtype.size < 9223372036854775808 := by cases i.dtype <;> decide
  obtain ⟨h1, e1, b1, hh1⟩ := zeros_ok (F := F) (dt := i.dtype) hsz h
  obtain ⟨h2, e2, b2, hh2⟩ := zeros_ok (F := F) (dt := i.dtype) hsize h1
  have htl : h1.ts.length = h.ts.length + 1 := by rw [hh1]; simp [Heap.alloc]
  have hsl : h1.st.length = h.st.length + 1 := by rw [hh1]; simp [Heap.alloc]
  have hi1 := b1.ext.ts _ _ hi
  have e2' : Tensor.zerosLike t h1 = .ok h1.ts.length h2 := by
    unfold Tensor.zerosLike
    rw [M.bind_ok (getT_ok hi1)]; exact e2
  have hobj1 : h1.ts[h.ts.length]? = some (newImpl i.dtype [] h.st.length) := by
    rw [hh1]; exact alloc_getT h _ _
  have hobj := b2.ext.ts _ _ hobj1
  have hobjg : h2.ts[h1.ts.length]? = some (newImpl i.dtype i.view.sizes h1.st.length) := by
    rw [hh2]; exact alloc_getT h1 _ _
  have hst : h2.st[(newImpl i.dtype [] h.st.length).data]? = some ⟨i.dtype, i.dtype.size * vol [],
      some (List.replicate (vol []) (some (zeroElem i.dtype)))⟩ := by
    refine b2.ext.st _ _ ?_
    rw [hh1]; exact Heap.setCells_st_self (alloc_getS h _ _) _
  have hne : i.data ≠ (newImpl i.dtype [] h.st.length).data := by have := hr.data_lt; show _ ≠ h.st.length; omega
  have hext := b1.ext.trans b2.ext
  have hrun := tensorExtreme_run (keep := keep) hst rfl rfl rfl (hr.of_extends hext) hne rfl
    (startsWith_extends hx hext) (some (newImpl i.dtype i.view.sizes h1.st.length))
  have hrun' : tensorExtreme keep i.dtype (newImpl i.dtype [] h.st.length) i
      (some (newImpl i.dtype i.view.sizes h1.st.length)) h2 = (do
        let one ← M.lift (cConv .i32 i.dtype (.i 1 : Val F))
        store i.dtype (newImpl i.dtype i.view.sizes h1.st.length) (← M.lift (cntFromIndex
          (newImpl i.dtype i.view.sizes h1.st.length).view (best keep i.dtype i.view.sizes f x0).2)) one : M F Unit)
      (h2.setCells h.st.length [some (best keep i.dtype i.view.sizes f x0).1]) := hrun
  rw [(oneElem_eq i.dtype).1, M.bind_ok (M.lift_ok _ _)] at hrun'
  have hcall : Tensor.extreme keep t h = (do
      tensorExtreme keep i.dtype (newImpl i.dtype [] h.st.length) i
        (some (newImpl i.dtype i.view.sizes h1.st.length))
      Tensor.setGradFn h.ts.length (.knownGrad h1.ts.length) [t]
      return h.ts.length : M F Nat) h2 := by
    unfold Tensor.extreme
    rw [M.bind_ok (getT_ok hi), M.bind_ok e1]
    simp only [hg, Bool.not_true, Bool.false_eq_true, if_false]
    rw [M.bind_ok e2', M.bind_ok (getT_ok hobj), M.bind_ok (getT_ok hobjg)]
  constructor
  · intro hb
    have hgr : Reads (h2.setCells h.st.length [some (best keep i.dtype i.view.sizes f x0).1])
        (newImpl i.dtype i.view.sizes h1.st.length) fun _ => zeroElem i.dtype := by
      have : Reads h2 (newImpl i.dtype i.view.sizes h1.st.length) fun _ => zeroElem i.dtype := by
        rw [hh2]; exact reads_const hsize (zeroElem_hasType _)
      exact this.setCells_ne (by show h1.st.length ≠ h.st.length; omega) _
    obtain ⟨c, e3, r3⟩ := hgr.store_at (slots_alloc hsize h1).inj hb (oneElem_eq i.dtype).2
    have e3' := hrun'.trans e3
    rw [hcall, M.bind_ok e3']
    have hst' := Heap.setCells_st_self hst [some (best keep i.dtype i.view.sizes f x0).1]
    have hvt : (best keep i.dtype i.view.sizes f x0).1.HasType i.dtype :=
      best_hasType hr.typed (by obtain ⟨_, _, _, _, _, _, h6⟩ := hx; exact h6)
    have bb : Built h ((h2.setCells h.st.length [some (best keep i.dtype i.view.sizes f x0).1]).setCells h1.st.length c)
        h.ts.length i.dtype [] (fun _ => (best keep i.dtype i.view.sizes f x0).1) none := by
      refine ⟨⟨_, hobj, rfl, rfl, ?_⟩, ?_, ⟨Nat.le_refl _, _, hobj, Nat.le_refl _⟩, ⟨_, hobj, Nat.le_refl _⟩, ?_⟩
      · have := reads_scalar (i := newImpl i.dtype [] h.st.length) rfl hst' rfl rfl hvt
        exact this.setCells_ne (by show h.st.length ≠ h1.st.length; omega) _
      · exact (hext.setCells (Nat.le_refl _) _).setCells (by omega) _
      · show h2.gver = h.gver
        rw [b2.gver, b1.gver]
    obtain ⟨h'', e4, b4, hst4, hlen4, hts4⟩ := bb.setGradFn (.knownGrad h1.ts.length) [t]
    refine ⟨h'', M.bind_ok e4, by rw [htl] at b4; exact b4, ?_⟩
    have hg4 : h''.ts[h.ts.length + 1]? = some (newImpl i.dtype i.view.sizes h1.st.length) := (hts4 (h.ts.length + 1) (by omega)).trans (by rw [← htl]; exact hobjg)
    refine ⟨⟨newImpl i.dtype i.view.sizes h1.st.length, hg4, rfl, rfl, ?_⟩, by omega, _, hg4, by show h.st.length ≤ h1.st.length; omega⟩
    obtain ⟨q1, q2, q3, q4⟩ := r3
    exact ⟨q1, q2, by rw [hst4]; exact q3, q4⟩
  · intro hlen
    have hthrow : cntFromIndex (newImpl i.dtype i.view.sizes h1.st.length).view (best keep i.dtype i.view.sizes f x0).2 =
        .throw .runtime := by
      unfold cntFromIndex runExpect
      have : decide ((best keep i.dtype i.view.sizes f x0).2.length =
        (newImpl i.dtype i.view.sizes h1.st.length).view.sizes.length) = false := decide_eq_false hlen
      rw [this]; rfl
    rw [hthrow] at hrun'
    rw [hcall]
    exact ⟨_, M.bind_throw (hrun'.trans rfl), hext.setCells (Nat.le_refl _) _⟩

end INNC
