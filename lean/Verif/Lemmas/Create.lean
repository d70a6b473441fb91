import Verif.Lemmas.Cells
import Verif.Lemmas.Scalar
import Verif.Model.Tensor
/-
Allocation of new tensors; element-wise loops into a new tensor.
-/
namespace INNC
open Spec
variable {F : Type}

/-- The tensor object made by `create` on a new storage `d`. -/
def newImpl (dt : DType) (sizes : List Nat) (d : Nat) : Impl := ⟨dt, Layout.contig sizes, d, none, false, false, none⟩

/-- The heap after `create`. -/
def Heap.alloc (h : Heap F) (dt : DType) (sizes : List Nat) : Heap F :=
  { h with
    st := h.st ++ [⟨dt, dt.size * vol sizes, some (List.replicate (vol sizes) none)⟩],
    ts := h.ts ++ [newImpl dt sizes h.st.length] }

theorem DType.size_pos (t : DType) : 0 < t.size := by cases t <;> decide
theorem DType.size_le (t : DType) : t.size ≤ 8 := by cases t <;> decide

theorem vol_lt_of_bytes {dt : DType} {sizes : List Nat} (hv : vol sizes * dt.size < 9223372036854775808) :
    vol sizes < 9223372036854775808 := by
  have := Nat.le_mul_of_pos_right (vol sizes) dt.size_pos; omega

theorem create_ok {dt : DType} {sizes : List Nat} (hv : vol sizes * dt.size < 9223372036854775808) (h : Heap F) :
    create dt (Layout.contig sizes) true h = .ok h.ts.length (h.alloc dt sizes) := by
  have hv' := vol_lt_of_bytes hv
  have hn : numel sizes = vol sizes := numel_eq_vol (by omega)
  have hw : wrapU ((dt.size : Int) * (numel sizes : Int)) = dt.size * vol sizes := by
    rw [hn, ← Int.natCast_mul, wrapU_natCast (by rw [Nat.mul_comm]; omega)]
  have hm : dt.size * vol sizes < maxAlloc := by unfold maxAlloc; rw [Nat.mul_comm]; exact hv
  have hs : (Layout.contig sizes).sizes = sizes := rfl
  unfold create
  simp only [hs, hw, mkStorage, if_true, hm]
  rw [M.bind_ok (x := newS _) (a := h.st.length) (h' := { h with st := h.st ++ [⟨dt, dt.size * vol sizes,
    some (freshBlob dt (dt.size * vol sizes))⟩] }) rfl]
  simp only [createOn, newT, Heap.alloc, newImpl, freshBlob, Nat.mul_div_cancel_left _ dt.size_pos]

theorem alloc_getT (h : Heap F) (dt : DType) (sizes : List Nat) :
    (h.alloc dt sizes).ts[h.ts.length]? = some (newImpl dt sizes h.st.length) := by
  simp [Heap.alloc]

theorem alloc_getS (h : Heap F) (dt : DType) (sizes : List Nat) :
    (h.alloc dt sizes).st[h.st.length]? = some ⟨dt, dt.size * vol sizes, some (List.replicate (vol sizes) none)⟩ := by
  simp [Heap.alloc]

theorem getElem?_lt {α : Type} {l : List α} {k : Nat} {a : α} (h : l[k]? = some a) : k < l.length := by
  by_contra hc
  rw [List.getElem?_eq_none (by omega)] at h; simp at h

theorem Spec.Extends.refl (h : Heap F) : Extends h h := ⟨fun _ _ h => h, fun _ _ h => h⟩
theorem Spec.Extends.trans {a b c : Heap F} (h1 : Extends a b) (h2 : Extends b c) : Extends a c :=
  ⟨fun t i h => h2.ts t i (h1.ts t i h), fun d s h => h2.st d s (h1.st d s h)⟩
instance : Pre (F := F) Extends := ⟨Extends.refl, Extends.trans⟩

theorem extends_alloc (h : Heap F) (dt : DType) (sizes : List Nat) : Extends h (h.alloc dt sizes) where
  ts := fun t i hi => by
    simp only [Heap.alloc]; rw [List.getElem?_append_left (getElem?_lt hi)]; exact hi
  st := fun t i hi => by
    simp only [Heap.alloc]; rw [List.getElem?_append_left (getElem?_lt hi)]; exact hi

/-- Replacing the elements of a storage that `h` does not have. -/
theorem Spec.Extends.setCells {h h' : Heap F} (he : Extends h h') {d : Nat} (hd : h.st.length ≤ d) (c) :
    Extends h (h'.setCells d c) where
  ts := fun t i hi => he.ts t i hi
  st := fun e s hs => by
    rw [Heap.setCells_st_ne _ (by have := getElem?_lt hs; omega)]; exact he.st e s hs

/-- Changing a tensor that `h` does not have. -/
theorem Spec.Extends.setT {h h' : Heap F} (he : Extends h h') {t : Nat} (ht : h.ts.length ≤ t) (i : Impl) :
    Extends h { h' with ts := h'.ts.set t i } where
  ts := fun u j hu => by
    have := getElem?_lt hu
    simp only
    rw [List.getElem?_set_ne (by omega)]; exact he.ts u j hu
  st := he.st

theorem contig_position {sizes idx : List Nat} (hv : vol sizes < 9223372036854775808) (hb : InBox sizes idx) :
    position (Layout.contig sizes) idx = rank sizes idx := by
  have h0 : 0 ∉ sizes := vol_pos_iff.1 hb.vol_pos
  show ((0 : Nat) : Int) + dot (contigStrides sizes) idx = _
  rw [contigStrides_eq_rm h0 hv, dot_rmStrides hb.length]; simp

theorem slots_alloc {dt : DType} {sizes : List Nat} (hv : vol sizes * dt.size < 9223372036854775808) (h : Heap F) :
    Slots (h.alloc dt sizes) (newImpl dt sizes h.st.length) where
  strides := length_contigStrides sizes
  offset := by show 0 < _; decide
  cells := by
    have hv' := vol_lt_of_bytes hv
    refine ⟨_, _, alloc_getS h dt sizes, rfl, rfl, by simpa using hv', fun idx hb => ⟨rank sizes idx, ?_, ?_⟩⟩
    · exact contig_position hv' hb
    · have := rank_lt (sizes := sizes) hb; simpa using this
  inj := by
    have hv' := vol_lt_of_bytes hv
    intro a b ha hb he
    rw [show (newImpl dt sizes h.st.length).view = Layout.contig sizes from rfl, contig_position hv' ha,
      contig_position hv' hb] at he
    exact rank_inj ha hb (by exact_mod_cast he)

theorem Spec.Reads.data_lt {h : Heap F} {i : Impl} {f} (hr : Reads h i f) : i.data < h.st.length := by
  obtain ⟨s, _, hs, _⟩ := hr.cells
  exact getElem?_lt hs

theorem Spec.Reads.of_extends {h h' : Heap F} {i : Impl} {f} (hr : Reads h i f) (he : Extends h h') : Reads h' i f :=
  hr.extends fun s hs => he.st _ s hs

theorem Spec.Denotes.of_extends {h h' : Heap F} {t dt sizes f} (hd : Denotes h t dt sizes f) (he : Extends h h') :
    Denotes h' t dt sizes f := by
  obtain ⟨i, hi, h1, h2, hr⟩ := hd
  exact ⟨i, he.ts t i hi, h1, h2, hr.of_extends he⟩

theorem Spec.Denotes.congr {h : Heap F} {t dt sizes f g} (hd : Denotes h t dt sizes f)
    (hfg : ∀ idx, InBox sizes idx → f idx = g idx) : Denotes h t dt sizes g := by
  obtain ⟨i, hi, h1, h2, hr⟩ := hd
  exact ⟨i, hi, h1, h2, hr.congr (by rw [h2]; exact hfg)⟩

theorem Spec.Denotes.typed {h : Heap F} {t dt sizes f} (hd : Denotes h t dt sizes f) {idx : List Nat}
    (hb : InBox sizes idx) : (f idx).HasType dt := by
  obtain ⟨i, hi, h1, h2, hr⟩ := hd
  rw [← h1]; exact hr.typed idx (by rw [h2]; exact hb)

theorem setGradFn_ok {h : Heap F} {t : Nat} {i : Impl} (hi : h.ts[t]? = some i) (k : BackKind) (ins : List Nat) :
    Tensor.setGradFn t k ins h =
      .ok () { h with ts := h.ts.set t { i with requiresGrad := true, gradFn := some ⟨k, ins, 0, 0, 0⟩ } } := by
  unfold Tensor.setGradFn
  rw [M.bind_ok (getT_ok hi)]
  rfl

/-- Changing flags of a tensor, or other tensors, does not change what an object reads. -/
theorem Spec.Reads.set_ts {h : Heap F} {i : Impl} {f} (hr : Reads h i f) (ts : List Impl) :
    Reads { h with ts := ts } i f := ⟨hr.strides, hr.offset, hr.cells, hr.typed⟩

theorem Spec.Reads.flags {h : Heap F} {i j : Impl} {f} (hr : Reads h i f) (h1 : j.dtype = i.dtype)
    (h2 : j.view = i.view) (h3 : j.data = i.data) : Reads h j f where
  strides := by rw [h2]; exact hr.strides
  offset := by rw [h2]; exact hr.offset
  cells := by rw [h1, h2, h3]; exact hr.cells
  typed := by rw [h1, h2]; exact hr.typed

/-! ### The binary element loop -/
section
variable [FOps F]

theorem Slots.index {h : Heap F} {i : Impl} (hw : Slots h i) {idx : List Nat} (hb : InBox i.view.sizes idx) :
    cntFromIndex i.view idx = .ok (wrapU (i.view.pos idx)) :=
  cntFromIndex_eq hb.length (by rw [hw.strides]) hw.offset

theorem Slots.aug {h : Heap F} {i : Impl} (hw : Slots h i) {idx : List Nat} (hb : InBox i.view.sizes idx) :
    cntFromAugIndex i.view idx = .ok (wrapU (i.view.pos idx)) := by
  rw [cntFromAugIndex_project (by rw [hb.length]) (by rw [project_self hb]; exact hb), project_self hb, hw.index hb]

/-- An index of the range reads an element of an operand. -/
def Reaches (i : Impl) (idx : List Nat) : Prop :=
  i.view.sizes.length ≤ idx.length ∧ InBox i.view.sizes (project i.view.sizes idx)

/-- The body of `zipLoop` when both operands are in range. -/
theorem zipBody {H : Heap F} {dst l r : Impl} {fl fr : List Nat → Val F} {D S L R : DType}
    (hl : Reads H l fl) (hr : Reads H r fr) (hL : l.dtype = L) (hR : r.dtype = R)
    {sv : List Nat} (h1 : Reaches l sv) (h2 : Reaches r sv) (f : Val F → Val F → Res (Val F)) :
    (do
      let x ← load L l (← M.lift (cntFromAugIndex l.view sv))
      let y ← load R r (← M.lift (cntFromAugIndex r.view sv))
      let z ← M.lift (f x y)
      let z ← M.lift (cConv S D z)
      store D dst (← M.lift (cntFromAugIndex dst.view sv)) z : M F Unit) H =
    (do
      let z ← M.lift (f (fl (project l.view.sizes sv)) (fr (project r.view.sizes sv)) >>= cConv S D)
      store D dst (← M.lift (cntFromAugIndex dst.view sv)) z : M F Unit) H := by
  subst hL hR
  have e1 := hl.load_aug h1.1 h1.2
  have e2 := hr.load_aug h2.1 h2.2
  rw [← bind_assoc, M.bind_ok e1]
  rw [← bind_assoc, M.bind_ok e2]
  generalize f (fl (project l.view.sizes sv)) (fr (project r.view.sizes sv)) = w
  cases w <;> rfl

theorem zipLoop_ok {H : Heap F} {dst l r : Impl} {fl fr g : List Nat → Val F} {D S L R : DType} {range : List Nat}
    {f : Val F → Val F → Res (Val F)} (hw : Slots H dst) (hrange : dst.view.sizes = range) (hD : dst.dtype = D)
    (hl : Reads H l fl) (hr : Reads H r fr) (hL : l.dtype = L) (hR : r.dtype = R)
    (hdl : l.data ≠ dst.data) (hdr : r.data ≠ dst.data)
    (h1 : ∀ idx, InBox range idx → Reaches l idx) (h2 : ∀ idx, InBox range idx → Reaches r idx)
    (hg : ∀ idx, InBox range idx →
      (f (fl (project l.view.sizes idx)) (fr (project r.view.sizes idx)) >>= cConv S D) = .ok (g idx) ∧
      (g idx).HasType D) :
    ∃ c', zipLoop D S L R range f dst l r H = .ok () (H.setCells dst.data c') ∧
      Reads (H.setCells dst.data c') dst g := by
  subst hD hrange
  obtain ⟨c', e1, e2, _⟩ := runAll_assign hw (v := g) (op := fun sv => do
    let x ← load L l (← M.lift (cntFromAugIndex l.view sv))
    let y ← load R r (← M.lift (cntFromAugIndex r.view sv))
    let z ← M.lift (f x y)
    let z ← M.lift (cConv S dst.dtype z)
    store dst.dtype dst (← M.lift (cntFromAugIndex dst.view sv)) z) (fun idx hb => (hg idx hb).2) (by
      intro idx hb c
      refine (zipBody (hl.setCells_ne hdl c) (hr.setCells_ne hdr c) hL hR (h1 idx hb) (h2 idx hb) f).trans ?_
      rw [(hg idx hb).1, M.bind_ok (M.lift_ok _ _), hw.aug hb, M.bind_ok (M.lift_ok _ _)])
  refine ⟨c', ?_, e2⟩
  unfold zipLoop
  rw [forEach_eq]
  exact e1

end
end INNC
