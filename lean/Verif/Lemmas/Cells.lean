import Verif.Lemmas.Monad
import Verif.Lemmas.Layout
import Verif.Spec.Heap
/-
Loads, stores and loops that write one storage.
-/
namespace INNC
open Spec
variable {F : Type}

theorem Layout.pos_eq (v : Layout) (idx : List Nat) : v.pos idx = position v idx := rfl

/-- Replace the elements of storage `d`. -/
def Heap.setCells (h : Heap F) (d : Nat) (c : List (Option (Val F))) : Heap F :=
  { h with st := h.st.modify d fun s => { s with blob := some c } }

@[simp] theorem Heap.setCells_ts (h : Heap F) (d : Nat) (c) : (h.setCells d c).ts = h.ts := rfl
@[simp] theorem Heap.setCells_gver (h : Heap F) (d : Nat) (c) : (h.setCells d c).gver = h.gver := rfl
@[simp] theorem Heap.setCells_st_length (h : Heap F) (d : Nat) (c) : (h.setCells d c).st.length = h.st.length := by
  simp [Heap.setCells]

theorem Heap.setCells_st_self {h : Heap F} {d : Nat} {s : Storage F} (hs : h.st[d]? = some s) (c) :
    (h.setCells d c).st[d]? = some { s with blob := some c } := by
  simp [Heap.setCells, hs]

theorem Heap.setCells_st_ne (h : Heap F) {d e : Nat} (hd : e ≠ d) (c) : (h.setCells d c).st[e]? = h.st[e]? := by
  simp [Heap.setCells, List.getElem?_modify, hd.symm]

theorem Heap.setCells_setCells (h : Heap F) (d : Nat) (c c') : (h.setCells d c).setCells d c' = h.setCells d c' := by
  unfold Heap.setCells
  congr 1
  apply List.ext_getElem?
  intro e
  simp only [List.getElem?_modify]
  split <;> cases h.st[e]? <;> rfl

theorem Heap.setCells_eq_self {h : Heap F} {d : Nat} {s : Storage F} {c} (hs : h.st[d]? = some s)
    (hb : s.blob = some c) : h.setCells d c = h := by
  unfold Heap.setCells
  cases h with
  | mk st ts gver =>
    congr 1
    apply List.ext_getElem?
    intro e
    rw [List.getElem?_modify]
    by_cases he : d = e
    · subst he
      simp only at hs
      rw [hs]
      cases s; simp_all
    · simp [he]

theorem load_ok {h : Heap F} {ty : DType} {i : Impl} {p : Nat} {s : Storage F} {cells : List (Option (Val F))}
    {v : Val F} (hs : h.st[i.data]? = some s) (hd : s.dt = ty) (hb : s.blob = some cells)
    (hc : cells[p]? = some (some v)) : load ty i p h = .ok v h := by
  simp only [load]
  rw [M.bind_ok (getS_ok hs)]
  simp [hb, hd, hc]

theorem store_ok {h : Heap F} {ty : DType} {i : Impl} {p : Nat} {s : Storage F} {cells : List (Option (Val F))}
    {v : Val F} (hs : h.st[i.data]? = some s) (hd : s.dt = ty) (hb : s.blob = some cells) (hc : p < cells.length) :
    store ty i p v h = .ok () (h.setCells i.data (cells.set p (some v))) := by
  simp only [store]
  rw [M.bind_ok (getS_ok hs)]
  simp only [hb, hd, ne_eq, not_true_eq_false, if_false, hc, if_true, setS, Heap.setCells]
  congr 2
  apply List.ext_getElem?
  intro e
  rw [List.getElem?_modify, List.getElem?_set]
  by_cases he : i.data = e
  · subst he
    have : i.data < h.st.length := by
      by_contra hc'
      rw [List.getElem?_eq_none (by omega)] at hs
      simp at hs
    rw [hs]
    simp [this, hd]
  · simp [he]

/-! ### A loop that writes a single storage -/

theorem runAll_cells {α : Type} (op : α → M F Unit) (h : Heap F) (d : Nat)
    (upd : α → List (Option (Val F)) → List (Option (Val F))) (P : List (Option (Val F)) → Prop) :
    ∀ (l : List α) (c : List (Option (Val F))), P c →
      (∀ x ∈ l, ∀ c, P c → P (upd x c)) →
      (∀ x ∈ l, ∀ c, P c → op x (h.setCells d c) = .ok () (h.setCells d (upd x c))) →
      runAll op l (h.setCells d c) = .ok () (h.setCells d (l.foldl (fun c x => upd x c) c)) := by
  intro l
  induction l with
  | nil => intro c _ _ _; rfl
  | cons x l ih =>
    intro c hc hP hop
    rw [runAll, M.bind_ok (hop x (by simp) c hc), List.foldl_cons]
    exact ih _ (hP x (by simp) c hc) (fun y hy => hP y (by simp [hy])) (fun y hy => hop y (by simp [hy]))

/-- Folding element updates: each cell ends up with the updates aimed at it, in order. -/
theorem foldl_modify_getElem? {α β : Type} (p : α → Nat) (u : α → β → β) (q : Nat) : ∀ (l : List α) (c : List β),
    (l.foldl (fun c x => c.modify (p x) (u x)) c)[q]? =
      (c[q]?).map fun b => (l.filter fun x => decide (p x = q)).foldl (fun b x => u x b) b := by
  intro l
  induction l with
  | nil => intro c; simp
  | cons x l ih =>
    intro c
    rw [List.foldl_cons, ih, List.getElem?_modify]
    by_cases h : p x = q
    · simp [h, Option.map_map, Function.comp_def]
    · simp [h]

theorem foldl_modify_length {α β : Type} (p : α → Nat) (u : α → β → β) : ∀ (l : List α) (c : List β),
    (l.foldl (fun c x => c.modify (p x) (u x)) c).length = c.length := by
  intro l
  induction l with
  | nil => intro c; rfl
  | cons x l ih => intro c; rw [List.foldl_cons, ih]; simp

theorem filter_eq_singleton {α : Type} {l : List α} (hn : l.Nodup) {x : α} (hx : x ∈ l) (q : α → Bool)
    (hq : ∀ y ∈ l, q y = true ↔ y = x) : l.filter q = [x] := by
  induction l with
  | nil => simp at hx
  | cons a l ih =>
    rw [List.nodup_cons] at hn
    rw [List.filter_cons]
    by_cases ha : a = x
    · subst ha
      have h1 : q a = true := (hq a (by simp)).2 rfl
      rw [h1, if_pos rfl]
      congr 1
      rw [List.filter_eq_nil_iff]
      intro y hy hqy
      have := (hq y (by simp [hy])).1 hqy
      exact hn.1 (this ▸ hy)
    · have h1 : ¬ q a = true := fun h => ha ((hq a (by simp)).1 h)
      rw [if_neg h1]
      exact ih hn.2 ((List.mem_cons.1 hx).resolve_left (fun h => ha h.symm)) fun y hy => hq y (by simp [hy])

/-- If the update positions are distinct, the cell of `x` holds exactly its own update. -/
theorem foldl_modify_at {α β : Type} (p : α → Nat) (u : α → β → β) {l : List α} (hn : l.Nodup)
    (hp : ∀ x ∈ l, ∀ y ∈ l, p x = p y → x = y) {x : α} (hx : x ∈ l) (c : List β) :
    (l.foldl (fun c x => c.modify (p x) (u x)) c)[p x]? = (c[p x]?).map (u x) := by
  rw [foldl_modify_getElem?, filter_eq_singleton hn hx _ (fun y hy => by
    simp only [decide_eq_true_eq]; exact ⟨fun h => hp y hy x hx h, fun h => by rw [h]⟩)]
  rfl

theorem foldl_modify_ne {α β : Type} (p : α → Nat) (u : α → β → β) {l : List α} {q : Nat}
    (hq : ∀ x ∈ l, p x ≠ q) (c : List β) :
    (l.foldl (fun c x => c.modify (p x) (u x)) c)[q]? = c[q]? := by
  rw [foldl_modify_getElem?, List.filter_eq_nil_iff.2 (fun x hx => by simpa using hq x hx)]
  simp

theorem set_eq_modify {α : Type} (l : List α) (p : Nat) (v : α) : l.set p v = l.modify p fun _ => v := by
  apply List.ext_getElem?
  intro e
  rw [List.getElem?_modify, List.getElem?_set]
  by_cases he : p = e
  · subst he
    by_cases hl : p < l.length <;> simp [hl]
  · simp [he]

/-! ### Reading a tensor -/

theorem Spec.Reads.pos_lt {h : Heap F} {i : Impl} {f : List Nat → Val F} (hr : Reads h i f) {idx : List Nat}
    (hb : InBox i.view.sizes idx) : wrapU (i.view.pos idx) = (position i.view idx).toNat ∧
      0 ≤ position i.view idx ∧ position i.view idx < 9223372036854775808 := by
  obtain ⟨s, cells, _, _, _, hlen, hc⟩ := hr.cells
  obtain ⟨p, hp, hcp⟩ := hc idx hb
  have hlt : p < cells.length := by
    by_contra hc'
    rw [List.getElem?_eq_none (by omega)] at hcp; simp at hcp
  rw [Layout.pos_eq, hp]
  exact ⟨by rw [wrapU_eq_toNat (by omega) (by omega)], by omega, by omega⟩

theorem Spec.Reads.load_index {h : Heap F} {i : Impl} {f : List Nat → Val F} (hr : Reads h i f) {idx : List Nat}
    (hb : InBox i.view.sizes idx) :
    (do load i.dtype i (← M.lift (cntFromIndex i.view idx)) : M F (Val F)) h = .ok (f idx) h := by
  have h1 := hr.pos_lt hb
  obtain ⟨s, cells, hs, hd, hbl, hlen, hc⟩ := hr.cells
  obtain ⟨p, hp, hcp⟩ := hc idx hb
  rw [cntFromIndex_eq hb.length (by rw [hr.strides]) hr.offset, h1.1, hp]
  rw [M.bind_ok (M.lift_ok _ _)]
  exact load_ok hs hd hbl (by simpa using hcp)

theorem Spec.Reads.load_aug {h : Heap F} {i : Impl} {f : List Nat → Val F} (hr : Reads h i f) {idx : List Nat}
    (hl : i.view.sizes.length ≤ idx.length) (hb : InBox i.view.sizes (project i.view.sizes idx)) :
    (do load i.dtype i (← M.lift (cntFromAugIndex i.view idx)) : M F (Val F)) h =
      .ok (f (project i.view.sizes idx)) h := by
  rw [cntFromAugIndex_project hl hb]
  exact hr.load_index hb

/-- Writing another storage does not change what a tensor reads. -/
theorem Spec.Reads.setCells_ne {h : Heap F} {i : Impl} {f : List Nat → Val F} (hr : Reads h i f) {d : Nat}
    (hd : i.data ≠ d) (c) : Reads (h.setCells d c) i f where
  strides := hr.strides
  offset := hr.offset
  cells := by
    obtain ⟨s, cells, hs, rest⟩ := hr.cells
    exact ⟨s, cells, by rw [Heap.setCells_st_ne _ hd]; exact hs, rest⟩
  typed := hr.typed

theorem Spec.Reads.extends {h h' : Heap F} {i : Impl} {f : List Nat → Val F} (hr : Reads h i f)
    (he : ∀ s, h.st[i.data]? = some s → h'.st[i.data]? = some s) : Reads h' i f where
  strides := hr.strides
  offset := hr.offset
  cells := by
    obtain ⟨s, cells, hs, rest⟩ := hr.cells
    exact ⟨s, cells, he s hs, rest⟩
  typed := hr.typed

theorem Spec.Reads.congr {h : Heap F} {i : Impl} {f g : List Nat → Val F} (hr : Reads h i f)
    (hfg : ∀ idx, InBox i.view.sizes idx → f idx = g idx) : Reads h i g where
  strides := hr.strides
  offset := hr.offset
  cells := by
    obtain ⟨s, cells, hs, h1, h2, h3, h4⟩ := hr.cells
    exact ⟨s, cells, hs, h1, h2, h3, fun idx hb => by rw [← hfg idx hb]; exact h4 idx hb⟩
  typed := fun idx hb => by rw [← hfg idx hb]; exact hr.typed idx hb

/-- A tensor object whose elements can be written: positions distinct and inside an allocated storage. -/
structure Slots (h : Heap F) (i : Impl) : Prop where
  strides : i.view.strides.length = i.view.sizes.length
  offset : i.view.offset < 18446744073709551616
  cells : ∃ s cells, h.st[i.data]? = some s ∧ s.dt = i.dtype ∧ s.blob = some cells ∧
    cells.length < 9223372036854775808 ∧
    ∀ idx, InBox i.view.sizes idx → ∃ p : Nat, position i.view idx = p ∧ p < cells.length
  inj : ∀ a b, InBox i.view.sizes a → InBox i.view.sizes b → position i.view a = position i.view b → a = b

theorem Slots.wrap {h : Heap F} {i : Impl} (hr : Slots h i) {idx : List Nat} (hb : InBox i.view.sizes idx) :
    wrapU (i.view.pos idx) = (position i.view idx).toNat ∧ 0 ≤ position i.view idx := by
  obtain ⟨s, cells, _, _, _, hlen, hc⟩ := hr.cells
  obtain ⟨p, hp, hcp⟩ := hc idx hb
  rw [Layout.pos_eq, hp]
  exact ⟨by rw [wrapU_eq_toNat (by omega) (by omega)], by omega⟩

/-- Element-by-element assignment to distinct positions: `op` computes `v idx` and stores it at `idx`. -/
theorem runAll_assign {h : Heap F} {dst : Impl} (hw : Slots h dst) (op : List Nat → M F Unit)
    (v : List Nat → Val F) (hv : ∀ idx, InBox dst.view.sizes idx → (v idx).HasType dst.dtype)
    (hop : ∀ idx, InBox dst.view.sizes idx → ∀ c,
      op idx (h.setCells dst.data c) =
        (do store dst.dtype dst (wrapU (dst.view.pos idx)) (v idx) : M F Unit) (h.setCells dst.data c)) :
    ∃ c', runAll op (rowMajor dst.view.sizes) h = .ok () (h.setCells dst.data c') ∧
      Reads (h.setCells dst.data c') dst v ∧
      ∃ s cells, h.st[dst.data]? = some s ∧ s.blob = some cells ∧ c'.length = cells.length := by
  obtain ⟨s, cells, hs, hd, hb, hlen, hc⟩ := hw.cells
  have hh : h.setCells dst.data cells = h := Heap.setCells_eq_self hs hb
  let p : List Nat → Nat := fun idx => (position dst.view idx).toNat
  have hp : ∀ idx, InBox dst.view.sizes idx → wrapU (dst.view.pos idx) = p idx ∧ p idx < cells.length := by
    intro idx hi
    refine ⟨(hw.wrap hi).1, ?_⟩
    obtain ⟨q, hq, hql⟩ := hc idx hi
    simp only [p, hq]; simpa using hql
  have hrun := runAll_cells op h dst.data (fun idx c => c.modify (p idx) (fun _ => some (v idx)))
    (fun c => c.length = cells.length) (rowMajor dst.view.sizes) cells rfl
    (fun x _ c hc => by simpa using hc)
    (fun x hx c hc => by
      have hx' := mem_rowMajor.1 hx
      rw [hop x hx' c, (hp x hx').1, store_ok (Heap.setCells_st_self hs c) hd rfl (by rw [hc]; exact (hp x hx').2),
        Heap.setCells_setCells, set_eq_modify])
  rw [hh] at hrun
  refine ⟨_, hrun, ?_, s, cells, hs, hb, ?_⟩
  · refine ⟨hw.strides, hw.offset, ⟨_, _, Heap.setCells_st_self hs _, hd, rfl, ?_, ?_⟩, hv⟩
    · rw [foldl_modify_length]; exact hlen
    · intro idx hi
      have hwi := hw.wrap hi
      refine ⟨p idx, by simp only [p]; omega, ?_⟩
      rw [foldl_modify_at p (fun idx _ => some (v idx)) (nodup_rowMajor _) ?_ (mem_rowMajor.2 hi)]
      · rw [List.getElem?_eq_getElem (hp idx hi).2]; rfl
      · intro a ha b hb hab
        have h1 := hw.wrap (mem_rowMajor.1 ha)
        have h2 := hw.wrap (mem_rowMajor.1 hb)
        apply hw.inj a b (mem_rowMajor.1 ha) (mem_rowMajor.1 hb)
        simp only [p] at hab; omega
  · rw [foldl_modify_length]

end INNC
