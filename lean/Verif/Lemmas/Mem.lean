import Verif.Spec.Memory
import Verif.Lemmas.Abs
import Verif.Lemmas.Reshape
/-
A program logic for memory safety: computations keep every tensor object and every initialised element, and their undefined
behaviour comes from values only.
-/
namespace INNC
open Spec Tensor
variable {F : Type}

/-- Tensor objects keep type, view and storage; storages keep type and length, and initialised elements stay initialised. -/
structure Retains (h h' : Heap F) : Prop where
  ts : ∀ (t : Nat) (i : Impl), h.ts[t]? = some i →
    ∃ i' : Impl, h'.ts[t]? = some i' ∧ i'.dtype = i.dtype ∧ i'.view = i.view ∧ i'.data = i.data
  st : ∀ (d : Nat) (s : Storage F), h.st[d]? = some s → ∃ s' : Storage F, h'.st[d]? = some s' ∧ s'.dt = s.dt ∧
    ∀ cells, s.blob = some cells → ∃ cells', s'.blob = some cells' ∧ cells'.length = cells.length ∧
      ∀ (p : Nat) (v : Val F), cells[p]? = some (some v) → v.HasType s.dt → ∃ v' : Val F, cells'[p]? = some (some v') ∧ v'.HasType s.dt

theorem Retains.refl (h : Heap F) : Retains h h where
  ts := fun t i hi => ⟨i, hi, rfl, rfl, rfl⟩
  st := fun d s hs => ⟨s, hs, rfl, fun c hc => ⟨c, hc, rfl, fun p v hp hv => ⟨v, hp, hv⟩⟩⟩

theorem Retains.trans {a b c : Heap F} (h1 : Retains a b) (h2 : Retains b c) : Retains a c where
  ts := fun t i hi => by
    obtain ⟨j, hj, e1, e2, e3⟩ := h1.ts t i hi
    obtain ⟨k, hk, f1, f2, f3⟩ := h2.ts t j hj
    exact ⟨k, hk, f1.trans e1, f2.trans e2, f3.trans e3⟩
  st := fun d s hs => by
    obtain ⟨s1, hs1, e1, k1⟩ := h1.st d s hs
    obtain ⟨s2, hs2, e2, k2⟩ := h2.st d s1 hs1
    refine ⟨s2, hs2, e2.trans e1, fun c hc => ?_⟩
    obtain ⟨c1, hc1, l1, p1⟩ := k1 c hc
    obtain ⟨c2, hc2, l2, p2⟩ := k2 c1 hc1
    refine ⟨c2, hc2, l2.trans l1, fun p v hp hv => ?_⟩
    obtain ⟨v1, q1, t1⟩ := p1 p v hp hv
    obtain ⟨v2, q2, t2⟩ := p2 p v1 q1 (by rw [e1]; exact t1)
    exact ⟨v2, q2, by rw [← e1]; exact t2⟩

instance : Pre (F := F) Retains := ⟨Retains.refl, Retains.trans⟩

theorem Spec.Extends.retains {h h' : Heap F} (he : Extends h h') : Retains h h' where
  ts := fun t i hi => ⟨i, he.ts t i hi, rfl, rfl, rfl⟩
  st := fun d s hs => ⟨s, he.st d s hs, rfl, fun c hc => ⟨c, hc, rfl, fun p v hp hv => ⟨v, hp, hv⟩⟩⟩

theorem Spec.Preserves.retains {h h' : Heap F} (he : Preserves h h') : Retains h h' where
  ts := he.ts
  st := fun d s hs => ⟨s, he.st d s hs, rfl, fun c hc => ⟨c, hc, rfl, fun p v hp hv => ⟨v, hp, hv⟩⟩⟩

/-! ### Places -/

/-- There is an element number `p` in the storage of `i`. -/
def Spot (h : Heap F) (i : Impl) (p : Nat) : Prop :=
  ∃ s cells, h.st[i.data]? = some s ∧ s.dt = i.dtype ∧ s.blob = some cells ∧ p < cells.length

/-- Element number `p` of the storage of `i` is initialised. -/
def Ready (h : Heap F) (i : Impl) (p : Nat) : Prop :=
  ∃ s cells v, h.st[i.data]? = some s ∧ s.dt = i.dtype ∧ s.blob = some cells ∧ cells[p]? = some (some v) ∧ v.HasType i.dtype

theorem Ready.spot {h : Heap F} {i : Impl} {p : Nat} (hr : Ready h i p) : Spot h i p := by
  obtain ⟨s, c, v, h1, h2, h3, h4, _⟩ := hr
  exact ⟨s, c, h1, h2, h3, getElem?_lt h4⟩

theorem Spot.retains {h h' : Heap F} {i : Impl} {p : Nat} (hr : Spot h i p) (hk : Retains h h') : Spot h' i p := by
  obtain ⟨s, c, h1, h2, h3, h4⟩ := hr
  obtain ⟨s', g1, g2, g3⟩ := hk.st _ s h1
  obtain ⟨c', k1, k2, _⟩ := g3 c h3
  exact ⟨s', c', g1, g2.trans h2, k1, by omega⟩

theorem Ready.retains {h h' : Heap F} {i : Impl} {p : Nat} (hr : Ready h i p) (hk : Retains h h') : Ready h' i p := by
  obtain ⟨s, c, v, h1, h2, h3, h4, h5⟩ := hr
  obtain ⟨s', g1, g2, g3⟩ := hk.st _ s h1
  obtain ⟨c', k1, k2, k3⟩ := g3 c h3
  obtain ⟨v', q1, q2⟩ := k3 p v h4 (by rw [h2]; exact h5)
  exact ⟨s', c', v', g1, g2.trans h2, k1, q1, by rw [← h2]; exact q2⟩

/-- The elements of a tensor lie inside an allocated storage of fewer than 2^62 bytes. -/
structure Sites (h : Heap F) (i : Impl) : Prop where
  strides : i.view.strides.length = i.view.sizes.length
  offset : i.view.offset < 18446744073709551616
  cells : ∃ s cells, h.st[i.data]? = some s ∧ s.dt = i.dtype ∧ s.blob = some cells ∧
    cells.length * i.dtype.size < 4611686018427387904 ∧
    ∀ idx, InBox i.view.sizes idx → ∃ p : Nat, position i.view idx = p ∧ p < cells.length

theorem Sites.retains {h h' : Heap F} {i : Impl} (hr : Sites h i) (hk : Retains h h') : Sites h' i where
  strides := hr.strides
  offset := hr.offset
  cells := by
    obtain ⟨s, c, h1, h2, h3, h4, h5⟩ := hr.cells
    obtain ⟨s', g1, g2, g3⟩ := hk.st _ s h1
    obtain ⟨c', k1, k2, _⟩ := g3 c h3
    exact ⟨s', c', g1, g2.trans h2, k1, by rw [k2]; exact h4, fun idx hb => by rw [k2]; exact h5 idx hb⟩

theorem Sites.len {h : Heap F} {i : Impl} (hr : Sites h i) : ∃ s cells, h.st[i.data]? = some s ∧ s.dt = i.dtype ∧ s.blob = some cells ∧
    cells.length < 4611686018427387904 := by
  obtain ⟨s, c, h1, h2, h3, h4, _⟩ := hr.cells
  have := Nat.le_mul_of_pos_right c.length i.dtype.size_pos
  exact ⟨s, c, h1, h2, h3, by omega⟩

theorem Sites.index {h : Heap F} {i : Impl} (hr : Sites h i) {idx : List Nat} (hb : InBox i.view.sizes idx) :
    ∃ p : Nat, cntFromIndex i.view idx = .ok p ∧ position i.view idx = p ∧ Spot h i p := by
  obtain ⟨s, c, h1, h2, h3, h4, h5⟩ := hr.cells
  obtain ⟨p, hp, hl⟩ := h5 idx hb
  have := Nat.le_mul_of_pos_right c.length i.dtype.size_pos
  refine ⟨p, ?_, hp, s, c, h1, h2, h3, hl⟩
  rw [cntFromIndex_eq hb.length (by rw [hr.strides]) hr.offset, Layout.pos_eq, hp, wrapU_natCast (by omega)]

/-- A broadcast index either is rejected or is an index of the tensor. -/
theorem augRev_cases : ∀ (ss is : List Nat), ss.length ≤ is.length →
    (∃ e, augRev ss is = .throw e) ∨ ∃ k, augRev ss is = .ok k ∧ InBox ss k
  | [], is, _ => .inr ⟨[], rfl, trivial⟩
  | s :: ss, [], h => by simp at h
  | s :: ss, i :: is, h => by
    simp only [augRev]
    have hl : ss.length ≤ is.length := by simpa using h
    by_cases h1 : s ≠ 1
    · rw [if_pos h1]
      by_cases hi : i < s
      · have e : runExpect (decide (i < s)) = .ok () := by simp [runExpect, hi]
        rw [e]
        rcases augRev_cases ss is hl with ⟨e, he⟩ | ⟨k, hk, hb⟩
        · exact .inl ⟨e, by rw [he]; rfl⟩
        · exact .inr ⟨i :: k, by rw [hk]; rfl, hi, hb⟩
      · have e : runExpect (decide (i < s)) = .throw .runtime := by simp [runExpect, hi]
        rw [e]
        exact .inl ⟨_, rfl⟩
    · rw [if_neg h1]
      simp only [ne_eq, not_not] at h1
      simp only [List.tail_cons]
      rcases augRev_cases ss is hl with ⟨e, he⟩ | ⟨k, hk, hb⟩
      · exact .inl ⟨e, by rw [he]; rfl⟩
      · exact .inr ⟨0 :: k, by rw [hk]; rfl, by omega, hb⟩

theorem Sites.aug {h : Heap F} {i : Impl} (hr : Sites h i) {idx : List Nat} (hl : i.view.sizes.length ≤ idx.length) :
    (∃ e, cntFromAugIndex i.view idx = .throw e) ∨
      ∃ (k : List Nat) (p : Nat), InBox i.view.sizes k ∧ cntFromAugIndex i.view idx = .ok p ∧ position i.view k = p ∧ Spot h i p := by
  unfold cntFromAugIndex
  rcases augRev_cases i.view.sizes.reverse idx.reverse (by simpa using hl) with ⟨e, he⟩ | ⟨k, hk, hb⟩
  · exact .inl ⟨e, by rw [he]; rfl⟩
  · have hb' : InBox i.view.sizes k.reverse := by
      have := inBox_reverse.2 hb
      simpa using this
    obtain ⟨p, e, e', hp⟩ := hr.index hb'
    exact .inr ⟨k.reverse, p, hb', by rw [hk]; exact e, e', hp⟩

theorem Sites.aug_self {h : Heap F} {i : Impl} (hr : Sites h i) {idx : List Nat} (hb : InBox i.view.sizes idx) :
    ∃ p : Nat, cntFromAugIndex i.view idx = .ok p ∧ position i.view idx = p ∧ Spot h i p := by
  obtain ⟨p, e, e', hp⟩ := hr.index hb
  refine ⟨p, ?_, e', hp⟩
  rw [cntFromAugIndex_project (by rw [hb.length]) (by rw [project_self hb]; exact hb), project_self hb, e]

/-- A tensor in good order: its elements lie inside a storage that is initialised completely. -/
structure Sits (h : Heap F) (i : Impl) : Prop extends Sites h i where
  full : ∀ p, Spot h i p → Ready h i p

theorem Sits.retains {h h' : Heap F} {i : Impl} (hr : Sits h i) (hk : Retains h h') : Sits h' i where
  toSites := hr.toSites.retains hk
  full := fun p hp => by
    refine (hr.full p ?_).retains hk
    obtain ⟨s, c, h1, h2, h3, _⟩ := hr.cells
    obtain ⟨s', g1, g2, g3⟩ := hk.st _ s h1
    obtain ⟨c', k1, k2, _⟩ := g3 c h3
    obtain ⟨s2, c2, q1, q2, q3, q4⟩ := hp
    rw [g1] at q1
    obtain rfl := Option.some.inj q1
    rw [k1] at q3
    obtain rfl := Option.some.inj q3
    exact ⟨s, c, h1, h2, h3, by omega⟩

theorem Sits.reads {h : Heap F} {i : Impl} (hr : Sits h i) : ∃ f, Reads h i f := by
  have hv : ∀ idx, InBox i.view.sizes idx → ∃ (p : Nat) (v : Val F) (s : Storage F) (c : List (Option (Val F))), position i.view idx = p ∧
      h.st[i.data]? = some s ∧ s.blob = some c ∧ c[p]? = some (some v) ∧ v.HasType i.dtype := by
    intro idx hb
    obtain ⟨p, _, e, hp⟩ := hr.index hb
    obtain ⟨s, c, v, h1, h2, h3, h4, h5⟩ := hr.full p hp
    exact ⟨p, v, s, c, e, h1, h3, h4, h5⟩
  classical
  obtain ⟨s, c, h1, h2, h3, h4⟩ := hr.len
  refine ⟨fun idx => if hb : InBox i.view.sizes idx then (hv idx hb).choose_spec.choose else .i 0, hr.strides, hr.offset,
    ⟨s, c, h1, h2, h3, by omega, fun idx hb => ?_⟩, fun idx hb => ?_⟩
  · obtain ⟨s', c', e, e1, e2, e3, e4⟩ := (hv idx hb).choose_spec.choose_spec
    rw [h1] at e1
    obtain rfl := Option.some.inj e1
    rw [h3] at e2
    obtain rfl := Option.some.inj e2
    exact ⟨_, e, by rw [dif_pos hb]; exact e3⟩
  · obtain ⟨s', c', e, e1, e2, e3, e4⟩ := (hv idx hb).choose_spec.choose_spec
    rw [dif_pos hb]; exact e4

theorem Sits.flags {h : Heap F} {i j : Impl} (hr : Sits h i) (h1 : j.dtype = i.dtype) (h2 : j.view = i.view) (h3 : j.data = i.data) :
    Sits h j := by
  refine ⟨⟨by rw [h2]; exact hr.strides, by rw [h2]; exact hr.offset, by rw [h1, h2, h3]; exact hr.cells⟩, fun p hp => ?_⟩
  unfold Spot Ready at *
  rw [h1, h3] at *
  exact hr.full p hp

/-! ### Computations -/

/-- The computation keeps what there is, returns with `Q` or throws, and its undefined behaviour comes from values. -/
def Mem {α : Type} (h : Heap F) (o : Out (Heap F) α) (Q : α → Heap F → Prop) : Prop :=
  match o with
  | .ok a h' => Retains h h' ∧ Q a h'
  | .throw _ h' => Retains h h'
  | .ub u => ByValue u

/-- The same for computations without a heap. -/
def Yields {α : Type} (r : Res α) (P : α → Prop) : Prop :=
  match r with
  | .ok a => P a
  | .throw _ => True
  | .ub u => ByValue u

section
variable {α β : Type} {h : Heap F}

theorem mem_bind {x : M F α} {f : α → M F β} {Q : α → Heap F → Prop} {R : β → Heap F → Prop} (hx : Mem h (x h) Q)
    (hf : ∀ a h', Retains h h' → Q a h' → Mem h' (f a h') R) : Mem h ((x >>= f) h) R := by
  rw [M.bind_def]
  cases hxh : x h with
  | ok a h1 =>
    rw [hxh] at hx
    have := hf a h1 hx.1 hx.2
    simp only
    unfold Mem at this ⊢
    split at this
    · exact ⟨hx.1.trans this.1, this.2⟩
    · exact hx.1.trans this
    · exact this
  | throw e h1 => rw [hxh] at hx; exact hx
  | ub u => rw [hxh] at hx; exact hx

theorem mem_pure {Q : α → Heap F → Prop} {a : α} (hq : Q a h) : Mem h ((pure a : M F α) h) Q := ⟨.refl h, hq⟩

theorem mem_raise {Q : α → Heap F → Prop} (e : Exc) : Mem h ((M.raise e : M F α) h) Q := Retains.refl h

theorem mem_lift {Q : α → Heap F → Prop} {r : Res α} (hr : Yields r fun a => Q a h) : Mem h ((M.lift r : M F α) h) Q := by
  cases r with
  | ok a => exact ⟨.refl h, hr⟩
  | throw e => exact Retains.refl h
  | ub u => exact hr

theorem mem_mono {o : Out (Heap F) α} {Q R : α → Heap F → Prop} (ho : Mem h o Q) (hq : ∀ a h', Retains h h' → Q a h' → R a h') :
    Mem h o R := by
  unfold Mem at *
  split
  · exact ⟨ho.1, hq _ _ ho.1 ho.2⟩
  · exact ho
  · exact ho

theorem mem_ok {o : Out (Heap F) α} {Q : α → Heap F → Prop} {a : α} {h' : Heap F} (e : o = .ok a h') (hk : Retains h h') (hq : Q a h') :
    Mem h o Q := by rw [e]; exact ⟨hk, hq⟩

theorem mem_throw {o : Out (Heap F) α} {Q : α → Heap F → Prop} {e : Exc} {h' : Heap F} (e : o = .throw e h') (hk : Retains h h') :
    Mem h o Q := by rw [e]; exact hk

theorem mem_expect {b : Bool} : Mem h ((expect b : M F Unit) h) fun _ _ => b = true := by
  cases b
  · exact Retains.refl h
  · exact ⟨.refl h, rfl⟩

theorem mem_getT {t : Nat} {i : Impl} (hi : h.ts[t]? = some i) : Mem h ((getT t : M F Impl) h) fun j h' => j = i ∧ h' = h := by
  rw [getT_ok hi]; exact ⟨.refl h, rfl, rfl⟩

theorem mem_runAll {γ : Type} {op : γ → M F Unit} {D : γ → Heap F → Prop}
    (hD : ∀ x h1 h2, D x h1 → Retains h1 h2 → D x h2) : ∀ (l : List γ) (h : Heap F),
      (∀ x ∈ l, ∀ h', Retains h h' → Mem h' (op x h') fun _ h'' => D x h'') →
      Mem h (runAll op l h) fun _ h' => ∀ x ∈ l, D x h'
  | [], h, _ => mem_pure (by simp)
  | x :: l, h, hop => by
    refine mem_bind (hop x (by simp) h (.refl h)) fun _ h1 k1 d1 => ?_
    refine mem_mono (mem_runAll hD l h1 fun y hy h' k => hop y (by simp [hy]) h' (k1.trans k)) fun _ h2 k2 d2 => ?_
    intro y hy
    rcases List.mem_cons.1 hy with rfl | hy
    · exact hD _ _ _ d1 k2
    · exact d2 y hy

theorem mem_forEach {range : List Nat} {op : List Nat → M F Unit} {D : List Nat → Heap F → Prop}
    (hD : ∀ x h1 h2, D x h1 → Retains h1 h2 → D x h2)
    (hop : ∀ sv, InBox range sv → ∀ h', Retains h h' → Mem h' (op sv h') fun _ h'' => D sv h'') :
    Mem h (forEach range op h) fun _ h' => ∀ sv, InBox range sv → D sv h' := by
  rw [forEach_eq]
  refine mem_mono (mem_runAll hD _ h fun x hx => hop x (mem_rowMajor.1 hx)) fun _ h' _ hq sv hb => hq sv (mem_rowMajor.2 hb)

theorem yields_bind {x : Res α} {f : α → Res β} {P : α → Prop} {Q : β → Prop} (hx : Yields x P) (hf : ∀ a, P a → Yields (f a) Q) :
    Yields (x >>= f) Q := by
  cases x with
  | ok a => exact hf a hx
  | throw e => trivial
  | ub u => exact hx

theorem yields_mono {x : Res α} {P Q : α → Prop} (hx : Yields x P) (hf : ∀ a, P a → Q a) : Yields x Q := by
  cases x with
  | ok a => exact hf a hx
  | throw e => trivial
  | ub u => exact hx

end

/-! ### Elements -/

theorem mem_load {h : Heap F} {i : Impl} {p : Nat} (hr : Ready h i p) {ty : DType} (hty : ty = i.dtype) :
    Mem h ((load ty i p : M F (Val F)) h) fun v _ => v.HasType ty := by
  obtain ⟨s, c, v, h1, h2, h3, h4, h5⟩ := hr
  subst hty
  rw [load_ok h1 h2 h3 h4]
  exact ⟨.refl h, h5⟩

theorem retains_set {h : Heap F} {d : Nat} {s : Storage F} {c : List (Option (Val F))} {p : Nat} {v : Val F}
    (hs : h.st[d]? = some s) (hb : s.blob = some c) (hv : v.HasType s.dt) : Retains h (h.setCells d (c.set p (some v))) where
  ts := fun t i hi => ⟨i, hi, rfl, rfl, rfl⟩
  st := fun e s' hs' => by
    by_cases he : e = d
    · subst he
      rw [hs] at hs'
      obtain rfl := Option.some.inj hs'
      refine ⟨_, Heap.setCells_st_self hs _, rfl, fun c' hc' => ⟨_, rfl, ?_, fun q w hq hw => ?_⟩⟩
      · rw [hb] at hc'
        obtain rfl := Option.some.inj hc'
        simp
      · rw [hb] at hc'
        obtain rfl := Option.some.inj hc'
        by_cases hpq : p = q
        · subst hpq
          exact ⟨v, by rw [List.getElem?_set_self (getElem?_lt hq)], hv⟩
        · exact ⟨w, by rw [List.getElem?_set_ne hpq]; exact hq, hw⟩
    · exact ⟨s', by rw [Heap.setCells_st_ne _ he]; exact hs', rfl, fun c' hc' => ⟨c', hc', rfl, fun q w hq hw => ⟨w, hq, hw⟩⟩⟩

theorem mem_store {h : Heap F} {i : Impl} {p : Nat} {v : Val F} {ty : DType} (hr : Spot h i p) (hty : ty = i.dtype) (hv : v.HasType ty) :
    Mem h ((store ty i p v : M F Unit) h) fun _ h' => Ready h' i p := by
  obtain ⟨s, c, h1, h2, h3, h4⟩ := hr
  subst hty
  rw [store_ok h1 h2 h3 h4]
  refine ⟨retains_set h1 h3 (by rw [h2]; exact hv), _, _, v, Heap.setCells_st_self h1 _, h2, rfl, ?_, hv⟩
  rw [List.getElem?_set_self h4]

/-- Reading an element by index. -/
theorem mem_loadIndex {h : Heap F} {i : Impl} (hr : Sits h i) {idx : List Nat} (hb : InBox i.view.sizes idx) {ty : DType} (hty : ty = i.dtype) :
    Mem h ((do load ty i (← M.lift (cntFromIndex i.view idx)) : M F (Val F)) h) fun v _ => v.HasType ty := by
  obtain ⟨p, e, _, hp⟩ := hr.index hb
  rw [e, M.bind_ok (M.lift_ok _ _)]
  exact mem_load (hr.full p hp) hty

theorem mem_loadAug {h : Heap F} {i : Impl} (hr : Sits h i) {idx : List Nat} (hl : i.view.sizes.length ≤ idx.length) {ty : DType} (hty : ty = i.dtype) :
    Mem h ((do load ty i (← M.lift (cntFromAugIndex i.view idx)) : M F (Val F)) h) fun v _ => v.HasType ty := by
  rcases hr.aug hl with ⟨e, he⟩ | ⟨k, p, _, e, _, hp⟩
  · rw [he, M.bind_throw (M.lift_throw _ _)]; exact Retains.refl h
  · rw [e, M.bind_ok (M.lift_ok _ _)]
    exact mem_load (hr.full p hp) hty

/-- The element with index `idx` is initialised. -/
def Wrote (i : Impl) (idx : List Nat) (h : Heap F) : Prop := ∃ p : Nat, position i.view idx = p ∧ Ready h i p

theorem Wrote.retains {i : Impl} {idx : List Nat} {h1 h2 : Heap F} (hw : Wrote i idx h1) (hk : Retains h1 h2) : Wrote i idx h2 := by
  obtain ⟨p, e, hp⟩ := hw
  exact ⟨p, e, hp.retains hk⟩

theorem mem_storeIndex {h : Heap F} {i : Impl} (hr : Sites h i) {idx : List Nat} (hb : InBox i.view.sizes idx) {ty : DType} (hty : ty = i.dtype)
    {v : Val F} (hv : v.HasType ty) : Mem h ((do store ty i (← M.lift (cntFromIndex i.view idx)) v : M F Unit) h) fun _ h' => Wrote i idx h' := by
  obtain ⟨p, e, e', hp⟩ := hr.index hb
  rw [e, M.bind_ok (M.lift_ok _ _)]
  exact mem_mono (mem_store hp hty hv) fun _ h' _ q => ⟨p, e', q⟩

theorem mem_storeAug {h : Heap F} {i : Impl} (hr : Sites h i) {idx : List Nat} (hl : i.view.sizes.length ≤ idx.length) {ty : DType} (hty : ty = i.dtype)
    {v : Val F} (hv : v.HasType ty) :
    Mem h ((do store ty i (← M.lift (cntFromAugIndex i.view idx)) v : M F Unit) h) fun _ h' => InBox i.view.sizes idx → Wrote i idx h' := by
  by_cases hb : InBox i.view.sizes idx
  · obtain ⟨p, e, e', hp⟩ := hr.aug_self hb
    rw [e, M.bind_ok (M.lift_ok _ _)]
    exact mem_mono (mem_store hp hty hv) fun _ h' _ q _ => ⟨p, e', q⟩
  · rcases hr.aug hl with ⟨e, he⟩ | ⟨k, p, _, e, _, hp⟩
    · rw [he, M.bind_throw (M.lift_throw _ _)]; exact Retains.refl h
    · rw [e, M.bind_ok (M.lift_ok _ _)]
      exact mem_mono (mem_store hp hty hv) fun _ h' _ q hb' => absurd hb' hb

end INNC
