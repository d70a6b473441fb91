import Verif.Lemmas.Deriv
/-
One contribution to the gradient of an operand.
-/
namespace INNC
open Spec Tensor
variable {F : Type}

/-! ### Broadcasting -/

theorem bshapeRev_absorb : ∀ {u v r : List Nat}, bshapeRev u v = some r → ¬ stretchRev u v →
    bshapeRev u r = some r ∧ ¬ stretchRev u r
  | [], v, r, h, _ => by
    have : r = v := by cases v <;> simpa [bshapeRev, eq_comm] using h
    subst this
    exact ⟨h, by cases r <;> simp [stretchRev]⟩
  | a :: u, [], r, h, _ => by
    simp [bshapeRev] at h; subst h
    refine ⟨?_, stretchRev_self _⟩
    have := bshape_self (a :: u).reverse
    simpa [bshape] using this
  | a :: u, b :: v, r, h, hs => by
    simp only [bshapeRev] at h
    simp only [stretchRev, not_or] at hs
    split at h
    · next d rs hd hrs =>
      injection h with h
      subst h
      obtain ⟨i1, i2⟩ := bshapeRev_absorb hrs hs.2.2
      have : bdim a d = some d ∧ ¬ (a = 1 ∧ d = 0) ∧ ¬ (a = 0 ∧ d = 1) := by
        unfold bdim at hd ⊢
        split at hd
        · injection hd with hd; subst hd
          simp; omega
        · split at hd
          · injection hd with hd; subst hd
            rename_i h1
            subst h1
            refine ⟨by simp, fun hc => hs.2.1 ⟨rfl, hc.2⟩, by omega⟩
          · split at hd
            · injection hd with hd; subst hd
              simp; omega
            · simp at hd
      refine ⟨by simp only [bshapeRev, this.1, i1], ?_⟩
      simp only [stretchRev, not_or]
      exact ⟨this.2.2, this.2.1, i2⟩
    · simp at h

theorem Spec.Broadcasts.comm {u v s : List Nat} (h : Broadcasts u v s) : Broadcasts v u s :=
  ⟨by rw [bshape_comm]; exact h.1, fun hc => h.2 ((stretchRev_comm _ _).1 hc)⟩

theorem Spec.Broadcasts.left {u v s : List Nat} (h : Broadcasts u v s) : Broadcasts u s s := by
  obtain ⟨h1, h2⟩ := h
  simp only [bshape, Option.map_eq_some_iff] at h1
  obtain ⟨r, hr, rfl⟩ := h1
  obtain ⟨k1, k2⟩ := bshapeRev_absorb hr h2
  exact ⟨by simp [bshape, k1], by unfold stretched; rw [List.reverse_reverse]; exact k2⟩

theorem Spec.Broadcasts.right {u v s : List Nat} (h : Broadcasts u v s) : Broadcasts s v s := h.comm.left.comm
theorem broadcasts_self (s : List Nat) : Broadcasts s s s := ⟨bshape_self s, stretchRev_self _⟩
theorem broadcasts_nil (s : List Nat) : Broadcasts s [] s := by
  refine ⟨?_, ?_⟩
  · have : ∀ l : List Nat, bshapeRev l [] = some l := fun l => by cases l <;> rfl
    simp [bshape, this]
  · unfold stretched
    cases s.reverse <;> simp [stretchRev]

theorem Spec.Broadcasts.inBox {u v s idx : List Nat} (h : Broadcasts u v s) (hi : InBox s idx) : InBox u (project u idx) :=
  project_inBox_left h.1 hi

theorem Spec.Broadcasts.reaches {u v s idx : List Nat} {i : Impl} (h : Broadcasts u v s) (hu : i.view.sizes = u)
    (hi : InBox s idx) : Reaches i idx :=
  ⟨by rw [hi.length, hu]; exact bshape_length_left h.1, by rw [hu]; exact h.inBox hi⟩

/-! ### Reading gradients and data -/
variable [Field F] [FOps F]

/-- The elements of a tensor of the graph are still there. -/
theorem GInv.data {h : Heap F} {t : Nat} {P : List Nat} {D : Nat → Option Nat} {A : Nat → List Nat → F} {H : Heap F}
    (hG : GInv h t P D A H) {x : Nat} {i : Impl} {f : List Nat → Val F} (hr : ReadStore h t i.data) (hi : h.ts[x]? = some i)
    (hf : Reads h i f) : ∃ i', H.ts[x]? = some i' ∧ i'.dtype = i.dtype ∧ i'.view = i.view ∧ i'.data = i.data ∧
      i'.requiresGrad = i.requiresGrad ∧ Reads H i' f := by
  obtain ⟨i', h1, h2, h3, h4, h5, _⟩ := hG.obj hi
  refine ⟨i', h1, h2, h3, h4, h5, ?_⟩
  obtain ⟨s, c, hs, hdt, hb, hlen, hc⟩ := hf.cells
  refine ⟨by rw [h3]; exact hf.strides, by rw [h3]; exact hf.offset, ⟨s, c, ?_, by rw [h2]; exact hdt, hb, hlen, ?_⟩, ?_⟩
  · rw [h4]; exact hG.read _ s hr hs
  · rw [h3]; exact hc
  · rw [h3, h2]; exact hf.typed

theorem Spec.Tangent.elems {h : Heap F} {t : Nat} {u : Nat → List Nat → DualNumber F} (hg : Graph h) (hp : Prepared h t)
    (hl : Tangent h t u) {x : Nat} (hn : Needs h t x) {i o : Impl} (hi : h.ts[x]? = some i) (ho : h.ts[owner h x]? = some o) :
    ∃ c : List Nat → List Nat, ∀ idx, InBox i.view.sizes idx → InBox o.view.sizes (c idx) ∧
      position o.view (c idx) = position i.view idx := by
  refine ⟨fun idx => if hb : InBox i.view.sizes idx then (owner_elems hg hp hl hn hi ho idx hb).choose else [], fun idx hb => ?_⟩
  simp only [dif_pos hb]
  have := (owner_elems hg hp hl hn hi ho idx hb).choose_spec
  exact ⟨this.1, this.2.1⟩

/-- The gradient of an operand, once allocated, can be read and written. -/
theorem GInv.gradReads {h : Heap F} {t : Nat} {P : List Nat} {D : Nat → Option Nat} {A : Nat → List Nat → F} {H : Heap F}
    {u : Nat → List Nat → DualNumber F} (hg : Graph h) (hp : Prepared h t) (hl : Tangent h t u)
    (hG : GInv h t P D A H) {a : Nat} {i0 : Impl} (hn : Needs h t a) (haP : a ∉ P) (hat : a = t → ¬ IsView h t)
    (hi0 : h.ts[a]? = some i0) (hal : Alloc D H (owner h a)) :
    ∃ i g j f, H.ts[a]? = some i ∧ i.grad = some g ∧ H.ts[g]? = some j ∧ j.dtype = i0.dtype ∧ j.view.sizes = i0.view.sizes ∧
      j.requiresGrad = false ∧ D (owner h a) = some j.data ∧ Reads H j f ∧
      (∀ idx, InBox i0.view.sizes idx → position j.view idx = position i0.view idx) ∧
      (¬ IsView h a → ∀ idx, InBox i0.view.sizes idx → real (f idx) = A a idx) := by
  obtain ⟨d, s, cl, hD, hs, hb⟩ := hal
  obtain ⟨i, g, j, hi, hgr, hj, hjt, hjs, hjst, hjo, hpos, hjr, hjd⟩ := hG.some_ a d hn haP hat hD
  obtain ⟨i', hi', e1, e2, _⟩ := hG.obj hi0
  rw [hi] at hi'; injection hi' with hi'; subst hi'
  have hno := owner_needs hg hp hn
  obtain ⟨_, io, hio, _⟩ := id hno.1
  have hdt : i0.dtype = io.dtype := by
    have := hno.2.2
    rw [hi0, hio] at this
    simpa using this
  obtain ⟨s', hs', hsdt, hcell⟩ := hG.cells _ io d hno.1 (owner_not_view hg a) (owner_closed hg hp hG.closed hn haP) hio hD
  rw [hs] at hs'; injection hs' with hs'; subst hs'
  rcases hcell with ⟨hb', _⟩ | ⟨c, hb', hlen, hc⟩
  · rw [hb] at hb'; simp at hb'
  rw [hb] at hb'; injection hb' with hb'; subst hb'
  obtain ⟨r, hr⟩ := hl.elems hg hp hn hi0 hio
  have hdense := hp.dense _ io hno.1 (owner_not_view hg a) hio
  refine ⟨i, g, j, fun idx => .f (A (owner h a) (r idx)), hi, hgr, hj, hjt.trans e1, by rw [hjs, e2], hjr, by rw [hjd]; exact hD, ?_, ?_, ?_⟩
  · refine ⟨hjst, hjo, ⟨s, cl, by rw [hjd]; exact hs, by rw [hsdt, hjt, e1, hdt], hb, ?_, fun idx hx => ?_⟩, fun idx hx => ?_⟩
    · exact hlen
    · rw [hjs, e2] at hx
      obtain ⟨k1, k2⟩ := hr idx hx
      have := hdense.inside _ k1
      refine ⟨(position io.view (r idx)).toNat, ?_, hc _ k1⟩
      rw [hpos idx (by rw [e2]; exact hx), e2, ← k2]
      omega
    · rw [hjt, e1, hdt]; exact (hp.float _ io hno.1 hio : (Val.f _ : Val F).HasType _)
  · intro idx hx
    rw [hpos idx (by rw [e2]; exact hx), e2]
  · intro hv idx hx
    rw [owner_self hv] at hio ⊢
    rw [hi0] at hio; injection hio with hio; subst hio
    obtain ⟨k1, k2⟩ := hr idx hx
    show A a (r idx) = A a idx
    rw [hdense.inj _ _ k1 hx k2]

/-! ### The pairing of gradients with a direction -/

/-- Sum over all tensors of gradient times perturbation. -/
def pairing (h : Heap F) (u : Nat → List Nat → DualNumber F) (A : Nat → List Nat → F) : F :=
  ((List.range h.ts.length).map fun o => boxSum (shapeOf h o) fun idx => A o idx * (u o idx).snd).sum

theorem list_sum_update {α : Type} [DecidableEq α] {l : List α} (hn : l.Nodup) {a : α} (ha : a ∈ l) {f g : α → F} {δ : F}
    (hfg : ∀ b, b ≠ a → g b = f b) (hd : g a = f a + δ) : (l.map g).sum = (l.map f).sum + δ := by
  have : g = fun b => f b + if b = a then δ else 0 := funext fun b => by
    by_cases hb : b = a
    · subst hb; rw [if_pos rfl, hd]
    · rw [if_neg hb, add_zero, hfg b hb]
  rw [this, List.sum_map_add, list_sum_single hn ha (fun b => if b = a then δ else 0) fun b _ hb => if_neg hb, if_pos rfl]

theorem pairing_update {h : Heap F} {u : Nat → List Nat → DualNumber F} {A A' : Nat → List Nat → F} {o : Nat} {δ : F}
    (ho : o < h.ts.length) (hne : ∀ x, x ≠ o → A' x = A x)
    (hd : boxSum (shapeOf h o) (fun idx => A' o idx * (u o idx).snd) =
      boxSum (shapeOf h o) (fun idx => A o idx * (u o idx).snd) + δ) : pairing h u A' = pairing h u A + δ :=
  list_sum_update List.nodup_range (List.mem_range.2 ho) (fun b hb => by rw [hne b hb]) hd

/-- A kernel has added to the gradient of `a`. -/
theorem GInv.scattered {h : Heap F} {t : Nat} {P : List Nat} {D : Nat → Option Nat} {A : Nat → List Nat → F} {H H' : Heap F}
    {u : Nat → List Nat → DualNumber F} (hg : Graph h) (hp : Prepared h t) (hl : Tangent h t u)
    (hG : GInv h t P D A H) {a : Nat} {i0 : Impl} (hn : Needs h t a) (haP : a ∉ P) (hat : owner h a ≠ t) (hi0 : h.ts[a]? = some i0)
    {j : Impl} (hD : D (owner h a) = some j.data) (hjs : j.view.sizes = i0.view.sizes)
    (hpos : ∀ idx, InBox i0.view.sizes idx → position j.view idx = position i0.view idx)
    {rg : List Nat} {w : List Nat → F} (hin : ∀ k, InBox rg k → InBox i0.view.sizes (project i0.view.sizes k))
    (hsc : Scattered H j rg w H') :
    ∃ A', GInv h t P D A' H' ∧ (∀ o, o ≠ owner h a → A' o = A o) ∧ (∀ o, Alloc D H o → Alloc D H' o) ∧ H'.ts = H.ts ∧
      ∀ u, Tangent h t u → pairing h u A' = pairing h u A + boxSum rg fun k => w k * (u a (project i0.view.sizes k)).snd := by
  obtain ⟨s, c, c', hs, hb, rfl, hlen, hval⟩ := hsc
  have hno := owner_needs hg hp hn
  obtain ⟨_, io, hio, _⟩ := id hno.1
  have hnv := owner_not_view hg a
  have hoP := owner_closed hg hp hG.closed hn haP
  have hdense := hp.dense _ io hno.1 hnv hio
  obtain ⟨s', hs', hsdt, hcell⟩ := hG.cells _ io _ hno.1 hnv hoP hio hD
  rw [hs] at hs'; injection hs' with hs'; subst hs'
  rcases hcell with ⟨hb', _⟩ | ⟨c2, hb', hclen, hc⟩
  · rw [hb] at hb'; simp at hb'
  rw [hb] at hb'; injection hb' with hb'; subst hb'
  let q : List Nat → Nat := fun k => (position i0.view (project i0.view.sizes k)).toNat
  let p : List Nat → Nat := fun idx => (position io.view idx).toNat
  let a' : List Nat → F := fun idx => A (owner h a) idx + (((rowMajor rg).filter fun k => q k = p idx).map w).sum
  have hnew : (H.setCells j.data c').st[j.data]? = some { s with blob := some c' } := Heap.setCells_st_self hs c'
  have hold : ∀ e, e ≠ j.data → (H.setCells j.data c').st[e]? = H.st[e]? := fun e he => Heap.setCells_st_ne H he c'
  have hfil : ∀ idx : List Nat, ((rowMajor rg).filter fun k => (position j.view (project j.view.sizes k)).toNat = p idx) =
      (rowMajor rg).filter fun k => q k = p idx := fun idx => by
    refine List.filter_congr fun k hk => ?_
    rw [hjs, hpos _ (hin k (mem_rowMajor.1 hk))]
  refine ⟨Function.update A (owner h a) a', ⟨hG.skel, fun d s2 hd hs2 => ?_, ?_, hG.some_, ?_, hG.apart, hG.aside, ?_, ?_, hG.closed,
    hG.inH, ?_⟩, fun o ho => Function.update_of_ne ho _ _, ?_, rfl, fun u hl => ?_⟩
  · rw [hold d fun hdj => hG.aside _ _ hno.1 hnv hoP hD (hdj ▸ hd)]
    exact hG.read d s2 hd hs2
  · intro x hx hxP hxv hDx
    obtain ⟨h1, h2, h3⟩ := hG.none_ x hx hxP hxv hDx
    refine ⟨h1, h2, ?_⟩
    have : x ≠ owner h a := fun e => by rw [← h1, e, hD] at hDx; simp at hDx
    rw [Function.update_of_ne this]; exact h3
  · intro o i d ho hv hP hi hDo
    by_cases hoo : o = owner h a
    · subst hoo
      rw [hD] at hDo; injection hDo with hDo; subst hDo
      rw [hio] at hi; injection hi with hi; subst hi
      refine ⟨_, hnew, hsdt, Or.inr ⟨c', rfl, hlen.trans_lt hclen, fun idx hx => ?_⟩⟩
      rw [hval _ _ (hc idx hx), Function.update_self, hfil idx]
    · rw [Function.update_of_ne hoo]
      obtain ⟨s2, h1, rest⟩ := hG.cells o i d ho hv hP hi hDo
      exact ⟨s2, by rw [hold d fun e => hoo (hG.apart _ _ d ho hno.1 hv hnv hP hoP hDo (e ▸ hD))]; exact h1, rest⟩
  · intro o ho
    have : o ≠ owner h a := fun e => by
      subst e
      rcases ho with h1 | h1 | h1
      · exact h1 hno.1
      · exact hnv h1
      · exact hoP h1
    rw [Function.update_of_ne this]; exact hG.zero o ho
  · rw [Function.update_of_ne (Ne.symm hat)]; exact hG.root
  · intro b hb' hbP hc'
    obtain ⟨d, s2, c2, h1, h2, h3⟩ := hG.started b hb' hbP hc'
    by_cases hd : d = j.data
    · subst hd; exact ⟨_, _, c', h1, hnew, rfl⟩
    · exact ⟨d, s2, c2, h1, by rw [hold d hd]; exact h2, h3⟩
  · rintro o ⟨d, s2, c2, h1, h2, h3⟩
    by_cases hd : d = j.data
    · subst hd; exact ⟨_, _, c', h1, hnew, rfl⟩
    · exact ⟨d, s2, c2, h1, by rw [hold d hd]; exact h2, h3⟩
  · refine pairing_update (getElem?_lt hio) (fun o ho => Function.update_of_ne ho _ _) ?_
    rw [Function.update_self, shapeOf_some hio]
    refine pair_scatter w (A (owner h a)) (fun idx => (u (owner h a) idx).snd) (fun k => (u a (project i0.view.sizes k)).snd)
      (fun x y hx hy hxy => ?_) fun k hk => ?_
    · refine hdense.inj x y hx hy ?_
      have h1 := hdense.inside x hx
      have h2 := hdense.inside y hy
      simp only [p] at hxy
      omega
    · obtain ⟨idx', k1, k2, k3⟩ := owner_elems hg hp hl hn hi0 hio _ (hin k hk)
      exact ⟨idx', k1, by show (position io.view idx').toNat = _; rw [k2], by rw [k3]⟩

/-! ### `try_accumulate_grad` -/

/-- Between the states the gradients of some operands of `x` have changed, and the pairing by `δ`. -/
structure Moved (h : Heap F) (t : Nat) (P : List Nat) (x : Nat) (D : Nat → Option Nat) (A : Nat → List Nat → F) (H : Heap F)
    (δ : (Nat → List Nat → DualNumber F) → F) (D' : Nat → Option Nat) (A' : Nat → List Nat → F) (H' : Heap F) : Prop where
  inv : GInv h t P D' A' H'
  big : ∀ o, x ≤ o → A' o = A o ∧ D' o = D o
  alloc : ∀ o, Alloc D H o → Alloc D' H' o
  phi : ∀ u, Tangent h t u → pairing h u A' = pairing h u A + δ u

theorem Moved.refl {h : Heap F} {t : Nat} {P : List Nat} {x : Nat} {D : Nat → Option Nat} {A : Nat → List Nat → F} {H : Heap F}
    {δ : (Nat → List Nat → DualNumber F) → F} (hG : GInv h t P D A H) (hδ : ∀ u, Tangent h t u → δ u = 0) :
    Moved h t P x D A H δ D A H :=
  ⟨hG, fun _ _ => ⟨rfl, rfl⟩, fun _ h => h, fun u hu => by rw [hδ u hu, add_zero]⟩

theorem Moved.trans {h : Heap F} {t : Nat} {P : List Nat} {x : Nat} {D D1 D2 : Nat → Option Nat} {A A1 A2 : Nat → List Nat → F}
    {H H1 H2 : Heap F} {δ1 δ2 : (Nat → List Nat → DualNumber F) → F} (h1 : Moved h t P x D A H δ1 D1 A1 H1)
    (h2 : Moved h t P x D1 A1 H1 δ2 D2 A2 H2) : Moved h t P x D A H (fun u => δ1 u + δ2 u) D2 A2 H2 :=
  ⟨h2.inv, fun o ho => ⟨(h2.big o ho).1.trans (h1.big o ho).1, (h2.big o ho).2.trans (h1.big o ho).2⟩,
    fun o ho => h2.alloc o (h1.alloc o ho), fun u hu => by rw [h2.phi u hu, h1.phi u hu, add_assoc]⟩

theorem Moved.extends {h : Heap F} {t : Nat} {P : List Nat} {x : Nat} {D D' : Nat → Option Nat} {A A' : Nat → List Nat → F}
    {H H0 H' : Heap F} {δ : (Nat → List Nat → DualNumber F) → F} (he : Extends H0 H) (hm : Moved h t P x D A H δ D' A' H') :
    Moved h t P x D A H0 δ D' A' H' := ⟨hm.inv, hm.big, fun o ho => hm.alloc o (ho.mono he.st), hm.phi⟩

theorem Moved.congr {h : Heap F} {t : Nat} {P : List Nat} {x : Nat} {D D' : Nat → Option Nat} {A A' : Nat → List Nat → F}
    {H H' : Heap F} {δ δ' : (Nat → List Nat → DualNumber F) → F} (hm : Moved h t P x D A H δ D' A' H')
    (hδ : ∀ u, Tangent h t u → δ u = δ' u) : Moved h t P x D A H δ' D' A' H' :=
  ⟨hm.inv, hm.big, hm.alloc, fun u hu => by rw [hm.phi u hu, hδ u hu]⟩

omit [Field F] in
theorem reads_same {H H' : Heap F} {i i' : Impl} {f : List Nat → Val F} (hr : Reads H i f) (h1 : i'.dtype = i.dtype)
    (h2 : i'.view = i.view) (h3 : i'.data = i.data) (hs : ∀ s, H.st[i.data]? = some s → H'.st[i.data]? = some s) : Reads H' i' f := by
  obtain ⟨s, c, e1, e2, e3, e4, e5⟩ := hr.cells
  refine ⟨by rw [h2]; exact hr.strides, by rw [h2]; exact hr.offset, ⟨s, c, by rw [h3]; exact hs s e1, by rw [h1]; exact e2, e3, e4, ?_⟩, ?_⟩
  · rw [h2]; exact e5
  · rw [h2, h1]; exact hr.typed

variable [Exact F]

omit [Field F] [FOps F] [Exact F] in
theorem getT_ok' {H : Heap F} {a : Nat} {i : Impl} (hi : H.ts[a]? = some i) : getT a H = .ok i H := by unfold getT; rw [hi]

omit [Field F] [FOps F] [Exact F] in
theorem derefGrad_ok {H : Heap F} {a g : Nat} {i : Impl} (hi : H.ts[a]? = some i) (hg : i.grad = some g) :
    derefGrad a H = .ok g H := by
  unfold derefGrad
  rw [M.bind_ok (getT_ok' hi), hg]
  rfl

/-- What is known of a tensor that is read while the gradient of `a` is changed. -/
structure Aside (h : Heap F) (t : Nat) (D : Nat → Option Nat) (H : Heap F) (a w : Nat) (wi : Impl) (f : List Nat → Val F) : Prop where
  obj : H.ts[w]? = some wi
  reads : Reads H wi f
  ne : Needs h t a → D (owner h a) ≠ some wi.data

omit [Exact F] in
theorem Aside.readied {h : Heap F} {t : Nat} {P : List Nat} {D D' : Nat → Option Nat} {A : Nat → List Nat → F} {H H' : Heap F}
    {a w : Nat} {wi : Impl} {f : List Nat → Val F} (ha : Aside h t D H a w wi f) (hn : Needs h t a)
    (hr : Readied h t P D A H a D' H') : ∃ wi', H'.ts[w]? = some wi' ∧ wi'.dtype = wi.dtype ∧ wi'.view = wi.view ∧ Reads H' wi' f ∧
      D' (owner h a) ≠ some wi'.data := by
  obtain ⟨wi', e1, e2, _⟩ := hr.keep w wi ha.obj
  obtain ⟨s1, s2, s3, _⟩ := skel_eq e2
  obtain ⟨s, _, hs, _⟩ := ha.reads.cells
  refine ⟨wi', e1, s1, s2, reads_same ha.reads s1 s2 s3 fun s hs => hr.same _ s hs (ha.ne hn), ?_⟩
  rw [s3]
  cases hD : D (owner h a) with
  | some d => rw [hr.old d hD, ← hD]; exact ha.ne hn
  | none =>
    intro hc
    have := hr.fresh _ hD hc
    have := getElem?_lt hs
    omega

theorem tryAccGrad_nothing {H : Heap F} {a : Nat} {i : Impl} (hi : H.ts[a]? = some i) (hr : i.requiresGrad = false) (w o) :
    tryAccGrad a w o H = .ok () H := by
  unfold tryAccGrad
  rw [M.bind_ok (getT_ok' hi), hr]
  rfl

theorem tryAccGrad_some {H H1 : Heap F} {a : Nat} {i : Impl} (hi : H.ts[a]? = some i) (hr : i.requiresGrad = true)
    (e : tryAccUpdate a H = .ok () H1) (w o) : tryAccGrad a w o H =
    (match w, o with
    | none, none => pure ()
    | some w, none => do
      let g ← derefGrad a
      addAssign g w
    | none, some _ => M.undef .nullptr
    | some w, some o => do
      let wi ← getT w
      let g ← derefGrad a
      if wi.dtype.isFloat then mulAddF g w o else mulAddF g o w) H1 := by
  unfold tryAccGrad
  rw [M.bind_ok (getT_ok' hi), if_neg (by rw [hr]; decide), M.bind_ok e]
  cases w <;> cases o <;> rfl

/-- Adding a tensor to the gradient of an operand. -/
theorem GInv.addTo {h : Heap F} {t : Nat} {P : List Nat} {D : Nat → Option Nat} {A : Nat → List Nat → F} {H : Heap F}
    {u : Nat → List Nat → DualNumber F} (hg : Graph h) (hp : Prepared h t) (hl : Tangent h t u) (hG : GInv h t P D A H)
    {x a : Nat} {i0 : Impl} (hfa : From h t a) (haP : a ∉ P) (hax : a < x) (hxt : x ≤ t) (hi0 : h.ts[a]? = some i0)
    {w : Nat} {wi : Impl} {fw : List Nat → Val F} {rg : List Nat} (hw : Aside h t D H a w wi fw)
    (hb : Broadcasts i0.view.sizes wi.view.sizes rg) :
    ∃ D' A' H', tryAccGrad a (some w) none H = .ok () H' ∧
      Moved h t P x D A H (fun u => boxSum rg fun k =>
        real (fw (project wi.view.sizes k)) * (u a (project i0.view.sizes k)).snd) D' A' H' ∧
      (Needs h t a → Alloc D' H' (owner h a)) := by
  obtain ⟨ia, hia, e1, e2, e3, e4, _⟩ := hG.obj hi0
  have hoa : owner h a < x := lt_of_le_of_lt (owner_le hg a) hax
  cases hrq : i0.requiresGrad with
  | false =>
    refine ⟨D, A, H, tryAccGrad_nothing hia (e4.trans hrq) _ _, Moved.refl hG fun u hu => ?_, fun hn => ?_⟩
    · refine boxSum_zero fun k hk => ?_
      rw [hu.const a i0 hfa hi0 hrq _ (hb.inBox hk), mul_zero]
    · obtain ⟨_, i', hi', hr'⟩ := hn
      rw [hi0] at hi'; injection hi' with hi'; subst hi'
      rw [hrq] at hr'; simp at hr'
  | true =>
    have hn : Needs h t a := ⟨hfa, i0, hi0, hrq⟩
    obtain ⟨D1, H1, er, hR⟩ := tryAcc_ok hg hp hG hn haP fun hc => by omega
    obtain ⟨ia1, g, j, f, hia1, hgr, hj, hjt, hjs, hjr, hDj, hrj, hpos, _⟩ := hR.inv.gradReads hg hp hl hn haP (fun hc => by omega) hi0 hR.own
    obtain ⟨wi', hw', w1, w2, hrw, hne⟩ := hw.readied hn hR
    have hdj : wi'.data ≠ j.data := fun e => hne (by rw [e]; exact hDj)
    obtain ⟨H', ek, hsc⟩ := tensorAdd_exact hrj (by rw [hjt]; exact hp.float a i0 hn hi0) hrw hdj
      (rg := rg) (by rw [hjs, w2]; exact hb)
    obtain ⟨A', hG', hA', hal', _, hphi⟩ := hR.inv.scattered hg hp hl hn haP (by omega) hi0 hDj hjs hpos
      (fun k hk => hb.inBox hk) hsc
    refine ⟨D1, A', H', ?_, ⟨hG', fun o ho => ⟨hA' o (by omega), hR.other o (by omega)⟩, fun o ho => hal' o (hR.alloc o ho),
      fun u hu => ?_⟩, fun _ => hal' _ hR.own⟩
    · rw [tryAccGrad_some hia (e4.trans hrq) er]
      dsimp only
      rw [M.bind_ok (derefGrad_ok hia1 hgr)]
      unfold addAssign
      rw [M.bind_ok (getT_ok' hj), hjr, M.bind_ok (x := expect (!false)) (a := ()) (h' := H1) rfl, M.bind_ok (getT_ok' hw')]
      exact ek
    · rw [hphi u hu, w2]

/-- Adding the product of two tensors to the gradient of an operand. -/
theorem GInv.mulTo {h : Heap F} {t : Nat} {P : List Nat} {D : Nat → Option Nat} {A : Nat → List Nat → F} {H : Heap F}
    {u : Nat → List Nat → DualNumber F} (hg : Graph h) (hp : Prepared h t) (hl : Tangent h t u) (hG : GInv h t P D A H)
    {x a : Nat} {i0 : Impl} (hfa : From h t a) (haP : a ∉ P) (hax : a < x) (hxt : x ≤ t) (hi0 : h.ts[a]? = some i0)
    {w o : Nat} {wi oi : Impl} {fw fo : List Nat → Val F} {r1 r2 rg : List Nat} (hw : Aside h t D H a w wi fw)
    (ho : Aside h t D H a o oi fo) (hf : wi.dtype.isFloat = true ∨ oi.dtype.isFloat = true)
    (h1 : wi.dtype.isFloat = true → Broadcasts i0.view.sizes wi.view.sizes r1 ∧ Broadcasts r1 oi.view.sizes rg)
    (h2 : wi.dtype.isFloat = false → Broadcasts i0.view.sizes oi.view.sizes r2 ∧ Broadcasts r2 wi.view.sizes rg)
    (ra : ∀ k, InBox rg k → i0.view.sizes.length ≤ k.length ∧ InBox i0.view.sizes (project i0.view.sizes k))
    (rw' : ∀ k, InBox rg k → Reaches wi k) (ro : ∀ k, InBox rg k → Reaches oi k) :
    ∃ D' A' H', tryAccGrad a (some w) (some o) H = .ok () H' ∧
      Moved h t P x D A H (fun u => boxSum rg fun k =>
        real (fw (project wi.view.sizes k)) * real (fo (project oi.view.sizes k)) * (u a (project i0.view.sizes k)).snd) D' A' H' ∧
      (Needs h t a → Alloc D' H' (owner h a)) := by
  obtain ⟨ia, hia, e1, e2, e3, e4, _⟩ := hG.obj hi0
  have hoa : owner h a < x := lt_of_le_of_lt (owner_le hg a) hax
  cases hrq : i0.requiresGrad with
  | false =>
    refine ⟨D, A, H, tryAccGrad_nothing hia (e4.trans hrq) _ _, Moved.refl hG fun u hu => ?_, fun hn => ?_⟩
    · refine boxSum_zero fun k hk => ?_
      rw [hu.const a i0 hfa hi0 hrq _ (ra k hk).2, mul_zero]
    · obtain ⟨_, i', hi', hr'⟩ := hn
      rw [hi0] at hi'; injection hi' with hi'; subst hi'
      rw [hrq] at hr'; simp at hr'
  | true =>
    have hn : Needs h t a := ⟨hfa, i0, hi0, hrq⟩
    obtain ⟨D1, H1, er, hR⟩ := tryAcc_ok hg hp hG hn haP fun hc => by omega
    obtain ⟨ia1, g, j, f, hia1, hgr, hj, hjt, hjs, hjr, hDj, hrj, hpos, _⟩ := hR.inv.gradReads hg hp hl hn haP (fun hc => by omega) hi0 hR.own
    obtain ⟨wi', hw', w1, w2, hrw, hne⟩ := hw.readied hn hR
    obtain ⟨oi', ho', o1, o2, hro, hno⟩ := ho.readied hn hR
    have hdj : wi'.data ≠ j.data := fun e => hne (by rw [e]; exact hDj)
    have hdo : oi'.data ≠ j.data := fun e => hno (by rw [e]; exact hDj)
    have hjf : j.dtype.isFloat = true := by rw [hjt]; exact hp.float a i0 hn hi0
    have rj : ∀ k, InBox rg k → Reaches j k := fun k hk => by unfold Reaches; rw [hjs]; exact ra k hk
    have rw2 : ∀ k, InBox rg k → Reaches wi' k := fun k hk => by unfold Reaches; rw [w2]; exact rw' k hk
    have ro2 : ∀ k, InBox rg k → Reaches oi' k := fun k hk => by unfold Reaches; rw [o2]; exact ro k hk
    have key : ∃ H', (if wi'.dtype.isFloat then mulAddF g w o else mulAddF g o w) H1 = .ok () H' ∧
        Scattered H1 j rg (fun k => real (fw (project wi.view.sizes k)) * real (fo (project oi.view.sizes k))) H' := by
      cases hwf : wi.dtype.isFloat with
      | true =>
        obtain ⟨b1, b2⟩ := h1 hwf
        obtain ⟨H', ek, hsc⟩ := tensorMulAccF_exact (rg1 := r1) (rg := rg) hrj hjf hrw hro hdj hdo (by rw [w1]; exact hwf)
          (by rw [hjs, w2]; exact b1) (by rw [o2]; exact b2) rj rw2 ro2
        refine ⟨H', ?_, by rw [w2, o2] at hsc; exact hsc⟩
        rw [w1, hwf, if_pos rfl]
        unfold mulAddF
        rw [M.bind_ok (getT_ok' hj), M.bind_ok (getT_ok' hw'), M.bind_ok (getT_ok' ho'), hjf, w1, hwf]
        rw [← w1]
        exact ek
      | false =>
        obtain ⟨b1, b2⟩ := h2 hwf
        have hof : oi.dtype.isFloat = true := by
          rcases hf with h | h
          · rw [hwf] at h; simp at h
          · exact h
        obtain ⟨H', ek, hsc⟩ := tensorMulAccF_exact (rg1 := r2) (rg := rg) hrj hjf hro hrw hdo hdj (by rw [o1]; exact hof)
          (by rw [hjs, o2]; exact b1) (by rw [w2]; exact b2) rj ro2 rw2
        refine ⟨H', ?_, ?_⟩
        · rw [w1, hwf, if_neg (by decide)]
          unfold mulAddF
          rw [M.bind_ok (getT_ok' hj), M.bind_ok (getT_ok' ho'), M.bind_ok (getT_ok' hw'), hjf, o1, hof]
          rw [← o1]
          exact ek
        · rw [w2, o2] at hsc
          simpa only [mul_comm] using hsc
    obtain ⟨H', ek, hsc⟩ := key
    obtain ⟨A', hG', hA', hal', _, hphi⟩ := hR.inv.scattered hg hp hl hn haP (by omega) hi0 hDj hjs hpos
      (fun k hk => (ra k hk).2) hsc
    refine ⟨D1, A', H', ?_, ⟨hG', fun o ho => ⟨hA' o (by omega), hR.other o (by omega)⟩, fun o ho => hal' o (hR.alloc o ho),
      fun u hu => hphi u hu⟩, fun _ => hal' _ hR.own⟩
    rw [tryAccGrad_some hia (e4.trans hrq) er]
    dsimp only
    rw [M.bind_ok (getT_ok' hw'), M.bind_ok (derefGrad_ok hia1 hgr)]
    exact ek

end INNC
