import Verif.Lemmas.Owner
/-
The invariant of back-propagation: what the gradients of the pending tensors are.
-/
namespace INNC
open Spec Tensor
variable {F : Type}

/-- What back-propagation does not change of a tensor. -/
def skel (i : Impl) : Impl := { i with grad := none, gradFn := i.gradFn.map fun g => ⟨g.kind, g.inputs, 0, 0, 0⟩ }

theorem skel_eq {i j : Impl} (h : skel j = skel i) : j.dtype = i.dtype ∧ j.view = i.view ∧ j.data = i.data ∧
    j.requiresGrad = i.requiresGrad ∧ j.retainGrad = i.retainGrad := by
  unfold skel at h
  injection h with h1 h2 h3 h4 h5 h6 h7
  exact ⟨h1, h2, h3, h5, h6⟩

theorem skel_gradFn {i j : Impl} (h : skel j = skel i) : (j.gradFn.map fun g => (g.kind, g.inputs)) =
    i.gradFn.map fun g => (g.kind, g.inputs) := by
  unfold skel at h
  injection h with h1 h2 h3 h4 h5 h6 h7
  cases hi : i.gradFn <;> cases hj : j.gradFn <;> simp_all

/-- Tensors keep everything except counters, and gradients that exist. -/
def Keep (H H' : Heap F) : Prop :=
  ∀ (x : Nat) (i : Impl), H.ts[x]? = some i → ∃ i', H'.ts[x]? = some i' ∧ skel i' = skel i ∧ (i.grad.isSome → i'.grad = i.grad)

/-- Tensors keep everything except counters. -/
def Soft (H H' : Heap F) : Prop :=
  ∀ (x : Nat) (i : Impl), H.ts[x]? = some i → ∃ i', H'.ts[x]? = some i' ∧ skel i' = skel i ∧ i'.grad = i.grad

theorem Soft.keep {H H' : Heap F} (hs : Soft H H') : Keep H H' := fun x i hi => by
  obtain ⟨i', h1, h2, h3⟩ := hs x i hi
  exact ⟨i', h1, h2, fun _ => h3⟩

theorem Keep.refl (H : Heap F) : Keep H H := fun x i hi => ⟨i, hi, rfl, fun _ => rfl⟩
theorem Keep.trans {a b c : Heap F} (h1 : Keep a b) (h2 : Keep b c) : Keep a c := fun x i hi => by
  obtain ⟨j, hj, s1, g1⟩ := h1 x i hi
  obtain ⟨k, hk, s2, g2⟩ := h2 x j hj
  exact ⟨k, hk, s2.trans s1, fun hi => by rw [g2 (by rw [g1 hi]; exact hi), g1 hi]⟩

theorem Soft.of_ts {H H' : Heap F} (h : H'.ts = H.ts) : Soft H H' := fun x i hi => ⟨i, by rw [h]; exact hi, rfl, rfl⟩
theorem Soft.of_extends {H H' : Heap F} (h : Extends H H') : Soft H H' := fun x i hi => ⟨i, h.ts x i hi, rfl, rfl⟩
theorem Soft.trans {a b c : Heap F} (h1 : Soft a b) (h2 : Soft b c) : Soft a c := fun x i hi => by
  obtain ⟨j, hj, s1, g1⟩ := h1 x i hi
  obtain ⟨k, hk, s2, g2⟩ := h2 x j hj
  exact ⟨k, hk, s2.trans s1, g2.trans g1⟩

/-- The gradient of `x` is a tensor of the same shape and type whose elements lie on storage `d` at the positions of those of `x`. -/
def GradAt (H : Heap F) (x d : Nat) : Prop :=
  ∃ i g j, H.ts[x]? = some i ∧ i.grad = some g ∧ H.ts[g]? = some j ∧ j.dtype = i.dtype ∧ j.view.sizes = i.view.sizes ∧
    j.view.strides.length = j.view.sizes.length ∧ j.view.offset < 18446744073709551616 ∧
    (∀ idx, InBox i.view.sizes idx → position j.view idx = position i.view idx) ∧ j.requiresGrad = false ∧ j.data = d

theorem GradAt.keep {H H' : Heap F} {x d : Nat} (hg : GradAt H x d) (hk : Keep H H') : GradAt H' x d := by
  obtain ⟨i, g, j, h1, h2, h3, h4, h5, h6, h7, h8, h9, h10⟩ := hg
  obtain ⟨i', a1, a2, a3⟩ := hk x i h1
  obtain ⟨j', b1, b2, _⟩ := hk g j h3
  obtain ⟨s1, s2, s3, s4, _⟩ := skel_eq a2
  obtain ⟨r1, r2, r3, r4, _⟩ := skel_eq b2
  refine ⟨i', g, j', a1, (a3 (by rw [h2]; rfl)).trans h2, b1, ?_⟩
  rw [r1, r2, r3, r4, s1, s2]
  exact ⟨h4, h5, h6, h7, h8, h9, h10⟩

/-- The gradient storage of `o` is allocated. -/
def Alloc (D : Nat → Option Nat) (H : Heap F) (o : Nat) : Prop :=
  ∃ d s c, D o = some d ∧ H.st[d]? = some s ∧ s.blob = some c

variable [Field F]

/-- State `H` of the back-propagation of `t` started from `h`, after the tensors `P` have been processed. `D o` is the storage of
the gradient of `o` and `A o` the gradient accumulated so far, for each tensor `o` that is not a view. If `t` is a view, its
gradient is not that of the viewed tensor. -/
structure GInv (h : Heap F) (t : Nat) (P : List Nat) (D : Nat → Option Nat) (A : Nat → List Nat → F) (H : Heap F) : Prop where
  skel : ∀ (x : Nat) (i : Impl), h.ts[x]? = some i → ∃ i', H.ts[x]? = some i' ∧ skel i' = skel i
  read : ∀ (d : Nat) (s : Storage F), ReadStore h t d → h.st[d]? = some s → H.st[d]? = some s
  none_ : ∀ x, Needs h t x → x ∉ P → (x = t → ¬ IsView h t) → D (owner h x) = none → x = owner h x ∧ gradAt H x = none ∧ ∀ idx, A x idx = 0
  some_ : ∀ x d, Needs h t x → x ∉ P → (x = t → ¬ IsView h t) → D (owner h x) = some d → GradAt H x d
  cells : ∀ o i d, Needs h t o → ¬ IsView h o → o ∉ P → h.ts[o]? = some i → D o = some d →
    GradCells H d i.dtype i.view (A o)
  apart : ∀ o o' d, Needs h t o → Needs h t o' → ¬ IsView h o → ¬ IsView h o' → o ∉ P → o' ∉ P → D o = some d →
    D o' = some d → o = o'
  aside : ∀ o d, Needs h t o → ¬ IsView h o → o ∉ P → D o = some d → ¬ ReadStore h t d
  zero : ∀ o, (¬ Needs h t o ∨ IsView h o ∨ o ∈ P) → ∀ idx, A o idx = 0
  root : ¬ IsView h t → t ∉ P → ∀ idx, InBox (shapeOf h t) idx → A t idx = 1
  closed : ∀ b ∈ P, ∀ y, From h t y → Uses h y b → y ∈ P
  inH : ∀ (d : Nat), ReadStore h t d → d < h.st.length
  started : ∀ a, Needs h t a → a ∉ P → (a = t ∧ ¬ IsView h t ∨ ∃ y ∈ P, Uses h y a) → Alloc D H (owner h a)

theorem GInv.obj {h : Heap F} {t : Nat} {P : List Nat} {D : Nat → Option Nat} {A : Nat → List Nat → F} {H : Heap F}
    (hG : GInv h t P D A H) {x : Nat} {i : Impl} (hi : h.ts[x]? = some i) : ∃ i', H.ts[x]? = some i' ∧ i'.dtype = i.dtype ∧
      i'.view = i.view ∧ i'.data = i.data ∧ i'.requiresGrad = i.requiresGrad ∧ i'.retainGrad = i.retainGrad ∧
      (i'.gradFn.map fun g => (g.kind, g.inputs)) = i.gradFn.map fun g => (g.kind, g.inputs) := by
  obtain ⟨i', h1, h2⟩ := hG.skel x i hi
  obtain ⟨s1, s2, s3, s4, s5⟩ := skel_eq h2
  exact ⟨i', h1, s1, s2, s3, s4, s5, skel_gradFn h2⟩

omit [Field F] in
theorem Alloc.mono {D : Nat → Option Nat} {H H' : Heap F} (hst : ∀ (e : Nat) (s : Storage F), H.st[e]? = some s → H'.st[e]? = some s)
    {o : Nat} (ha : Alloc D H o) : Alloc D H' o := by
  obtain ⟨d, s, c, h1, h2, h3⟩ := ha
  exact ⟨d, s, c, h1, hst d s h2, h3⟩

/-- New tensors and storages, and counters, do not matter. -/
theorem GInv.soft {h : Heap F} {t : Nat} {P : List Nat} {D : Nat → Option Nat} {A : Nat → List Nat → F} {H H' : Heap F}
    (hG : GInv h t P D A H) (hs : Soft H H') (hst : ∀ (e : Nat) (s : Storage F), H.st[e]? = some s → H'.st[e]? = some s) :
    GInv h t P D A H' where
  skel := fun x i hi => by
    obtain ⟨i', h1, h2⟩ := hG.skel x i hi
    obtain ⟨i'', h3, h4, _⟩ := hs x i' h1
    exact ⟨i'', h3, h4.trans h2⟩
  read := fun d s hd hs => hst d s (hG.read d s hd hs)
  none_ := fun x hn hP hv hD => by
    obtain ⟨h1, h2, h3⟩ := hG.none_ x hn hP hv hD
    refine ⟨h1, ?_, h3⟩
    obtain ⟨_, i, hi, _⟩ := hn
    obtain ⟨i', hi', _⟩ := hG.skel x i hi
    obtain ⟨i'', hi'', _, hgr⟩ := hs x i' hi'
    rw [gradAt_some hi''] 
    rw [gradAt_some hi'] at h2
    rw [hgr, h2]
  some_ := fun x d hn hP hv hD => (hG.some_ x d hn hP hv hD).keep hs.keep
  cells := fun o i d hn hv hP hi hD => by
    obtain ⟨s, h1, rest⟩ := hG.cells o i d hn hv hP hi hD
    exact ⟨s, hst d s h1, rest⟩
  apart := hG.apart
  aside := hG.aside
  zero := hG.zero
  root := hG.root
  closed := hG.closed
  inH := hG.inH
  started := fun a hn hP hc => (hG.started a hn hP hc).mono hst

theorem GInv.extends {h : Heap F} {t : Nat} {P : List Nat} {D : Nat → Option Nat} {A : Nat → List Nat → F} {H H' : Heap F}
    (hG : GInv h t P D A H) (he : Extends H H') : GInv h t P D A H' := hG.soft (.of_extends he) he.st

/-! ### `try_accumulate_update` -/

/-- The effect of `try_accumulate_update` on the gradient of `a`. -/
structure Readied (h : Heap F) (t : Nat) (P : List Nat) (D : Nat → Option Nat) (A : Nat → List Nat → F) (H : Heap F) (a : Nat)
    (D' : Nat → Option Nat) (H' : Heap F) : Prop where
  inv : GInv h t P D' A H'
  keep : Keep H H'
  same : ∀ (e : Nat) (s : Storage F), H.st[e]? = some s → D (owner h a) ≠ some e → H'.st[e]? = some s
  own : Alloc D' H' (owner h a)
  other : ∀ o, o ≠ owner h a → D' o = D o
  alloc : ∀ o, Alloc D H o → Alloc D' H' o
  old : ∀ d, D (owner h a) = some d → D' (owner h a) = some d
  fresh : ∀ d, D (owner h a) = none → D' (owner h a) = some d → H.st.length ≤ d

variable [FOps F] [Exact F]

omit [Field F] [Exact F] [FOps F] in
theorem create_view_ok {dt : DType} {v : Layout} (hv : vol v.sizes * dt.size < 9223372036854775808) (h : Heap F) :
    create dt v true h = .ok h.ts.length { h with
      st := h.st ++ [⟨dt, dt.size * vol v.sizes, some (List.replicate (vol v.sizes) none)⟩],
      ts := h.ts ++ [⟨dt, v, h.st.length, none, false, false, none⟩] } := by
  have hv' := vol_lt_of_bytes hv
  have hn : numel v.sizes = vol v.sizes := numel_eq_vol (by omega)
  have hw : wrapU ((dt.size : Int) * (numel v.sizes : Int)) = dt.size * vol v.sizes := by
    rw [hn, ← Int.natCast_mul, wrapU_natCast (by rw [Nat.mul_comm]; omega)]
  have hm : dt.size * vol v.sizes < maxAlloc := by unfold maxAlloc; rw [Nat.mul_comm]; exact hv
  unfold create
  simp only [hw, mkStorage, if_true, hm]
  rw [M.bind_ok (x := newS _) (a := h.st.length) (h' := { h with st := h.st ++ [⟨dt, dt.size * vol v.sizes,
    some (freshBlob dt (dt.size * vol v.sizes))⟩] }) rfl]
  simp only [createOn, newT, freshBlob, Nat.mul_div_cancel_left _ dt.size_pos]

theorem zeroVal_exact {dt : DType} (hf : dt.isFloat = true) : (zeroVal dt : Val F) = .f 0 := by
  unfold zeroVal
  have : dt.isInt = false := by cases dt <;> simp_all [DType.isInt, DType.isFloat, DType.idx, DType.floatStart]
  rw [this, Exact.zero]; rfl

omit [FOps F] [Exact F] in
theorem gradCells_zero {H : Heap F} {d : Nat} {dt : DType} {v : Layout} (hd : Dense v) (hv : vol v.sizes < 9223372036854775808)
    (hs : H.st[d]? = some ⟨dt, dt.size * vol v.sizes, some (List.replicate (vol v.sizes) (some (.f 0)))⟩)
    {a : List Nat → F} (ha : ∀ idx, InBox v.sizes idx → a idx = 0) : GradCells H d dt v a := by
  refine ⟨_, hs, rfl, Or.inr ⟨_, rfl, by simpa using hv, fun idx hi => ?_⟩⟩
  have := hd.inside idx hi
  rw [List.getElem?_replicate, if_pos (by omega), ha idx hi]

/-- Writing zeros to the storage of a gradient that is 0 so far, or that did not exist. -/
theorem GInv.zeroed {h : Heap F} {t : Nat} {P : List Nat} {D : Nat → Option Nat} {A : Nat → List Nat → F} {H H' : Heap F}
    (hg : Graph h) (hp : Prepared h t)
    (hG : GInv h t P D A H) {a d : Nat} {ia : Impl} (hn : Needs h t (owner h a)) (haP : owner h a ∉ P)
    (hi : h.ts[owner h a]? = some ia) (hD : D (owner h a) = some d ∨ D (owner h a) = none ∧ H.st.length ≤ d ∧ GradAt H' (owner h a) d)
    (hA : ∀ idx, InBox ia.view.sizes idx → A (owner h a) idx = 0) (hk : Keep H H')
    (hgr : ∀ x i, x ≠ owner h a → H.ts[x]? = some i → gradAt H' x = gradAt H x)
    (hst : ∀ (e : Nat) (s : Storage F), e ≠ d → H.st[e]? = some s → H'.st[e]? = some s)
    (hd' : H'.st[d]? = some ⟨ia.dtype, ia.dtype.size * vol ia.view.sizes, some (List.replicate (vol ia.view.sizes) (some (.f 0)))⟩) :
    Readied h t P D A H a (Function.update D (owner h a) (some d)) H' := by
  have hv := owner_not_view hg a
  have hdense := hp.dense _ ia hn hv hi
  have hdP : ¬ ReadStore h t d ∧ ∀ o, Needs h t o → ¬ IsView h o → o ∉ P → o ≠ owner h a → D o ≠ some d := by
    rcases hD with hD | ⟨hD, hlen, _⟩
    · exact ⟨hG.aside _ d hn hv haP hD, fun o h1 h2 h3 h4 h5 => h4 (hG.apart o _ d h1 hn h2 hv h3 haP h5 hD)⟩
    · refine ⟨fun hr => ?_, fun o h1 h2 h3 h4 h5 => ?_⟩
      · have h1 := hG.inH d hr
        obtain ⟨s, hs⟩ : ∃ s, h.st[d]? = some s := ⟨_, List.getElem?_eq_getElem h1⟩
        have := getElem?_lt (hG.read d s hr hs)
        omega
      · obtain ⟨_, io, hio, _⟩ := id h1
        obtain ⟨s, hs, _⟩ := hG.cells o io d h1 h2 h3 hio h5
        have := getElem?_lt hs
        omega
  have hupd : ∀ o, o ≠ owner h a → Function.update D (owner h a) (some d) o = D o := fun o ho => Function.update_of_ne ho _ _
  refine ⟨?_, hk, fun e s hs hne => ?_, ⟨d, _, _, Function.update_self .., hd', rfl⟩, hupd, fun o ho => ?_, fun e he => ?_, fun e hnone he => ?_⟩
  · refine ⟨fun x i hi => ?_, fun e s he hs => ?_, fun x hx hP hxv hDx => ?_, fun x e hx hP hxv hDx => ?_,
      fun o i e ho hvo hP hio hDo => ?_, fun o o' e ho ho' hvo hvo' hP hP' h1 h2 => ?_, fun o e ho hvo hP hDo => ?_,
      hG.zero, hG.root, hG.closed, hG.inH, fun b hb hbP hc => ?_⟩
    · obtain ⟨i', h1, h2⟩ := hG.skel x i hi
      obtain ⟨i'', h3, h4, _⟩ := hk x i' h1
      exact ⟨i'', h3, h4.trans h2⟩
    · exact hst e s (fun h => hdP.1 (h ▸ he)) (hG.read e s he hs)
    · by_cases hxo : owner h x = owner h a
      · rw [hxo, Function.update_self] at hDx; simp at hDx
      · rw [hupd _ hxo] at hDx
        obtain ⟨h1, h2, h3⟩ := hG.none_ x hx hP hxv hDx
        refine ⟨h1, ?_, h3⟩
        obtain ⟨_, i, hi, _⟩ := hx
        obtain ⟨i', hi', _⟩ := hG.skel x i hi
        rw [hgr x i' (h1 ▸ hxo) hi', h2]
    · by_cases hxo : owner h x = owner h a
      · rw [hxo, Function.update_self] at hDx
        injection hDx with hDx
        subst hDx
        rcases hD with hD | ⟨hD, _, hgd⟩
        · exact (hG.some_ x d hx hP hxv (by rw [hxo]; exact hD)).keep hk
        · obtain ⟨h1, _⟩ := hG.none_ x hx hP hxv (by rw [hxo]; exact hD)
          rw [h1, hxo]; exact hgd
      · rw [hupd _ hxo] at hDx
        exact (hG.some_ x e hx hP hxv hDx).keep hk
    · by_cases hoo : o = owner h a
      · subst hoo
        rw [Function.update_self] at hDo
        injection hDo with hDo
        subst hDo
        rw [hi] at hio; injection hio with hio; subst hio
        exact gradCells_zero hdense (vol_lt_of_bytes (hp.bytes _ ia hn.1 hi)) hd' hA
      · rw [hupd _ hoo] at hDo
        obtain ⟨s, hs, rest⟩ := hG.cells o i e ho hvo hP hio hDo
        exact ⟨s, hst e s (fun h => hdP.2 o ho hvo hP hoo (h ▸ hDo)) hs, rest⟩
    · by_cases h1' : o = owner h a <;> by_cases h2' : o' = owner h a
      · rw [h1', h2']
      · rw [h1', Function.update_self] at h1
        injection h1 with h1
        rw [hupd _ h2'] at h2
        exact absurd (h1 ▸ h2) (hdP.2 o' ho' hvo' hP' h2')
      · rw [h2', Function.update_self] at h2
        injection h2 with h2
        rw [hupd _ h1'] at h1
        exact absurd (h2 ▸ h1) (hdP.2 o ho hvo hP h1')
      · rw [hupd _ h1'] at h1; rw [hupd _ h2'] at h2
        exact hG.apart o o' e ho ho' hvo hvo' hP hP' h1 h2
    · by_cases hoo : o = owner h a
      · rw [hoo, Function.update_self] at hDo
        injection hDo with hDo
        rw [← hDo]; exact hdP.1
      · rw [hupd _ hoo] at hDo
        exact hG.aside o e ho hvo hP hDo
    · have := hG.started b hb hbP hc
      by_cases hbo : owner h b = owner h a
      · rw [hbo]; exact ⟨d, _, _, Function.update_self .., hd', rfl⟩
      · obtain ⟨e, s, c, h1, h2, h3⟩ := this
        refine ⟨e, s, c, by rw [hupd _ hbo]; exact h1, hst e s (fun hed => ?_) h2, h3⟩
        exact hdP.2 _ (owner_needs hg hp hb).1 (owner_not_view hg b) (owner_closed hg hp hG.closed hb hbP) hbo (hed ▸ h1)
  · refine hst e s (fun hed => ?_) hs
    rcases hD with hD | ⟨_, hlen, _⟩
    · exact hne (hed ▸ hD)
    · have := getElem?_lt hs; omega
  · by_cases hoo : o = owner h a
    · subst hoo; exact ⟨d, _, _, Function.update_self .., hd', rfl⟩
    · obtain ⟨e, s, c, h1, h2, h3⟩ := ho
      by_cases hed : e = d
      · subst hed
        exact ⟨e, _, _, by rw [hupd _ hoo]; exact h1, hd', rfl⟩
      · exact ⟨e, s, c, by rw [hupd _ hoo]; exact h1, hst e s hed h2, h3⟩
  · rw [Function.update_self]
    rcases hD with hD | ⟨hD, _⟩
    · rw [hD] at he; exact he
    · rw [hD] at he; simp at he
  · rw [Function.update_self] at he
    injection he with he
    rcases hD with hD | ⟨_, hlen, _⟩
    · rw [hD] at hnone; simp at hnone
    · omega

omit [FOps F] [Exact F] in
theorem Readied.pre {h : Heap F} {t : Nat} {P : List Nat} {D D' : Nat → Option Nat} {A : Nat → List Nat → F} {H H1 H' : Heap F}
    {a : Nat} (hs : Soft H H1) (hst : H1.st = H.st) (hr : Readied h t P D A H1 a D' H') : Readied h t P D A H a D' H' :=
  ⟨hr.inv, hs.keep.trans hr.keep, fun e s he => hr.same e s (by rw [hst]; exact he), hr.own, hr.other,
    fun o ho => hr.alloc o (ho.mono fun e s he => by rw [hst]; exact he), hr.old, fun d h1 h2 => by rw [← hst]; exact hr.fresh d h1 h2⟩

omit [Field F] [FOps F] [Exact F] in
theorem soft_set {H : Heap F} {a : Nat} {i j : Impl} (hi : H.ts[a]? = some i) (hs : skel j = skel i) (hg : j.grad = i.grad) :
    Soft H { H with ts := H.ts.set a j } := fun x k hk => by
  by_cases hx : x = a
  · subst hx
    rw [hi] at hk; injection hk with hk; subst hk
    exact ⟨j, List.getElem?_set_self (getElem?_lt hi), hs, hg⟩
  · exact ⟨k, (List.getElem?_set_ne (Ne.symm hx)).trans hk, rfl, rfl⟩

/-- The part of `try_accumulate_update` that prepares the gradient storage. -/
def prepGrad (p : Nat) (i : Impl) : M F Unit :=
  match i.grad with
  | none => do
    let g ← create i.dtype i.view true
    let i ← getT p
    setT p { i with grad := some g }
    let gi ← getT g
    zeroS gi.data
  | some g => do
    let gi ← getT g
    let al ← isAllocS gi.data
    if !al then do
      allocS gi.data
      zeroS gi.data
    else pure ()

omit [Field F] [Exact F] in
theorem tryAccUpdate_split {H : Heap F} {a : Nat} {i : Impl} (hi : H.ts[a]? = some i) (hr : i.requiresGrad = true) :
    ∃ H1 i1, Soft H H1 ∧ H1.st = H.st ∧ H1.ts[a]? = some i1 ∧ skel i1 = skel i ∧ i1.grad = i.grad ∧
      tryAccUpdate a H = prepGrad a i H1 := by
  unfold tryAccUpdate
  rw [M.bind_ok (x := getT a) (a := i) (h' := H) (by unfold getT; rw [hi])]
  rw [if_neg (by rw [hr]; decide)]
  cases hgf : i.gradFn with
  | none => exact ⟨H, i, .of_ts rfl, rfl, hi, rfl, rfl, rfl⟩
  | some g =>
    refine ⟨{ H with ts := H.ts.set a { i with gradFn := some { g with accOutway := g.accOutway + 1 } } }, _, soft_set hi ?_ rfl,
      rfl, List.getElem?_set_self (getElem?_lt hi), ?_, rfl, rfl⟩ <;> simp [skel, hgf]

theorem tryAcc_ok {h : Heap F} {t : Nat} {P : List Nat} {D : Nat → Option Nat} {A : Nat → List Nat → F} {H : Heap F}
    (hg : Graph h) (hp : Prepared h t) (hG : GInv h t P D A H) {a : Nat} (hn : Needs h t a) (haP : a ∉ P) (hat : a = t → ¬ IsView h t) :
    ∃ D' H', tryAccUpdate a H = .ok () H' ∧ Readied h t P D A H a D' H' := by
  obtain ⟨_, i0, hi0, hr0⟩ := id hn
  obtain ⟨i, hi, hdt, hvw, hdata, hrq, _, _⟩ := hG.obj hi0
  obtain ⟨H1, i1, hs1, hst1, hi1, hsk1, hgr1, heq⟩ := tryAccUpdate_split (F := F) hi (hrq.trans hr0)
  have hG1 : GInv h t P D A H1 := hG.soft hs1 fun e s he => by rw [hst1]; exact he
  have hno := (owner_needs hg hp hn).1
  have hnv := owner_not_view hg a
  have hoP := owner_closed hg hp hG.closed hn haP
  obtain ⟨_, io, hio, _⟩ := id hno
  have hdense := hp.dense _ io hno hnv hio
  have hbytes := hp.bytes _ io hno.1 hio
  have hfl := hp.float _ io hno hio
  rw [heq]
  cases hgr : i.grad with
  | none =>
    have hDn : D (owner h a) = none := by
      cases hD : D (owner h a) with
      | none => rfl
      | some d =>
        obtain ⟨k, g, _, hk, hkg, _⟩ := hG1.some_ a d hn haP hat hD
        rw [hi1] at hk; injection hk with hk; subst hk
        rw [hgr1, hgr] at hkg; simp at hkg
    obtain ⟨hao, _, hA⟩ := hG1.none_ a hn haP hat hDn
    rw [hao] at hi0
    rw [hio] at hi0; injection hi0 with hi0; subst hi0
    rw [← hvw, ← hdt] at hbytes
    obtain ⟨s1, s2, _, _, _⟩ := skel_eq hsk1
    have hlt := getElem?_lt hi1
    let j : Impl := ⟨i.dtype, i.view, H1.st.length, none, false, false, none⟩
    let H3 : Heap F := { H1 with
      st := H1.st ++ [⟨i.dtype, i.dtype.size * vol i.view.sizes, some ((List.replicate (vol i.view.sizes) (none : Option (Val F))).map fun _ =>
        some (zeroVal i.dtype))⟩],
      ts := (H1.ts ++ [j]).set a { i1 with grad := some H1.ts.length } }
    have hti : H3.ts[a]? = some { i1 with grad := some H1.ts.length } :=
      List.getElem?_set_self (by rw [List.length_append]; omega)
    have htj : H3.ts[H1.ts.length]? = some j := by
      show ((H1.ts ++ [j]).set a _)[H1.ts.length]? = _
      rw [List.getElem?_set_ne (by omega)]
      exact List.getElem?_concat_length
    have hts : ∀ (x : Nat) (k : Impl), x ≠ a → H1.ts[x]? = some k → H3.ts[x]? = some k := fun x k hx hk => by
      show ((H1.ts ++ [j]).set a _)[x]? = _
      rw [List.getElem?_set_ne (Ne.symm hx), List.getElem?_append_left (getElem?_lt hk)]
      exact hk
    have hrun : prepGrad a i H1 = .ok () H3 := by
      unfold prepGrad
      rw [hgr]
      dsimp only
      rw [M.bind_ok (create_view_ok hbytes H1)]
      rw [M.bind_ok (x := getT a) (a := i1) (h' := { H1 with
        st := H1.st ++ [⟨i.dtype, i.dtype.size * vol i.view.sizes, some (List.replicate (vol i.view.sizes) none)⟩],
        ts := H1.ts ++ [j] }) (by
          unfold getT
          rw [show ({ H1 with st := H1.st ++ [⟨i.dtype, i.dtype.size * vol i.view.sizes,
            some (List.replicate (vol i.view.sizes) none)⟩], ts := H1.ts ++ [j] } : Heap F).ts[a]? = some i1 from
              (List.getElem?_append_left hlt).trans hi1])]
      rw [M.bind_ok (x := setT a _) (a := ()) (h' := { H1 with
        st := H1.st ++ [⟨i.dtype, i.dtype.size * vol i.view.sizes, some (List.replicate (vol i.view.sizes) none)⟩],
        ts := H3.ts }) rfl]
      rw [M.bind_ok (x := getT H1.ts.length) (a := j) (h' := { H1 with
        st := H1.st ++ [⟨i.dtype, i.dtype.size * vol i.view.sizes, some (List.replicate (vol i.view.sizes) none)⟩],
        ts := H3.ts }) (by unfold getT; dsimp only; rw [htj])]
      unfold zeroS
      rw [M.bind_ok (x := getS j.data) (a := ⟨i.dtype, i.dtype.size * vol i.view.sizes,
        some (List.replicate (vol i.view.sizes) none)⟩) (h' := { H1 with
        st := H1.st ++ [⟨i.dtype, i.dtype.size * vol i.view.sizes, some (List.replicate (vol i.view.sizes) none)⟩],
        ts := H3.ts }) (by
          unfold getS
          dsimp only
          rw [show (H1.st ++ [(⟨i.dtype, i.dtype.size * vol i.view.sizes, some (List.replicate (vol i.view.sizes) none)⟩ : Storage F)])[j.data]? =
            some ⟨i.dtype, i.dtype.size * vol i.view.sizes, some (List.replicate (vol i.view.sizes) none)⟩ from
            List.getElem?_concat_length])]
      dsimp only [setS]
      rw [show j.data = H1.st.length from rfl, List.set_append_right _ _ (Nat.le_refl _), Nat.sub_self, List.set_cons_zero]
    refine ⟨_, H3, hrun, Readied.pre hs1 hst1 (GInv.zeroed hg hp hG1 (d := H1.st.length) hno hoP hio
      (Or.inr ⟨hDn, le_refl _, ?_⟩) (fun idx _ => by rw [← hao]; exact hA idx) ?_ ?_ ?_ ?_)⟩
    · rw [← hao]
      refine ⟨_, _, j, hti, rfl, htj, s1.symm, by rw [show j.view = i.view from rfl, s2], hvw ▸ hdense.strides, ?_, fun idx _ => ?_, rfl, rfl⟩
      · show i.view.offset < _
        rw [hvw]; exact hdense.offset
      · show position i.view idx = position i1.view idx
        rw [s2]
    · intro x k hk
      by_cases hx : x = a
      · subst hx
        rw [hi1] at hk; injection hk with hk; subst hk
        exact ⟨_, hti, rfl, fun hsome => by rw [hgr1, hgr] at hsome; simp at hsome⟩
      · exact ⟨k, hts x k hx hk, rfl, fun _ => rfl⟩
    · intro x k hx hk
      rw [gradAt_some (hts x k (fun e => hx (e.trans hao)) hk), gradAt_some hk]
    · intro e s he hs
      exact (List.getElem?_append_left (getElem?_lt hs)).trans hs
    · show (H1.st ++ [_])[H1.st.length]? = _
      rw [List.getElem?_concat_length, zeroVal_exact (by rw [hdt]; exact hfl), List.map_replicate, hdt, hvw]
  | some g =>
    obtain ⟨d, hD⟩ : ∃ d, D (owner h a) = some d := by
      cases hD : D (owner h a) with
      | some d => exact ⟨d, rfl⟩
      | none =>
        have := (hG1.none_ a hn haP hat hD).2.1
        rw [gradAt_some hi1, hgr1, hgr] at this; simp at this
    obtain ⟨k, g', j, hk, hkg, hj, hjd, _, _, _, _, _, hjdata⟩ := hG1.some_ a d hn haP hat hD
    rw [hi1] at hk; injection hk with hk; subst hk
    rw [hgr1, hgr] at hkg; injection hkg with hkg; subst hkg
    obtain ⟨s, hs, hsdt, hcell⟩ := hG1.cells _ io d hno hnv hoP hio hD
    have hpg : prepGrad a i H1 = (do
        let al ← isAllocS d
        if !al then do
          allocS d
          zeroS d
        else pure ()) H1 := by
      unfold prepGrad
      rw [hgr]
      dsimp only
      rw [M.bind_ok (x := getT g) (a := j) (h' := H1) (by unfold getT; rw [hj]), hjdata]
    have hal : isAllocS d H1 = .ok s.blob.isSome H1 := by
      unfold isAllocS
      rw [M.bind_ok (x := getS d) (a := s) (h' := H1) (by unfold getS; rw [hs])]
      rfl
    rcases hcell with ⟨hb, hssz, hA⟩ | ⟨c, hb, hrest⟩
    · let s1 : Storage F := { s with blob := some (List.replicate (vol io.view.sizes) none) }
      let s2 : Storage F := { s with blob := some ((List.replicate (vol io.view.sizes) (none : Option (Val F))).map fun _ => some (zeroVal s.dt)) }
      have hd := getElem?_lt hs
      let H2 : Heap F := { H1 with st := H1.st.set d s1 }
      let H3 : Heap F := { H1 with st := H1.st.set d s2 }
      have hal2 : allocS d H1 = .ok () H2 := by
        unfold allocS
        rw [M.bind_ok (x := getS d) (a := s) (h' := H1) (by unfold getS; rw [hs]), if_pos (by
          rw [hssz]; unfold maxAlloc; rw [Nat.mul_comm]; exact hbytes)]
        have : (freshBlob s.dt s.size : List (Option (Val F))) = List.replicate (vol io.view.sizes) none := by
          unfold freshBlob; rw [hssz, hsdt, Nat.mul_div_cancel_left _ (DType.size_pos _)]
        rw [this]; rfl
      have hz : zeroS d H2 = .ok () H3 := by
        unfold zeroS
        rw [M.bind_ok (x := getS d) (a := s1) (h' := H2) (by
          unfold getS; rw [show H2.st[d]? = some s1 from List.getElem?_set_self hd])]
        dsimp only [s1, setS, H2]
        rw [List.set_set]
      refine ⟨_, H3, ?_, Readied.pre hs1 hst1 (GInv.zeroed (H' := H3) hg hp hG1 (d := d) hno hoP hio (Or.inl hD) hA ?_ ?_ ?_ ?_)⟩
      · rw [hpg, M.bind_ok hal, hb]
        simp only [Option.isSome_none, Bool.not_false, if_true]
        rw [M.bind_ok hal2, hz]
      · exact (Soft.of_ts rfl).keep
      · intro x k _ _; rfl
      · intro e s he hes
        exact (List.getElem?_set_ne (Ne.symm he)).trans hes
      · show (H1.st.set d s2)[d]? = _
        rw [List.getElem?_set_self hd]
        simp only [s2, hsdt, hssz, List.map_replicate, zeroVal_exact hfl]
    · refine ⟨D, H1, ?_, Readied.pre hs1 hst1 ⟨hG1, .refl _, fun e s he _ => he, ⟨d, s, c, hD, hs, hb⟩, fun _ _ => rfl, fun _ h => h,
        fun _ h => h, fun e h1 h2 => ?_⟩⟩
      · rw [hpg, M.bind_ok hal, hb]; rfl
      · rw [h1] at h2; simp at h2

end INNC
