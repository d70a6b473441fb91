import Verif.Spec.ViewGrad
import Verif.Lemmas.Accumulate
/-
The gradient of a view lies on the storage of the gradient of the tensor it is a view of.
-/
namespace INNC
open Spec Tensor
variable {F : Type} [Field F] [FOps F] {h H : Heap F} {V : Nat → Prop}

theorem Inv.viewBase (hI : Inv h V) {v b : Nat} (hv : V v) (hV : IsView h v) (hu : Uses h v b) :
    V b ∧ ∃ i j, h.ts[v]? = some i ∧ h.ts[b]? = some j ∧ i.data = j.data ∧ ∀ idx, InBox i.view.sizes idx →
      ∃ idx', InBox j.view.sizes idx' ∧ position j.view idx' = position i.view idx := by
  obtain ⟨g, hg, hk⟩ := hV
  obtain ⟨_, _, h3, h4⟩ := hI.ops v g hv hg
  have hb : b ∈ g.inputs := by unfold Uses operands at hu; rwa [hg] at hu
  rw [hk] at h4
  unfold Primal at h4
  split at h4 <;> first | (exact absurd h4 id) | skip
  all_goals simp_all

/-- What a view has in common with the tensor it is a view of. -/
structure OnBase (h : Heap F) (v x : Nat) : Prop where
  from_ : From h v x
  store : gradStore h v = gradStore h x
  some_ : (gradStore h v).isSome = true
  req : requiresGrad h x = true
  dtype : (h.ts[v]?).map (·.dtype) = (h.ts[x]?).map (·.dtype)
  place : ∀ idx, InBox (shapeOf h v) idx → ∃ k, SamePlace h v idx x k

theorem Inv.onBase (hI : Inv h V) {v x : Nat} (hv : V v) (ho : ViewOn h v x) : V x ∧ OnBase h v x := by
  induction ho with
  | @base v x h1 h2 h3 =>
    obtain ⟨hx, i, j, hi, hj, hd, hp⟩ := hI.viewBase hv h1 h2
    obtain ⟨k1, k2, k3, k4⟩ := hI.view v x hv h1 h2
    refine ⟨hx, .step .root h2, k3, k2, k1, k4, fun idx hidx => ?_⟩
    rw [shapeOf_eq hi] at hidx
    obtain ⟨k, hk, e⟩ := hp idx hidx
    exact ⟨k, i, j, hi, hj, hd, hidx, hk, e.symm⟩
  | @step v w x h1 h2 _ ih =>
    obtain ⟨hw, i, j, hi, hj, hd, hp⟩ := hI.viewBase hv h1 h2
    obtain ⟨_, k2, k3, k4⟩ := hI.view v w hv h1 h2
    obtain ⟨hx, o⟩ := ih hw
    refine ⟨hx, (From.step .root h2).trans o.from_, k3.trans o.store, k2, o.req, k4.trans o.dtype, fun idx hidx => ?_⟩
    rw [shapeOf_eq hi] at hidx
    obtain ⟨k, hk, e⟩ := hp idx hidx
    obtain ⟨k', j', l, hj', hl, hd', hk', hkl, e'⟩ := o.place k (by rw [shapeOf_eq hj]; exact hk)
    rw [hj] at hj'
    obtain rfl := Option.some.inj hj'
    exact ⟨k', i, l, hi, hl, hd.trans hd', hidx, hkl, e.symm.trans e'⟩

omit [Field F] in
/-- Gradients that are told to stay are the same objects. -/
theorem back_stays (hg : Graph h) {t : Nat} {it : Impl} (hit : h.ts[t]? = some it) (hr : it.requiresGrad = true)
    (hgf : it.gradFn.isSome = true) (hn : numel it.view.sizes = 1) (e : backward t h = .ok () H) {v : Nat} {i : Impl}
    (hi : h.ts[v]? = some i) (hne : v ≠ t) (hret : i.retainGrad = true) {g : Nat} (hgr : i.grad = some g) :
    gradAt H v = some g := by
  obtain ⟨_, n, _, _, _, l, _, _, _, _, hpass⟩ := backward_order hg hit hr hgf hn
  obtain ⟨R, _, _, hp⟩ := hpass H e
  rw [hp.stays v i hi hne hret (by rw [gradAt_some hi, hgr]; rfl), gradAt_some hi, hgr]

open Classical in
/-- The gradient of a view whose gradient is kept is read off the gradient of the tensor it is a view of. -/
theorem Inv.view_grad (hI : Inv h V) (hh : History h) {t v x : Nat} (e : backward t h = .ok () H) (hv : V v) (ho : ViewOn h v x)
    (hl : ¬ Interior h x) {i : Impl} (hi : h.ts[v]? = some i) {g : Nat} (hgr : i.grad = some g) (hst : gradAt H v = some g)
    {G : List Nat → F} (hG : GradIs H x G) :
    ∃ G', GradIs H v G' ∧ ∀ idx k, SamePlace h v idx x k → G' idx = G k := by
  have hb := backward_frame hh (.inl e)
  obtain ⟨hx, o⟩ := hI.onBase hv ho
  obtain ⟨j, hj, j1, j2, _⟩ := hI.grad v i g hv hi hgr
  obtain ⟨ix, _, hix, _⟩ := hI.reads x hx
  have hlx : ix.gradFn = none := by unfold Interior at hl; rw [opOf_eq hix] at hl; simpa using hl
  have hsv : gradStore h v = some j.data := by simp [gradStore, hi, hgr, hj]
  have hsx : gradStore h x = some j.data := by rw [← o.store]; exact hsv
  obtain ⟨ix0, gx, jx, e1, hgx, hjx, hjd⟩ := gradStore_some hsx
  rw [hix] at e1
  obtain rfl := Option.some.inj e1
  obtain ⟨jx0, e2, x1, x2, _⟩ := hI.grad x ix gx hx hix hgx
  rw [hjx] at e2
  obtain rfl := Option.some.inj e2
  -- the objects afterwards
  obtain ⟨i', hi', hsk⟩ := hb.skel v i hi
  obtain ⟨s1, s2, _⟩ := skel_eq hsk
  obtain ⟨ix', hix', hskx⟩ := hb.skel x ix hix
  obtain ⟨y1, y2, _⟩ := skel_eq hskx
  obtain ⟨j', hj', hskj⟩ := hb.skel g j hj
  obtain ⟨z1, z2, z3, _⟩ := skel_eq hskj
  obtain ⟨jx', hjx', hskjx⟩ := hb.skel gx jx hjx
  obtain ⟨w1, w2, w3, _⟩ := skel_eq hskjx
  obtain ⟨ix2, gx2, f, q1, q2, ⟨jx2, q3, q4, q5, hrd⟩, q6⟩ := hG
  rw [hix'] at q1
  obtain rfl := Option.some.inj q1
  rw [hb.leaf x ix ix' hix hix' hlx (.inl (by rw [hgx]; rfl)), hgx] at q2
  obtain rfl := Option.some.inj q2
  rw [hjx'] at q3
  obtain rfl := Option.some.inj q3
  obtain ⟨s, c, c1, c2, c3, c4, c5⟩ := hrd.cells
  have hdt : i.dtype = ix.dtype := by
    have := o.dtype
    rw [hi, hix] at this
    exact Option.some.inj this
  -- the same cells
  have hcell : ∀ idx k, SamePlace h v idx x k → ∃ p : Nat, position j'.view idx = p ∧ c[p]? = some (some (f k)) ∧ InBox jx'.view.sizes k := by
    rintro idx k ⟨a, b, a1, b1, _, ha, hb', hp⟩
    rw [hi] at a1
    obtain rfl := Option.some.inj a1
    rw [hix] at b1
    obtain rfl := Option.some.inj b1
    have hk : InBox jx'.view.sizes k := by rw [w2, x2]; exact hb'
    obtain ⟨p, p1, p2⟩ := c5 k hk
    exact ⟨p, by rw [z2, j2, hp, ← p1, w2, x2], p2, hk⟩
  have huniq : ∀ idx k k', SamePlace h v idx x k → SamePlace h v idx x k' → f k = f k' := fun idx k k' h1 h2 => by
    obtain ⟨p, p1, p2, _⟩ := hcell idx k h1
    obtain ⟨p', p1', p2', _⟩ := hcell idx k' h2
    rw [p1] at p1'
    obtain rfl := Int.ofNat.inj p1'
    rw [p2] at p2'
    exact Option.some.inj (Option.some.inj p2')
  let f' : List Nat → Val F := fun idx => if hk : ∃ k, SamePlace h v idx x k then f hk.choose else .f 0
  have hf' : ∀ idx k, SamePlace h v idx x k → f' idx = f k := fun idx k hk => by
    have hex : ∃ k, SamePlace h v idx x k := ⟨k, hk⟩
    simp only [f', dif_pos hex]
    exact huniq idx _ k hex.choose_spec hk
  obtain ⟨iv, fv, hiv, hrv⟩ := hI.reads v hv
  rw [hi] at hiv
  obtain rfl := Option.some.inj hiv
  have hdata : j'.data = jx'.data := by rw [z3, w3, hjd]
  refine ⟨fun idx => real (f' idx), ⟨i', g, f', hi', by rwa [gradAt_some hi'] at hst, ⟨j', hj', by rw [z1, j1, s1], by rw [z2, j2, s2],
    by rw [z2, j2]; exact hrv.strides, by rw [z2, j2]; exact hrv.offset,
    ⟨s, c, by rw [hdata]; exact c1, by rw [c2, w1, x1, z1, j1, hdt], c3, c4, fun idx hidx => ?_⟩, fun idx hidx => ?_⟩, fun _ _ => rfl⟩,
    fun idx k hk => ?_⟩
  · obtain ⟨k, hk⟩ := o.place idx (by rw [shapeOf_eq hi, ← j2, ← z2]; exact hidx)
    obtain ⟨p, p1, p2, _⟩ := hcell idx k hk
    exact ⟨p, p1, by rw [hf' idx k hk]; exact p2⟩
  · obtain ⟨k, hk⟩ := o.place idx (by rw [shapeOf_eq hi, ← j2, ← z2]; exact hidx)
    obtain ⟨p, p1, p2, p3⟩ := hcell idx k hk
    have := hrd.typed k p3
    rw [hf' idx k hk, z1, j1, hdt, ← x1, ← w1]
    exact this
  · obtain ⟨p, p1, p2, p3⟩ := hcell idx k hk
    rw [← q6 k (by rw [← q5]; exact p3)]
    simp only
    rw [hf' idx k hk]

end INNC
