import Verif.Lemmas.ForwardBack
import Verif.Lemmas.Accum
/-
Programs that compute with variables, differentiate and update keep the invariant.
-/
namespace INNC
open Spec Tensor
variable {F : Type} [Field F] [FOps F] {h H : Heap F} {V : Nat → Prop} {t : Nat}

/-! ### Writing to a storage -/

theorem Inv.write (hI : Inv h V) {d : Nat} (hts : H.ts = h.ts) (hst : ∀ e, e ≠ d → H.st[e]? = h.st[e]?)
    (hrd : ∀ x i f, V x → h.ts[x]? = some i → i.data = d → Reads h i f → ∃ f', Reads H i f')
    (hops : ∀ x g, V x → opOf h x = some g → (∀ i, h.ts[x]? = some i → i.data ≠ d) ∧
      (∀ a ∈ g.inputs, ∀ i, h.ts[a]? = some i → i.data ≠ d) ∧ ∀ k i, g.kind = .knownGrad k → h.ts[k]? = some i → i.data ≠ d)
    (hcell : ∀ x i, V x → ¬ IsView h x → h.ts[x]? = some i → gradStore h x = some d → GradFine H x d i) : Inv H V := by
  have hop : ∀ x, opOf H x = opOf h x := fun x => by unfold opOf; rw [hts]
  have hview : ∀ x, IsView H x ↔ IsView h x := fun x => by unfold IsView; rw [hop]
  have huses : ∀ x y, Uses H x y ↔ Uses h x y := fun x y => by unfold Uses operands; rw [hop]
  have hgs : ∀ x, gradStore H x = gradStore h x := fun x => by unfold gradStore; rw [hts]
  have hreq : ∀ x, requiresGrad H x = requiresGrad h x := fun x => by unfold requiresGrad; rw [hts]
  have hsame : ∀ (x : Nat) (i : Impl), h.ts[x]? = some i → i.data ≠ d → SameT h H x := fun x i hi hd =>
    ⟨i, i, hi, by rw [hts]; exact hi, rfl, rfl, rfl, hst _ hd, id⟩
  refine ⟨fun x hx => ?_, fun x g hx hg => ?_, fun x i hx hi => ?_, fun x i hx hi hr hv => ?_, fun x b hx hv hu => ?_,
    fun x i g hx hi hg => ?_, fun x i hx hi => ?_, fun x i D hx hv hi hD => ?_, fun x y D hx hy hvx hvy hdx hdy => ?_⟩
  · obtain ⟨i, f, hi, hr⟩ := hI.reads x hx
    by_cases hd : i.data = d
    · obtain ⟨f', hr'⟩ := hrd x i f hx hi hd hr
      exact ⟨i, f', by rw [hts]; exact hi, hr'⟩
    · exact ⟨i, f, by rw [hts]; exact hi, hr.same rfl rfl rfl (hst _ hd)⟩
  · rw [hop] at hg
    obtain ⟨h1, h2, h3, h4⟩ := hI.ops x g hx hg
    obtain ⟨o1, o2, o3⟩ := hops x g hx hg
    refine ⟨by rw [hreq]; exact h1, h2, h3, h4.mono ?_ (fun a ha => ?_) fun k hk => ?_⟩
    · obtain ⟨i, _, hi, _⟩ := hI.reads x hx
      exact hsame x i hi (o1 i hi)
    · obtain ⟨i, _, hi, _⟩ := hI.reads a (h3 a ha).1
      exact hsame a i hi (o2 a ha i hi)
    · obtain ⟨i, _, hi, _⟩ := hI.slopes hx hg hk
      exact hsame k i hi (o3 k i hk hi)
  · rw [hts] at hi; exact hI.float x i hx hi
  · rw [hts] at hi
    rw [hview] at hv
    exact hI.dense x i hx hi hr hv
  · rw [hview] at hv
    rw [huses] at hu
    rw [hreq, hgs, hgs, hts]
    exact hI.view x b hx hv hu
  · rw [hts] at hi ⊢; exact hI.grad x i g hx hi hg
  · rw [hts] at hi; exact hI.bare x i hx hi
  · rw [hts] at hi
    rw [hview] at hv
    rw [hgs] at hD
    by_cases hd : D = d
    · subst hd; exact hcell x i hx hv hi hD
    · obtain ⟨s, hs, h2⟩ := hI.cells x i D hx hv hi hD
      refine ⟨s, by rw [hst D hd]; exact hs, ?_⟩
      unfold Interior at h2 ⊢
      rw [hop]; exact h2
  · rw [hview] at hvx hvy
    rw [hgs] at hdx hdy
    exact hI.apart x y D hx hy hvx hvy hdx hdy

variable [Exact F]

omit [Exact F] in
/-- The variables that do not read a storage. -/
theorem Inv.away (hI : Inv h V) (p : Nat → Prop) : Inv h fun x => V x ∧ ∀ d, p d → ¬ ReadStore h x d :=
  hI.weaken (fun _ hx => hx.1) fun x gx hx hgx b hb =>
    ⟨((hI.ops x gx hx.1 hgx).2.2.1 b hb).1, fun d hd hr => hx.2 d hd
      (ReadStore.trans (.step .root (by unfold Uses operands; rw [hgx]; exact hb)) hr)⟩

theorem Inv.zeroGrad (hI : Inv h V) (ht : V t) (e : Tensor.zeroGrad t h = .ok () H) :
    Inv H fun x => V x ∧ ∀ d, gradStore h t = some d → ¬ ReadStore h x d := by
  have hW := hI.away fun d => gradStore h t = some d
  obtain ⟨i, _, hi, _⟩ := hI.reads t ht
  unfold Tensor.zeroGrad at e
  rw [M.bind_ok (getT_ok hi)] at e
  cases hg : i.grad with
  | none =>
    rw [hg] at e
    injection e with _ e
    rw [← e]; exact hW
  | some g =>
    rw [hg] at e
    obtain ⟨gi, hgi, _⟩ := hI.grad t i g ht hi hg
    have hd : gradStore h t = some gi.data := by simp [gradStore, hi, hg, hgi]
    obtain ⟨o, ho, hov, hod⟩ := hI.owner _ t (Nat.lt_succ_self t) ht hd
    obtain ⟨io, _, hio, _⟩ := hI.reads o ho
    obtain ⟨s, hs, hdt, hc⟩ := hI.cells o io gi.data ho hov hio hod
    have e : (getT g >>= fun gi => zeroS gi.data) h = .ok () H := e
    rw [M.bind_ok (getT_ok hgi)] at e
    unfold zeroS at e
    rw [M.bind_ok (getS_ok hs)] at e
    rcases hc with ⟨hb, _⟩ | ⟨hint, c, a, hb, hlen, hcell⟩
    · rw [hb] at e
      injection e with _ e
      rw [← e]; exact hW
    · rw [hb] at e
      injection e with _ e
      have hlt := getElem?_lt hs
      have hself : H.st[gi.data]? = some { s with blob := some (c.map fun _ => some (zeroVal s.dt)) } := by
        rw [← e]; exact List.getElem?_set_self hlt
      refine hW.write (d := gi.data) (by rw [← e]) (fun x hx => by rw [← e]; exact List.getElem?_set_ne (Ne.symm hx))
        (fun x j f hx hj hjd _ => absurd (.inl ⟨x, j, .root, hj, hjd⟩) (hx.2 _ hd)) (fun x gx hx hgx => ?_) fun x j hx hv hj hxd => ?_
      · refine ⟨fun j hj hjd => hx.2 _ hd (.inl ⟨x, j, .root, hj, hjd⟩), fun y hy j hj hjd => ?_,
          fun k j hk hj hjd => hx.2 _ hd (.inr ⟨x, gx, k, j, .root, hgx, hk, hj, hjd⟩)⟩
        exact hx.2 _ hd (.inl ⟨y, j, .step .root (by unfold Uses operands; rw [hgx]; exact hy), hj, hjd⟩)
      · obtain rfl := hI.apart o x gi.data ho hx.1 hov hv hod hxd
        rw [hio] at hj
        obtain rfl := Option.some.inj hj
        refine ⟨_, hself, hdt, .inr ⟨fun hc => hint ?_, _, fun _ => 0, rfl, by simpa using hlen, fun idx hb => ?_⟩⟩
        · unfold Interior opOf at hc ⊢
          rw [← e] at hc; exact hc
        · rw [List.getElem?_map, hcell idx hb]
          have hfl : io.dtype.isFloat = true := by
            cases hrq : io.requiresGrad with
            | true => exact hI.float o io ho hio hrq
            | false =>
              have := hI.bare o io ho hio hrq
              simp [gradStore, hio, this] at hod
          have hz : (zeroVal s.dt : Val F) = .f 0 := by
            rw [hdt]
            unfold zeroVal
            rw [if_neg (by revert hfl; cases io.dtype <;> decide), Exact.zero]
          rw [hz]; rfl

omit [Exact F] in
/-- Taking a gradient as a variable. -/
theorem Inv.take (hI : Inv h V) (ht : V t) {i : Impl} {g : Nat} {a : List Nat → F} (hi : h.ts[t]? = some i) (hg : i.grad = some g)
    (ha : GradIs h t a) : Inv h fun x => V x ∨ x = g := by
  obtain ⟨i', g', f, hi', hg', ⟨j, hj, k1, k2, hjr⟩, _⟩ := ha
  rw [hi] at hi'
  obtain rfl := Option.some.inj hi'
  rw [hg] at hg'
  obtain rfl := Option.some.inj hg'
  obtain ⟨j', hj', _, _, hjq, hjo, hjg⟩ := hI.grad t i g ht hi hg
  rw [hj] at hj'
  obtain rfl := Option.some.inj hj'
  have hgn : gradStore h g = none := by simp [gradStore, hj, hjg]
  have hgo : opOf h g = none := by rw [opOf_eq hj, hjo]
  refine ⟨?_, ?_, ?_, ?_, ?_, ?_, ?_, ?_, ?_⟩
  · rintro x (hx | rfl)
    · exact hI.reads x hx
    · exact ⟨j, f, hj, hjr⟩
  · rintro x gx (hx | rfl) hgx
    · obtain ⟨h1, h2, h3, h4⟩ := hI.ops x gx hx hgx
      exact ⟨h1, h2, fun b hb => ⟨.inl (h3 b hb).1, (h3 b hb).2⟩, h4⟩
    · rw [hgo] at hgx; cases hgx
  · rintro x ix (hx | rfl) hix hr
    · exact hI.float x ix hx hix hr
    · rw [hj] at hix
      obtain rfl := Option.some.inj hix
      rw [hjq] at hr; cases hr
  · rintro x ix (hx | rfl) hix hr hv
    · exact hI.dense x ix hx hix hr hv
    · rw [hj] at hix
      obtain rfl := Option.some.inj hix
      rw [hjq] at hr; cases hr
  · rintro x b (hx | rfl) hv hu
    · exact hI.view x b hx hv hu
    · obtain ⟨gx, hgx, _⟩ := hv
      rw [hgo] at hgx; cases hgx
  · rintro x ix gx (hx | rfl) hix hgx
    · exact hI.grad x ix gx hx hix hgx
    · rw [hj] at hix
      obtain rfl := Option.some.inj hix
      rw [hjg] at hgx; cases hgx
  · rintro x ix (hx | rfl) hix hr
    · exact hI.bare x ix hx hix hr
    · rw [hj] at hix
      obtain rfl := Option.some.inj hix
      exact hjg
  · rintro x ix d (hx | rfl) hv hix hd
    · exact hI.cells x ix d hx hv hix hd
    · rw [hgn] at hd; cases hd
  · rintro x y d (hx | rfl) (hy | rfl) hvx hvy hdx hdy
    · exact hI.apart x y d hx hy hvx hvy hdx hdy
    · rw [hgn] at hdy; cases hdy
    · rw [hgn] at hdx; cases hdx
    · rfl

omit [Exact F] in
theorem elemAccum_some {da db : DType} (hf : da.isFloat = true) (x y : Val F) : ∃ v, elemAccum da db x y = some v := by
  have h1 : ¬ isInteger da := by cases da <;> first | exact absurd hf (by decide) | (intro h; exact absurd h (by decide))
  unfold elemAccum elemArith
  rw [if_neg (fun h => h1 h.1)]
  unfold convert
  rw [Option.bind_some, if_neg h1]
  exact ⟨_, rfl⟩

theorem foldlM_some {α β : Type} {f : α → β → Option α} (hf : ∀ x y, ∃ v, f x y = some v) :
    ∀ (l : List β) (x : α), ∃ v, l.foldlM f x = some v
  | [], x => ⟨x, rfl⟩
  | y :: l, x => by
    obtain ⟨v, hv⟩ := hf x y
    obtain ⟨w, hw⟩ := foldlM_some hf l v
    exact ⟨w, by rw [List.foldlM_cons, hv]; exact hw⟩

/-- In-place addition. -/
theorem Inv.update (hI : Inv h V) {r : Nat} (ht : V t) (hr : V r) (hA : Addable h t r) (e : addAssign t r h = .ok () H) :
    Inv H fun x => V x ∧ Unread h x t := by
  obtain ⟨hrq, hfl, hdist, hns, s, hs, hstr⟩ := hA
  obtain ⟨i, fi, hi, hir⟩ := hI.reads t ht
  obtain ⟨j, fj, hj, hjr⟩ := hI.reads r hr
  rw [shapeOf_eq hi, shapeOf_eq hj] at hs hstr
  have hg : ∀ idx, ∃ v, accumAt i.dtype j.dtype i.view.sizes j.view.sizes s fi fj idx = some v := fun idx =>
    foldlM_some (fun x y => elemAccum_some (hfl i hi) x _) _ _
  have hrq' : i.requiresGrad = false := by
    unfold requiresGrad at hrq
    rw [hi] at hrq; exact hrq
  obtain ⟨h', e', hts', _, hoth⟩ := add_effect (da := i.dtype) (db := j.dtype) ⟨i, hi, rfl, rfl, hir⟩ ⟨j, hj, rfl, rfl, hjr⟩ hns
    (fun i' hi' => by rw [hi] at hi'; obtain rfl := Option.some.inj hi'; exact hrq') hs hstr hdist
    (fun idx _ => (hg idx).choose_spec)
  obtain ⟨st, cells, cells', hst, hbl, e2, hlen, _⟩ := addAssign_ok hi hj hir hjr (fun he => hns ⟨i, j, hi, hj, he⟩) hrq' hs hstr
    (hdist i hi) (fun idx _ => (hg idx).choose_spec)
  rw [e] at e' e2
  injection e' with _ e'
  injection e2 with _ e2
  subst e'
  have hW := hI.weaken (W := fun x => V x ∧ Unread h x t) (fun x hx => hx.1) fun x gx hx hgx b hb =>
    have hxb : From h x b := .step .root (by unfold Uses operands; rw [hgx]; exact hb)
    ⟨((hI.ops x gx hx.1 hgx).2.2.1 b hb).1, fun y gy hy => hx.2.1 y gy (hxb.trans hy), fun y iy hy => hx.2.2 y iy (hxb.trans hy)⟩
  refine hW.write (d := i.data) hts' (fun d hd => by rw [e2]; exact Heap.setCells_st_ne _ hd _) (fun x ix f hx hix hd hrx => ?_)
    (fun x gx hx hgx => ?_) fun x ix hx hv hix hd => ?_
  · obtain ⟨f', ⟨ix', hix', _, _, h1⟩, _⟩ := hoth x ix.dtype ix.view.sizes f ⟨ix, hix, rfl, rfl, hrx⟩
    rw [hts', hix] at hix'
    obtain rfl := Option.some.inj hix'
    exact ⟨f', h1⟩
  · obtain ⟨o1, o2, o3⟩ := hx.2.1 x gx .root hgx
    exact ⟨fun y hy hd => o1 ⟨y, i, hy, hi, hd⟩, fun a ha y hy hd => o2 a ha ⟨y, i, hy, hi, hd⟩,
      fun k y hk hy hd => o3 k hk ⟨y, i, hy, hi, hd⟩⟩
  · exact absurd hd (hx.2.2 x i .root hi)

theorem Inv.changes (hI : Inv h V) {c : Call F} (hf : Spec.Fits h c) (ha : ∀ a ∈ args c, V a)
    (e : c.run h = .ok none H) : Inv H V := by
  cases c with
  | setRequiresGrad t b =>
    obtain ⟨_, _, e⟩ := none'_inv e
    obtain ⟨rfl, hd, hng⟩ := hf
    have ht := ha t (by simp [args])
    obtain ⟨i, f, hi, hr⟩ := hI.reads t ht
    unfold Tensor.setRequiresGrad at e
    rw [M.bind_ok (getT_ok hi)] at e
    simp only [if_true] at e
    obtain ⟨_, h1, e1, e2⟩ := bind_inv e
    have hfl : i.dtype.isFloat = true ∧ h1 = h := by
      cases hd : i.dtype <;> rw [hd] at e1 <;> first | (injection e1 with _ e1; exact ⟨rfl, e1.symm⟩) | (exact absurd e1 (by simp [expect]))
    obtain ⟨hfl, rfl⟩ := hfl
    rw [M.bind_ok (getT_ok hi)] at e2
    injection e2 with _ e2
    rw [← e2]
    exact hI.flag hi true i.retainGrad (.inr hng) (.inr ⟨rfl, hfl, hd i hi⟩)
  | setRetainGrad t b =>
    obtain ⟨_, _, e⟩ := none'_inv e
    have ht := ha t (by simp [args])
    obtain ⟨i, f, hi, hr⟩ := hI.reads t ht
    unfold Tensor.setRetainGrad at e
    rw [M.bind_ok (getT_ok hi)] at e
    injection e with _ e
    rw [← e]
    exact hI.flag hi i.requiresGrad b (.inl rfl) (.inl rfl)
  | init tree =>
    obtain ⟨dt, s, h1, h2, h3⟩ := hf
    obtain ⟨g, hg⟩ := init_entries h1
    obtain ⟨h4, e1, b1, _⟩ := ofInit_ok h1 h2 h3 h g hg
    rw [show Call.run (.init tree) h = _ from e1] at e
    simp at e
  | _ => first | exact absurd hf id | exact (some'_none e).elim

/-! ### Programs -/

theorem forward_history {vs : List Nat} (hf : Forward h vs) : History h := by
  induction hf with
  | start => exact .start
  | returns _ _ _ hrun ih => exact .returned ih hrun
  | changes _ _ _ hrun ih => exact .returned ih hrun
  | back _ _ _ hrun _ ih => exact .returned ih hrun
  | gradient _ _ _ hrun ih => exact .returned ih hrun
  | zero _ _ hrun _ ih => exact .returned ih hrun
  | update _ _ _ _ hrun _ ih => exact .returned ih hrun

theorem forward_inv {vs : List Nat} (hf : Forward h vs) : ∃ V, (∀ x ∈ vs, V x) ∧ Inv h V := by
  induction hf with
  | start => exact ⟨_, by simp, inv_empty⟩
  | returns _ hfit ha hrun ih =>
    obtain ⟨V, hV, hI⟩ := ih
    obtain ⟨V', hI', hsub, ht⟩ := hI.returns hfit (fun a h => hV a (ha a h)) hrun
    refine ⟨V', fun x hx => ?_, hI'⟩
    rcases List.mem_cons.1 hx with rfl | hx
    · exact ht
    · exact hsub x (hV x hx)
  | changes _ hfit ha hrun ih =>
    obtain ⟨V, hV, hI⟩ := ih
    exact ⟨V, hV, hI.changes hfit (fun a h => hV a (ha a h)) hrun⟩
  | back hf ht hs hrun hvs ih =>
    obtain ⟨V, hV, hI⟩ := ih
    obtain ⟨_, _, e⟩ := none'_inv hrun
    obtain ⟨h1, h2, h3, h4⟩ := hs
    exact ⟨_, fun x hx => ⟨hV x (hvs x hx).1, (hvs x hx).2⟩, hI.back (forward_history hf) (hV _ ht) h4 h1 h2 h3 e⟩
  | @gradient h h' vs t g a hf ht ha hrun ih =>
    obtain ⟨V, hV, hI⟩ := ih
    obtain ⟨i, g', f, hi, hg, _⟩ := id ha
    have e : gradOf t h = .ok (some g) h' := hrun
    unfold gradOf at e
    rw [M.bind_ok (getT_ok hi)] at e
    injection e with e1 e2
    subst e2
    refine ⟨_, fun x hx => ?_, hI.take (hV t ht) hi e1 ha⟩
    rcases List.mem_cons.1 hx with rfl | hx
    · exact .inr rfl
    · exact .inl (hV x hx)
  | zero hf ht hrun hvs ih =>
    obtain ⟨V, hV, hI⟩ := ih
    obtain ⟨_, _, e⟩ := none'_inv hrun
    exact ⟨_, fun x hx => ⟨hV x (hvs x hx).1, (hvs x hx).2⟩, hI.zeroGrad (hV _ ht) e⟩
  | update hf ht hr hA hrun hvs ih =>
    obtain ⟨V, hV, hI⟩ := ih
    obtain ⟨_, _, e⟩ := none'_inv hrun
    exact ⟨_, fun x hx => ⟨hV x (hvs x hx).1, (hvs x hx).2⟩, hI.update (hV _ ht) (hV _ hr) hA e⟩

end INNC
