import Verif.Lemmas.Feed
/-
Memory safety of the kernels of back-propagation and of the accumulation of gradients.
-/
namespace INNC
open Spec Tensor
variable {F : Type} [FOps F] {h : Heap F}

/-! ### Kernels -/

/-- Updating an element in place. -/
theorem mem_bump {dst : Impl} {pos : Nat} (hr : Ready h dst pos) {D S : DType} (hD : D = dst.dtype) {op : AOp} {w : Val F} (hw : w.HasType S) :
    Mem h ((do
      let d ← load D dst pos
      let z ← M.lift (cArith op D S d w)
      let z ← M.lift (cConv (DType.arith D S) D z)
      store D dst pos z : M F Unit) h) fun _ _ => True := by
  refine mem_bind (mem_load hr hD) fun d h1 k1 hd => ?_
  refine mem_bind (mem_lift (Q := fun z _ => z.HasType (DType.arith D S)) (yields_arith op hd hw)) fun z h2 k2 hz => ?_
  refine mem_bind (mem_lift (Q := fun z _ => z.HasType D) (yields_conv hz)) fun z h3 k3 hz => ?_
  exact mem_mono (mem_store (((hr.retains k1).retains k2).retains k3).spot hD hz) fun _ _ _ _ => trivial

theorem mem_bumpAug {dst : Impl} (hs : Sits h dst) {idx : List Nat} (hl : dst.view.sizes.length ≤ idx.length) {D S : DType} (hD : D = dst.dtype)
    {op : AOp} {w : Val F} (hw : w.HasType S) :
    Mem h ((do
      let pos ← M.lift (cntFromAugIndex dst.view idx)
      let d ← load D dst pos
      let z ← M.lift (cArith op D S d w)
      let z ← M.lift (cConv (DType.arith D S) D z)
      store D dst pos z : M F Unit) h) fun _ _ => True := by
  rcases hs.aug hl with ⟨e, he⟩ | ⟨k, p, _, e, _, hp⟩
  · rw [he, M.bind_throw (M.lift_throw _ _)]; exact Retains.refl h
  · rw [e, M.bind_ok (M.lift_ok _ _)]
    exact mem_bump (hs.full p hp) hD hw

theorem mem_mulAcc {D L R : DType} {dst l r : Impl} (hd : Sits h dst) (hl : Sits h l) (hr : Sits h r) (hD : D = dst.dtype)
    (hL : L = l.dtype) (hR : R = r.dtype) : Mem h (tensorMulAccF D L R dst l r h) fun _ _ => True := by
  unfold tensorMulAccF
  rw [broadcastRange_max, M.bind_ok (M.lift_ok _ _), broadcastRange_max, M.bind_ok (M.lift_ok _ _)]
  have l1 := length_maxShape dst.view.sizes l.view.sizes
  have l2 := length_maxShape (maxShape dst.view.sizes l.view.sizes) r.view.sizes
  refine mem_mono (mem_forEach (D := fun _ _ => True) (fun _ _ _ _ _ => trivial) fun sv hb h' hk => ?_) fun _ _ _ _ => trivial
  have hlen := hb.length
  rw [← bind_assoc]
  refine mem_bind (mem_loadAug (hl.retains hk) (by omega) hL) fun x ha ka hx => ?_
  rw [← bind_assoc]
  refine mem_bind (mem_loadAug ((hr.retains hk).retains ka) (by omega) hR) fun y hb kb hy => ?_
  refine mem_bind (mem_lift (Q := fun z _ => z.HasType (DType.arith L R)) (yields_arith .mul hx hy)) fun z hc kc hz => ?_
  exact mem_bumpAug ((((hd.retains hk).retains ka).retains kb).retains kc) (by omega) hD hz

theorem mem_divNum {D L R : DType} {dst og den : Impl} (hd : Sits h dst) (hl : Sits h og) (hr : Sits h den) (hD : D = dst.dtype)
    (hL : L = og.dtype) (hR : R = den.dtype) (l1 : dst.view.sizes.length ≤ og.view.sizes.length)
    (l2 : den.view.sizes.length ≤ og.view.sizes.length) : Mem h (tensorDivBackNum D L R dst og den h) fun _ _ => True := by
  unfold tensorDivBackNum
  refine mem_mono (mem_forEach (D := fun _ _ => True) (fun _ _ _ _ _ => trivial) fun sv hb h' hk => ?_) fun _ _ _ _ => trivial
  have hlen := hb.length
  rw [← bind_assoc]
  refine mem_bind (mem_loadAug (hl.retains hk) (by omega) hL) fun x ha ka hx => ?_
  rw [← bind_assoc]
  refine mem_bind (mem_loadAug ((hr.retains hk).retains ka) (by omega) hR) fun y hb kb hy => ?_
  refine mem_bind (mem_lift (Q := fun z _ => z.HasType (DType.arith L R)) (yields_arith .div hx hy)) fun z hc kc hz => ?_
  exact mem_bumpAug ((((hd.retains hk).retains ka).retains kb).retains kc) (by omega) hD hz

theorem mem_divDen {Den Quot : DType} {dst og quot den : Impl} (hd : Sits h dst) (ho : Sits h og) (hq : Sits h quot) (hn : Sits h den)
    (e1 : Den = dst.dtype) (e2 : Quot = og.dtype) (e3 : Quot = quot.dtype) (e4 : Den = den.dtype)
    (s1 : dst.view.sizes = quot.view.sizes) (s2 : og.view.sizes = quot.view.sizes) (s3 : den.view.sizes = quot.view.sizes) :
    Mem h (tensorDivBackDen Den Quot dst og quot den h) fun _ _ => True := by
  unfold tensorDivBackDen
  refine mem_mono (mem_forEach (D := fun _ _ => True) (fun _ _ _ _ _ => trivial) fun sv hb h' hk => ?_) fun _ _ _ _ => trivial
  have hlen := hb.length
  rw [← bind_assoc]
  refine mem_bind (mem_loadAug (ho.retains hk) (by rw [s2]; omega) e2) fun x ha ka hx => ?_
  rw [← bind_assoc]
  have hk := hk.trans ka
  refine mem_bind (mem_loadAug (hq.retains hk) (by omega) e3) fun y hb' kb hy => ?_
  have hk := hk.trans kb
  refine mem_bind (mem_lift (Q := fun z _ => z.HasType (DType.arith Quot Quot)) (yields_arith .mul hx hy)) fun z hc kc hz => ?_
  have hk := hk.trans kc
  rw [← bind_assoc]
  refine mem_bind (mem_loadAug (hn.retains hk) (by rw [s3]; omega) e4) fun u hd' kd hu => ?_
  have hk := hk.trans kd
  refine mem_bind (mem_lift (Q := fun z _ => z.HasType (DType.arith (DType.arith Quot Quot) Den)) (yields_arith .div hz hu)) fun w he ke hw => ?_
  have hk := hk.trans ke
  obtain ⟨p, e, _, hp⟩ := (hd.retains hk).index (idx := sv) (by rw [s1]; exact hb)
  rw [e, M.bind_ok (M.lift_ok _ _)]
  exact mem_bump ((hd.retains hk).full p hp) e1 hw

/-! ### Accumulation -/

/-- `mulAddF` on tensors in good order. -/
theorem feed_mulAddF {g a b : Nat} {d x y : Impl} (hg : h.ts[g]? = some d) (ha : h.ts[a]? = some x) (hb : h.ts[b]? = some y)
    (hd : Sits h d) (hx : Sits h x) (hy : Sits h y) (f1 : d.dtype.isFloat = true) (f2 : x.dtype.isFloat = true) :
    Feed h (mulAddF g a b h) fun _ _ => True := by
  unfold mulAddF
  rw [M.bind_ok (getT_ok hg), M.bind_ok (getT_ok ha), M.bind_ok (getT_ok hb), if_pos (by rw [f1, f2]; rfl)]
  exact feed_of_mem (mem_mulAcc hd hx hy rfl rfl rfl) (swells_writes (keeps_tensorMulAccF trivial _ _ _ _ _))

theorem feed_addAssign {g w : Nat} (hg : Var h g) (hw : Var h w) : Feed h (Tensor.addAssign g w h) fun _ _ => True := by
  refine feed_of_mem (mem_addAssign hg hw) ?_
  unfold addAssign
  refine keeps_bind (keeps_getT _) fun i => keeps_bind (keeps_expect _) fun _ => keeps_bind (keeps_getT _) fun j => ?_
  exact swells_writes (keeps_tensorAdd trivial _ _ _ _)

theorem feeds_setT {t : Nat} {i k : Impl} (hi : h.ts[t]? = some i) (h1 : k.dtype = i.dtype) (h2 : k.view = i.view) (h3 : k.data = i.data)
    (h4 : k.requiresGrad = i.requiresGrad) (h5 : k.retainGrad = i.retainGrad) (h6 : k.grad = i.grad)
    (h7 : k.gradFn.map (fun f => (f.kind, f.inputs)) = i.gradFn.map (fun f => (f.kind, f.inputs))) :
    Feeds h { h with ts := h.ts.set t k } := by
  have hr := retains_setT hi h1 h2 h3
  have hid : Idles h { h with ts := h.ts.set t k } := Idles.refl h
  have key : ∀ (x : Nat) (j : Impl), h.ts[x]? = some j → (h.ts.set t k)[x]? = some (if x = t then k else j) := fun x j hj => by
    by_cases hx : x = t
    · subst hx; rw [List.getElem?_set_self (getElem?_lt hi), if_pos rfl]
    · rw [List.getElem?_set_ne (Ne.symm hx), if_neg hx]; exact hj
  have back : ∀ (x : Nat) (j : Impl), (h.ts.set t k)[x]? = some j → (x = t ∧ j = k) ∨ h.ts[x]? = some j := fun x j hj => by
    by_cases hx : x = t
    · subst hx
      rw [List.getElem?_set_self (getElem?_lt hi)] at hj
      exact .inl ⟨rfl, (Option.some.inj hj).symm⟩
    · rw [List.getElem?_set_ne (Ne.symm hx)] at hj
      exact .inr hj
  refine ⟨hr, hid, fun x j hj => ⟨_, key x j hj, ?_⟩, fun x j hj hn => ?_, fun hs x g j hj hg => ?_⟩
  · by_cases hx : x = t
    · subst hx
      rw [hi] at hj
      obtain rfl := Option.some.inj hj
      rw [if_pos rfl]
      exact ⟨h4, h5, fun g hg => by rw [h6]; exact hg, h7⟩
    · rw [if_neg hx]
      exact ⟨rfl, rfl, fun _ h => h, rfl⟩
  · rcases back x j hj with ⟨rfl, _⟩ | h
    · rw [hi] at hn; cases hn
    · rw [hn] at h; cases h
  · rcases back x j hj with ⟨rfl, rfl⟩ | h
    · exact (hs x g i hi (by rw [← h6]; exact hg)).keep h1 h2 hr hid
    · exact (hs x g j h hg).keep rfl rfl hr hid

end INNC
