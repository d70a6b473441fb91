import Verif.Lemmas.FeedBack
import Verif.Lemmas.GraphOrder
import Verif.Spec.Train
/-
`backward()` is memory safe.
-/
namespace INNC
open Spec Tensor
variable {F : Type} [FOps F] {h : Heap F}

/-- What back-propagation keeps: gradients may be dropped, unlike in one step. -/
structure Trains (h h' : Heap F) : Prop where
  ret : Retains h h'
  old : ∀ (x : Nat) (i : Impl), h.ts[x]? = some i → ∃ i', h'.ts[x]? = some i' ∧ i'.requiresGrad = i.requiresGrad ∧
    i'.gradFn.map (fun f => (f.kind, f.inputs)) = i.gradFn.map (fun f => (f.kind, f.inputs))
  new : ∀ (x : Nat) (i' : Impl), h'.ts[x]? = some i' → h.ts[x]? = none → i'.gradFn = none ∧ i'.requiresGrad = false
  slots : Seated h → Seated h'

omit [FOps F] in
theorem Feeds.trains {h' : Heap F} (hk : Feeds h h') : Trains h h' :=
  ⟨hk.ret, fun x i hi => by obtain ⟨i', e1, e2, _, _, e5⟩ := hk.old x i hi; exact ⟨i', e1, e2, e5⟩, hk.new, hk.slots⟩

omit [FOps F] in
theorem Trains.refl (h : Heap F) : Trains h h := (Feeds.refl h).trains

omit [FOps F] in
theorem Trains.trans {a b c : Heap F} (h1 : Trains a b) (h2 : Trains b c) : Trains a c := by
  refine ⟨h1.ret.trans h2.ret, fun x i hi => ?_, fun x i' hi' hn => ?_, fun hs => h2.slots (h1.slots hs)⟩
  · obtain ⟨j, e1, e2, e5⟩ := h1.old x i hi
    obtain ⟨k, f1, f2, f5⟩ := h2.old x j e1
    exact ⟨k, f1, f2.trans e2, f5.trans e5⟩
  · cases hb : b.ts[x]? with
    | none => exact h2.new x i' hi' hb
    | some j =>
      have h3 := h1.new x j hb hn
      obtain ⟨k, f1, f2, f5⟩ := h2.old x j hb
      rw [hi'] at f1
      obtain rfl := Option.some.inj f1
      rw [h3.1] at f5
      exact ⟨Option.map_eq_none_iff.1 f5, f2.trans h3.2⟩

/-- Changing a tensor except for its type, layout, storage, flag and operation; its gradient may be dropped or replaced. -/
theorem trains_setT {t : Nat} {i k : Impl} (hi : h.ts[t]? = some i) (h1 : k.dtype = i.dtype) (h2 : k.view = i.view) (h3 : k.data = i.data)
    (h4 : k.requiresGrad = i.requiresGrad)
    (h6 : ∀ g, k.grad = some g → i.grad = some g ∨ Slot h i g)
    (h7 : k.gradFn.map (fun f => (f.kind, f.inputs)) = i.gradFn.map (fun f => (f.kind, f.inputs))) :
    Trains h { h with ts := h.ts.set t k } := by
  have hr := retains_setT hi h1 h2 h3
  have hid : Idles h { h with ts := h.ts.set t k } := Idles.refl h
  have back : ∀ (x : Nat) (j : Impl), (h.ts.set t k)[x]? = some j → (x = t ∧ j = k) ∨ h.ts[x]? = some j := fun x j hj => by
    by_cases hx : x = t
    · subst hx
      rw [List.getElem?_set_self (getElem?_lt hi)] at hj
      exact .inl ⟨rfl, (Option.some.inj hj).symm⟩
    · rw [List.getElem?_set_ne (Ne.symm hx)] at hj
      exact .inr hj
  refine ⟨hr, fun x j hj => ?_, fun x j hj hn => ?_, fun hs x g j hj hg => ?_⟩
  · by_cases hx : x = t
    · subst hx
      rw [hi] at hj
      obtain rfl := Option.some.inj hj
      exact ⟨k, List.getElem?_set_self (getElem?_lt hi), h4, h7⟩
    · exact ⟨j, (List.getElem?_set_ne (Ne.symm hx)).trans hj, rfl, rfl⟩
  · rcases back x j hj with ⟨rfl, _⟩ | h
    · rw [hi] at hn; cases hn
    · rw [hn] at h; cases h
  · rcases back x j hj with ⟨rfl, rfl⟩ | h
    · rcases h6 g hg with h6 | h6
      · exact (hs x g i hi h6).keep h1 h2 hr hid
      · exact h6.keep h1 h2 hr hid
    · exact (hs x g j h hg).keep rfl rfl hr hid

/-- The computation keeps the state in order, returns with `Q` or throws, and its undefined behaviour comes from values. -/
def Train {α : Type} (h : Heap F) (o : Out (Heap F) α) (Q : α → Heap F → Prop) : Prop :=
  match o with
  | .ok a h' => Trains h h' ∧ Q a h'
  | .throw _ h' => Trains h h'
  | .ub u => ByValue u

section
variable {α β : Type}

omit [FOps F] in
theorem train_bind {x : M F α} {f : α → M F β} {Q : α → Heap F → Prop} {R : β → Heap F → Prop} (hx : Train h (x h) Q)
    (hf : ∀ a h', Trains h h' → Q a h' → Train h' (f a h') R) : Train h ((x >>= f) h) R := by
  rw [M.bind_def]
  cases hxh : x h with
  | ok a h1 =>
    rw [hxh] at hx
    have := hf a h1 hx.1 hx.2
    simp only
    unfold Train at this ⊢
    split at this
    · exact ⟨hx.1.trans this.1, this.2⟩
    · exact hx.1.trans this
    · exact this
  | throw e h1 => rw [hxh] at hx; exact hx
  | ub u => rw [hxh] at hx; exact hx

omit [FOps F] in
theorem train_pure {Q : α → Heap F → Prop} {a : α} (hq : Q a h) : Train h ((pure a : M F α) h) Q := ⟨.refl h, hq⟩

omit [FOps F] in
theorem train_mono {o : Out (Heap F) α} {Q R : α → Heap F → Prop} (ho : Train h o Q) (hq : ∀ a h', Trains h h' → Q a h' → R a h') :
    Train h o R := by
  unfold Train at *
  split
  · exact ⟨ho.1, hq _ _ ho.1 ho.2⟩
  · exact ho
  · exact ho

omit [FOps F] in
theorem train_step {h' : Heap F} {o : Out (Heap F) α} {Q : α → Heap F → Prop} (hk : Trains h h') (ho : Train h' o Q) : Train h o Q := by
  unfold Train at *
  split
  · exact ⟨hk.trans ho.1, ho.2⟩
  · exact hk.trans ho
  · exact ho

omit [FOps F] in
theorem Feed.train {o : Out (Heap F) α} {Q : α → Heap F → Prop} (ho : Feed h o Q) : Train h o fun a h' => Feeds h h' ∧ Q a h' := by
  unfold Feed at ho
  unfold Train
  split
  · exact ⟨ho.1.trains, ho⟩
  · exact ho.trains
  · exact ho

end

/-- Counting the inputs that are ready changes counters only. -/
theorem feed_ready : ∀ (l : List Nat) (h : Heap F), (∀ y ∈ l, ∃ i, h.ts[y]? = some i) → Feed h (readyInputs l h) fun _ _ => True
  | [], h, _ => feed_pure trivial
  | y :: l, h, hl => by
    obtain ⟨i, hi⟩ := hl y (by simp)
    have rest : ∀ h', Feeds h h' → ∀ z ∈ l, ∃ i, h'.ts[z]? = some i := fun h' k z hz => by
      obtain ⟨iz, hiz⟩ := hl z (by simp [hz])
      obtain ⟨iz', e, _⟩ := k.at_ hiz
      exact ⟨iz', e⟩
    unfold readyInputs
    rw [M.bind_ok (getT_ok hi)]
    rw [M.bind_ok (x := getVersion) (a := h.gver) (h' := h) rfl]
    cases hf : i.gradFn with
    | none => exact feed_ready l h (rest h (.refl h))
    | some g =>
      simp only
      split
      · refine feed_bind (Q := fun _ _ => True) ?_ fun _ h1 k1 _ => feed_bind (feed_ready l h1 (rest h1 k1)) fun _ _ _ _ => feed_pure trivial
        unfold setGF
        rw [M.bind_ok (getT_ok hi)]
        exact ⟨feeds_setT hi rfl rfl rfl rfl rfl rfl (by rw [hf]; rfl), trivial⟩
      · exact feed_ready l h (rest h (.refl h))


/-! ### The loop -/

omit [FOps F] in
theorem Trains.opOf {h' : Heap F} (hk : Trains h h') (x : Nat) (hx : x < h.ts.length) :
    (opOf h' x).map (fun f => (f.kind, f.inputs)) = (opOf h x).map (fun f => (f.kind, f.inputs)) := by
  obtain ⟨i, hi⟩ : ∃ i, h.ts[x]? = some i := ⟨_, List.getElem?_eq_getElem hx⟩
  obtain ⟨i', e1, _, e2⟩ := hk.old x i hi
  rw [opOf_some hi, opOf_some e1]; exact e2

/-- The tensors of the state have good operations, and what requires grad is in good order. -/
structure Ordered (h : Heap F) : Prop where
  seated : Seated h
  flags : FlagOK h
  nodes : ∀ x f, opOf h x = some f → Node h x f
  reqs : ∀ x i, h.ts[x]? = some i → i.requiresGrad = true → Var h x

/-- The state `H` inside a back-propagation that began in `h0`, when the tensors `a` have been visited. -/
structure Looping (h0 : Heap F) (t : Nat) (a : List Nat) (H : Heap F) : Prop where
  trains : Trains h0 H
  seated : Seated H
  opens : ∀ x, From h0 t x → x ≠ t → x ∉ a → Open H x
  root : t ∉ a → Fed H t
  fed : ∀ x y i, x ∈ a → Uses h0 x y → y ∉ a → h0.ts[y]? = some i → i.requiresGrad = true → Fed H y

omit [FOps F] in
theorem Trains.flags {h' : Heap F} (hk : Trains h h') (hf : FlagOK h) : FlagOK h' := fun x i' hi' hr => by
  cases hx : h.ts[x]? with
  | none =>
    have := (hk.new x i' hi' hx).2
    rw [hr] at this; cases this
  | some i =>
    obtain ⟨i2, e1, e2, _⟩ := hk.old x i hx
    obtain ⟨i3, f1, f2, _⟩ := hk.ret.ts x i hx
    rw [hi'] at e1 f1
    obtain rfl := Option.some.inj e1
    obtain rfl := Option.some.inj f1
    rw [f2]; exact hf x i hx (by rw [← e2]; exact hr)

omit [FOps F] in
theorem Fed.drop {x y : Nat} {i : Impl} (hi : h.ts[x]? = some i) (hy : y ≠ x) (hf : Fed h y) : Fed { h with ts := h.ts.set x { i with grad := none } } y := by
  obtain ⟨iy, g, j, s, c, h1, h2, h3, h4, h5⟩ := hf
  have e1 : (h.ts.set x { i with grad := none })[y]? = some iy := by rw [List.getElem?_set_ne (Ne.symm hy)]; exact h1
  by_cases hg : g = x
  · subst hg
    rw [hi] at h3
    obtain rfl := Option.some.inj h3
    exact ⟨iy, g, { i with grad := none }, s, c, e1, h2, List.getElem?_set_self (getElem?_lt hi), h4, h5⟩
  · exact ⟨iy, g, j, s, c, e1, h2, by rw [← h3]; exact List.getElem?_set_ne (Ne.symm hg), h4, h5⟩

omit [FOps F] in
theorem Open.other {x y : Nat} {i : Impl} (hy : y ≠ x) (ho : Open h y) : Open { h with ts := h.ts.set x i } y := by
  obtain ⟨j, hj, h1⟩ := ho
  exact ⟨j, by rw [← hj]; exact List.getElem?_set_ne (Ne.symm hy), h1⟩

section
variable {h0 : Heap F} {t : Nat}

omit [FOps F] in
theorem Uses.interior {x y : Nat} (hu : Uses h x y) : ∃ f, opOf h x = some f ∧ y ∈ f.inputs := by
  unfold Uses operands at hu
  cases e : Spec.opOf h x with
  | none => rw [e] at hu; simp at hu
  | some f => rw [e] at hu; exact ⟨f, rfl, hu⟩

/-- What the back-propagation needs of the state it begins in. -/
structure Begins (h0 : Heap F) (t : Nat) (l : List Nat) : Prop where
  graph : Graph h0
  ordered : Ordered h0
  sched : Schedule h0 t l
  req : ∀ x i, From h0 t x → Interior h0 x → h0.ts[x]? = some i → i.requiresGrad = true
  modest : ∀ x i, From h0 t x → h0.ts[x]? = some i → Modest i.view.sizes i.dtype
  quotients : ∀ x f a b, From h0 t x → opOf h0 x = some f → f.kind = .div → f.inputs = [a, b] →
    (∀ y ∈ [a, b], ∀ i, h0.ts[y]? = some i → i.requiresGrad = true) ∧ shapeOf h0 b = shapeOf h0 x

omit [FOps F] in
theorem From.exists {h : Heap F} {t x : Nat} (hg : Graph h) (ht : t < h.ts.length) (hf : From h t x) : x < h.ts.length := by
  induction hf with
  | root => exact ht
  | step _ hu ih => exact lt_trans (hg.older _ _ hu) ih

theorem train_visit {l a b : List Nat} {x : Nat} (hb : Begins h0 t l) (hl : l = a ++ x :: b) {H : Heap F} (hL : Looping h0 t a H) :
    Train H (backVisit x H) fun _ H' => Looping h0 t (a ++ [x]) H' := by
  have hxl : x ∈ l := by rw [hl]; simp
  obtain ⟨hfrom, hint⟩ := (hb.sched.all x).1 hxl
  obtain ⟨f0, hf0⟩ := Option.isSome_iff_exists.1 hint
  obtain ⟨i0, hi0, hi0f⟩ : ∃ i, h0.ts[x]? = some i ∧ i.gradFn = some f0 := by
    unfold Spec.opOf at hf0
    cases e : h0.ts[x]? with
    | none => rw [e] at hf0; simp at hf0
    | some i => rw [e] at hf0; exact ⟨i, rfl, hf0⟩
  obtain ⟨i, hi, hir, hif⟩ := hL.trains.old x i0 hi0
  have hreq := hb.req x i0 hfrom hint hi0
  obtain ⟨f, hff, hfk, hfi⟩ : ∃ f, i.gradFn = some f ∧ f.kind = f0.kind ∧ f.inputs = f0.inputs := by
    rw [hi0f] at hif
    cases e : i.gradFn with
    | none => rw [e] at hif; simp at hif
    | some f =>
      rw [e] at hif
      simp only [Option.map_some, Option.some.injEq, Prod.mk.injEq] at hif
      exact ⟨f, rfl, hif.1, hif.2⟩
  have huse : ∀ y, y ∈ f.inputs ↔ Uses h0 x y := fun y => by
    unfold Uses operands; rw [hf0, hfi]
  have hnot : ∀ y, Uses h0 x y → y ∉ a := fun y hu hy => by
    have := hb.sched.after
    rw [hl] at this
    exact (List.pairwise_append.1 this).2.2 y hy x (by simp) hu
  have hxa : x ∉ a := fun hxa => by
    have := hb.sched.once
    rw [hl] at this
    exact (List.nodup_append.1 this).2.2 x hxa x (by simp) rfl
  have hyex : ∀ y, Uses h0 x y → ∃ iy, h0.ts[y]? = some iy := fun y hu =>
    ⟨_, List.getElem?_eq_getElem (lt_trans (hb.graph.older _ _ hu) (getElem?_lt hi0))⟩
  have hyt : ∀ y, Uses h0 x y → y ≠ t := fun y hu e => by
    subst e
    have : ∀ {z}, From h0 y z → z ≤ y := fun {z} hz => by
      induction hz with
      | root => exact le_refl _
      | step _ hu ih => exact le_trans (le_of_lt (hb.graph.older _ _ hu)) ih
    have h1 := this hfrom
    have h2 := hb.graph.older _ _ hu
    omega
  have hfed : Fed H x := by
    by_cases hxt : x = t
    · subst hxt; exact hL.root hxa
    · cases hfrom with
      | root => exact absurd rfl hxt
      | @step z _ hz hu =>
        obtain ⟨fz, hfz, _⟩ := Uses.interior hu
        have hzl : z ∈ l := (hb.sched.all z).2 ⟨hz, by unfold Interior; rw [hfz]; rfl⟩
        have hza : z ∈ a := by
          rw [hl] at hzl
          rcases List.mem_append.1 hzl with h | h
          · exact h
          · exfalso
            have hlt := hb.graph.older _ _ hu
            rcases List.mem_cons.1 h with rfl | h
            · omega
            · have := hb.sched.after
              rw [hl] at this
              exact (List.pairwise_cons.1 (List.pairwise_append.1 this).2.1).1 z h hu
        exact hL.fed z x i0 hza hu hxa hi0 hreq
  have hstep : Stepping H x f := by
    refine ⟨hL.seated, hL.trains.flags hb.ordered.flags, ((hb.ordered.nodes x f0 hf0).retains hL.trains.ret).congr hfk hfi, hfed,
      ⟨i, hi, hir.trans hreq⟩, fun y hy => ?_, fun y hy => ?_, fun p q hk hin => ?_⟩
    · have hu := (huse y).1 hy
      exact hL.opens y (hfrom.step hu) (hyt y hu) (hnot y hu)
    · have hu := (huse y).1 hy
      obtain ⟨iy, hiy⟩ := hyex y hu
      obtain ⟨iy', e1, e2, e3, _⟩ := hL.trains.ret.ts y iy hiy
      exact ⟨iy', e1, by rw [e2, e3]; exact hb.modest y iy (hfrom.step hu) hiy⟩
    · obtain ⟨hr, hs⟩ := hb.quotients x f0 p q hfrom hf0 (hfk.symm.trans hk) (hfi.symm.trans hin)
      have hup : Uses h0 x p := (huse p).1 (by rw [hin]; simp)
      have huq : Uses h0 x q := (huse q).1 (by rw [hin]; simp)
      obtain ⟨ip, hip⟩ := hyex p hup
      obtain ⟨iq, hiq⟩ := hyex q huq
      obtain ⟨ip', p1, p2, _⟩ := hL.trains.old p ip hip
      obtain ⟨iq', q1, q2, _⟩ := hL.trains.old q iq hiq
      obtain ⟨iq2, r1, _, r3, _⟩ := hL.trains.ret.ts q iq hiq
      rw [q1] at r1; obtain rfl := Option.some.inj r1
      obtain ⟨i2, s1, _, s3, _⟩ := hL.trains.ret.ts x i0 hi0
      rw [hi] at s1; obtain rfl := Option.some.inj s1
      refine ⟨ip', iq', i, p1, q1, hi, p2.trans (hr p (by simp) ip hip), q2.trans (hr q (by simp) iq hiq), ?_⟩
      rw [shapeOf_at hiq, shapeOf_at hi0] at hs
      rw [r3, s3]; exact hs
  have har : Arity f.kind f.inputs.length := by rw [hfk, hfi]; exact hb.graph.arity x f0 hf0
  unfold backVisit
  rw [M.bind_ok (x := getGradFn x) (a := f) (h' := H) (by unfold getGradFn; rw [M.bind_ok (getT_ok hi), hff]; rfl)]
  refine train_bind (feed_step hstep har).train fun _ H1 _ ⟨k1, q1⟩ => ?_
  obtain ⟨i1, hi1, d1, v1, da1, r1, _, _, g1⟩ := k1.at_ hi
  rw [M.bind_ok (getT_ok hi1)]
  have hL1 : Looping h0 t a H1 := ⟨hL.trains.trans k1.trains, k1.slots hL.seated, fun y h1 h2 h3 => (hL.opens y h1 h2 h3).feeds k1,
    fun h => k1.fed (hL.root h), fun y z iz h1 h2 h3 h4 h5 => k1.fed (hL.fed y z iz h1 h2 h3 h4 h5)⟩
  have hin1 : ∀ y, Uses h0 x y → ∀ iy, h0.ts[y]? = some iy → iy.requiresGrad = true → Fed H1 y := fun y hu iy hiy hr => by
    obtain ⟨iy', e1, e2, _⟩ := hL.trains.old y iy hiy
    exact q1 y ((huse y).2 hu) iy' e1 (e2.trans hr)
  -- after the gradient of `x` is dropped or kept
  have mid : ∀ H2 : Heap F, Trains H1 H2 → (∀ y, y ≠ x → Fed H1 y → Fed H2 y) → (∀ y, y ≠ x → Open H1 y → Open H2 y) →
      Train H2 ((do readyInputs (← getGradFn x).inputs : M F (List Nat)) H2) fun _ H' => Looping h0 t (a ++ [x]) H' := by
    intro H2 k2 c1 c2
    have hL2 : Looping h0 t (a ++ [x]) H2 := by
      refine ⟨hL1.trains.trans k2, k2.slots hL1.seated, fun y h1 h2 h3 => ?_, fun h => ?_, fun y z iz h1 h2 h3 h4 h5 => ?_⟩
      · rw [List.mem_append, not_or, List.mem_singleton] at h3
        exact c2 y h3.2 (hL1.opens y h1 h2 h3.1)
      · rw [List.mem_append, not_or, List.mem_singleton] at h
        exact c1 t h.2 (hL1.root h.1)
      · rw [List.mem_append, not_or, List.mem_singleton] at h3
        rcases List.mem_append.1 h1 with h1 | h1
        · exact c1 z h3.2 (hL1.fed y z iz h1 h2 h3.1 h4 h5)
        · obtain rfl := List.mem_singleton.1 h1
          exact c1 z h3.2 (hin1 z h2 iz h4 h5)
    obtain ⟨i2, hi2, _, hi2f⟩ := hL2.trains.old x i0 hi0
    obtain ⟨f2, hf2, hf2i⟩ : ∃ f, i2.gradFn = some f ∧ f.inputs = f0.inputs := by
      rw [hi0f] at hi2f
      cases e : i2.gradFn with
      | none => rw [e] at hi2f; simp at hi2f
      | some f =>
        rw [e] at hi2f
        simp only [Option.map_some, Option.some.injEq, Prod.mk.injEq] at hi2f
        exact ⟨f, rfl, hi2f.2⟩
    rw [M.bind_ok (x := getGradFn x) (a := f2) (h' := H2) (by unfold getGradFn; rw [M.bind_ok (getT_ok hi2), hf2]; rfl)]
    refine train_mono (feed_ready f2.inputs H2 fun y hy => ?_).train fun _ H3 _ ⟨k3, _⟩ => ?_
    · rw [hf2i, ← hfi] at hy
      obtain ⟨iy, hiy⟩ := hyex y ((huse y).1 hy)
      obtain ⟨iy', e, _⟩ := hL2.trains.old y iy hiy
      exact ⟨iy', e⟩
    · exact ⟨hL2.trains.trans k3.trains, k3.slots hL2.seated, fun y h1 h2 h3 => (hL2.opens y h1 h2 h3).feeds k3,
        fun h => k3.fed (hL2.root h), fun y z iz h1 h2 h3 h4 h5 => k3.fed (hL2.fed y z iz h1 h2 h3 h4 h5)⟩
  split
  · rw [M.bind_ok (x := setT x { i1 with grad := none }) (a := ()) (h' := { H1 with ts := H1.ts.set x { i1 with grad := none } }) rfl]
    have kt : Trains H1 { H1 with ts := H1.ts.set x { i1 with grad := none } } :=
      trains_setT hi1 rfl rfl rfl rfl (fun g hg => by cases hg) rfl
    exact train_step kt (mid _ kt (fun y hy hf => hf.drop hi1 hy) fun y hy ho => ho.other hy)
  · exact mid H1 (.refl H1) (fun y _ h => h) fun y _ h => h

theorem train_visits {l : List Nat} (hb : Begins h0 t l) : ∀ (b a : List Nat) (H : Heap F), l = a ++ b → Looping h0 t a H →
    Train H (visits backVisit b H) fun _ _ => True
  | [], _, _, _, _ => train_pure trivial
  | x :: b, a, H, hl, hL => by
    rw [visits_cons]
    refine train_bind (train_visit hb hl hL) fun _ H1 _ hL1 => ?_
    exact train_visits hb b (a ++ [x]) H1 (by rw [hl]; simp) hL1

end

/-! ### `backward()` -/

omit [FOps F] in
theorem Stamped.trains {h1 : Heap F} {n v : Nat → Nat} (hs : Stamped h h1 n v) : Trains h h1 := by
  have back : ∀ (x : Nat) (j : Impl), h1.ts[x]? = some j → ∃ i, h.ts[x]? = some i ∧
      j = { i with gradFn := i.gradFn.map fun g => { g with nOutway := n x, backVersion := v x } } := fun x j hj => by
    have hlt : x < h.ts.length := by rw [← hs.len]; exact getElem?_lt hj
    refine ⟨h.ts[x], List.getElem?_eq_getElem hlt, ?_⟩
    have := hs.at_ x _ (List.getElem?_eq_getElem hlt)
    rw [hj] at this
    exact Option.some.inj this
  have hr : Retains h h1 := ⟨fun x i hi => ⟨_, hs.at_ x i hi, rfl, rfl, rfl⟩, by rw [hs.st]; exact (Retains.refl h).st⟩
  have hid : Idles h h1 := by unfold Idles; rw [hs.st]; exact Idles.refl h
  refine ⟨hr, fun x i hi => ⟨_, hs.at_ x i hi, rfl, ?_⟩, fun x j hj hn => ?_, fun hse x g j hj hg => ?_⟩
  · cases i.gradFn <;> rfl
  · obtain ⟨i, hi, _⟩ := back x j hj
    rw [hi] at hn; cases hn
  · obtain ⟨i, hi, rfl⟩ := back x j hj
    exact (hse x g i hi hg).keep rfl rfl hr hid

omit [FOps F] in
theorem trains_gver {n : Nat} : Trains h { h with gver := n } :=
  ⟨⟨(Retains.refl h).ts, (Retains.refl h).st⟩, fun x i hi => ⟨i, hi, rfl, rfl⟩, fun x i hi hn => by
    { rw [show h.ts[x]? = some i from hi] at hn; cases hn }, fun hs x g i hi hg => (hs x g i hi hg).keep rfl rfl ⟨(Retains.refl h).ts, (Retains.refl h).st⟩ (Idles.refl h)⟩

omit [FOps F] in
theorem fed_grant {t o : Nat} {i j : Impl} (hi : h.ts[t]? = some i) (ho : h.ts[o]? = some j) (hj : Sits h j) :
    Fed { h with ts := h.ts.set t { i with grad := some o } } t := by
  obtain ⟨s, c, h1, _, h3, _⟩ := hj.cells
  have e1 := List.getElem?_set_self (a := { i with grad := some o }) (getElem?_lt hi)
  by_cases hot : o = t
  · subst hot
    rw [hi] at ho
    obtain rfl := Option.some.inj ho
    exact ⟨_, o, _, s, c, e1, rfl, e1, h1, h3⟩
  · exact ⟨_, o, j, s, c, e1, rfl, by rw [← ho]; exact List.getElem?_set_ne (Ne.symm hot), h1, h3⟩

/-- A gradient of one element has room for any dense tensor of one element. -/
theorem slot_seed {i : Impl} {o : Nat} (hf : Fine i.dtype i.view.sizes o h) (hd : Dense i.view) (hm : Modest i.view.sizes i.dtype)
    (h1 : vol i.view.sizes = 1) : Slot h i o := by
  have hv := hf.var hm
  obtain ⟨j, hj, e1, e2, hs⟩ := hf
  obtain ⟨j', hj', _, ht⟩ := hv
  rw [hj] at hj'; obtain rfl := Option.some.inj hj'
  obtain ⟨s, c, c1, c2, c3, c4, c5⟩ := hs.cells
  have hseat := hs.seat
  refine ⟨j, hj, e1, by rw [e2]; rfl, hseat, ⟨hd.strides, hd.offset, ?_⟩, ht⟩
  obtain ⟨s', d1, d2, d3, d4, d5⟩ := hseat.cells
  refine ⟨s', d1, d2.trans e1, by rw [← e1]; exact d3, fun idx hb => ?_, by rw [← e1]; exact d5⟩
  obtain ⟨p, hp, hlt⟩ := d4 idx (by rw [e2]; exact hb)
  obtain ⟨q1, q2⟩ := hd.inside idx hb
  exact ⟨0, by omega, by omega⟩

theorem train_backward {t : Nat} (hg : Graph h) (ho : Ordered h) (hv : ∃ i, h.ts[t]? = some i) (hp : Propagable h t) :
    Train h (backward t h) fun _ _ => True := by
  obtain ⟨i, hi⟩ := hv
  by_cases hr : i.requiresGrad = true
  swap
  · unfold backward
    rw [M.bind_ok (getT_ok hi)]
    rw [M.bind_throw (x := expect i.requiresGrad) (e := .runtime) (h' := h) (by
      rw [Bool.eq_false_iff.2 hr]; rfl)]
    exact Trains.refl h
  by_cases hf : i.gradFn.isSome = true
  swap
  · unfold backward
    rw [M.bind_ok (getT_ok hi), M.bind_ok (x := expect i.requiresGrad) (a := ()) (h' := h) (by rw [hr]; rfl)]
    rw [M.bind_throw (x := expect i.gradFn.isSome) (e := .runtime) (h' := h) (by
      rw [Bool.eq_false_iff.2 hf]; rfl)]
    exact Trains.refl h
  by_cases hn : numel i.view.sizes = 1
  swap
  · unfold backward
    rw [M.bind_ok (getT_ok hi), M.bind_ok (x := expect i.requiresGrad) (a := ()) (h' := h) (by rw [hr]; rfl),
      M.bind_ok (x := expect i.gradFn.isSome) (a := ()) (h' := h) (by rw [hf]; rfl)]
    rw [M.bind_throw (x := expect (decide (numel i.view.sizes = 1))) (e := .runtime) (h' := h) (by
      rw [decide_eq_false hn]; rfl)]
    exact Trains.refl h
  obtain ⟨h1, n, v, _, hst, l, _, _, hsched, hback, _⟩ := backward_order hg hi hr hf hn
  rw [hback]
  have k1 := hst.trains
  refine train_step k1 ?_
  obtain ⟨hd, hm⟩ := hp.root i hi
  have hvol : vol i.view.sizes = 1 := by rw [← numel_eq_vol (by have := hm.vol; omega)]; exact hn
  have hbeg : Begins h t l := by
    refine ⟨hg, ho, hsched hp.unused, fun x ix hx hxi hix => ?_, fun x ix hx hix => (hp.room x ix hx hix).1, hp.quotients⟩
    by_cases hxt : x = t
    · subst hxt
      rw [hi] at hix; obtain rfl := Option.some.inj hix
      exact hr
    · obtain ⟨f, hf⟩ := Option.isSome_iff_exists.1 hxi
      exact (hp.unused x f hx hxt hf).2 ix hix
  have hopen : ∀ x, From h t x → Open h x := fun x hx => by
    have hlt := From.exists hg (getElem?_lt hi) hx
    refine ⟨h.ts[x], List.getElem?_eq_getElem hlt, fun hxr => ?_⟩
    have hxi := List.getElem?_eq_getElem hlt
    obtain ⟨ix, e, _, ht⟩ := ho.reqs x _ hxi hxr
    rw [hxi] at e; obtain rfl := Option.some.inj e
    obtain ⟨r1, r2⟩ := hp.room x _ hx hxi
    exact ⟨ht, fun hng => ⟨(r2 hxr).resolve_right (by rw [hng]; simp), r1⟩⟩
  have hopen1 : ∀ x, From h t x → Open h1 x := fun x hx => by
    obtain ⟨ix, hix, e⟩ := hopen x hx
    exact ⟨_, hst.at_ x ix hix, e⟩
  have hi1 := hst.at_ t i hi
  have hone : (Val.i 1 : Val F).HasType .i8 := by constructor <;> decide
  have hseed : Train h1 (seed t h1) fun _ H => Looping h t [] H := by
    unfold seed
    refine train_bind (Feed.train (Q := fun o h' => Fine (F := F) i.dtype i.view.sizes o h') (feed_of_mem ?_ (swells_onesLike t))) fun o h2 _ ⟨k2, hfine⟩ => ?_
    · unfold onesLike
      rw [M.bind_ok (getT_ok hi1)]
      exact mem_fillNew hone hm
    obtain ⟨i2, hi2, d2, v2, _, _, _, _, g2⟩ := k2.at_ hi1
    rw [M.bind_ok (getT_ok hi2)]
    rw [M.bind_ok (x := setT t { i2 with grad := some o }) (a := ()) (h' := { h2 with ts := h2.ts.set t { i2 with grad := some o } }) rfl]
    have hslot : Slot h2 i2 o := slot_seed (by rw [d2, v2]; exact hfine) (by rw [v2]; exact hd) (by rw [d2, v2]; exact hm) (by rw [v2]; exact hvol)
    have k3 : Trains h2 { h2 with ts := h2.ts.set t { i2 with grad := some o } } :=
      trains_setT hi2 rfl rfl rfl rfl (fun g hgg => .inr (by obtain rfl := Option.some.inj hgg; exact hslot)) rfl
    have hfed : Fed { h2 with ts := h2.ts.set t { i2 with grad := some o } } t := by
      obtain ⟨j, hj, _, _, hs⟩ := hfine
      exact fed_grant hi2 hj hs
    refine train_step k3 ?_
    generalize hh3 : ({ h2 with ts := h2.ts.set t { i2 with grad := some o } } : Heap F) = h3 at k3 hfed ⊢
    have hi3 : h3.ts[t]? = some { i2 with grad := some o } := by rw [← hh3]; exact List.getElem?_set_self (getElem?_lt hi2)
    have hop3 : ∀ x, From h t x → x ≠ t → Open h3 x := fun x hx hxt => by
      rw [← hh3]; exact ((hopen1 x hx).feeds k2).other hxt
    rw [M.bind_ok (x := bumpVersion) (a := h3.gver + 1) (h' := { h3 with gver := h3.gver + 1 }) rfl]
    have k4 : Trains h3 { h3 with gver := h3.gver + 1 } := trains_gver
    refine train_step k4 ?_
    obtain ⟨f2, hf2⟩ : ∃ f2, i2.gradFn = some f2 := by
      cases e : i2.gradFn with
      | some f => exact ⟨f, rfl⟩
      | none =>
        rw [e] at g2
        obtain ⟨f, hff⟩ := Option.isSome_iff_exists.1 hf
        rw [hff] at g2; simp at g2
    rw [M.bind_ok (x := getGradFn t) (a := f2) (h' := { h3 with gver := h3.gver + 1 }) (by
      unfold getGradFn; rw [M.bind_ok (getT_ok (h := { h3 with gver := h3.gver + 1 }) (i := { i2 with grad := some o }) hi3)]; simp only [hf2]; rfl)]
    unfold setGF
    rw [M.bind_ok (getT_ok (h := { h3 with gver := h3.gver + 1 }) (i := { i2 with grad := some o }) hi3)]
    have k5 : Feeds { h3 with gver := h3.gver + 1 } { h3 with gver := h3.gver + 1, ts := h3.ts.set t { i2 with grad := some o, gradFn := some { f2 with backVersion := h3.gver + 1 } } } :=
      feeds_setT (h := { h3 with gver := h3.gver + 1 }) (i := { i2 with grad := some o }) hi3 rfl rfl rfl rfl rfl rfl (by simp only [hf2]; rfl)
    have kall := ((k1.trans k2.trains).trans (k3.trans k4)).trans k5.trains
    refine ⟨k5.trains, kall, kall.slots ho.seated, fun x hx hxt _ => ?_, fun _ => ?_, fun x y iy hx => by simp at hx⟩
    · exact Open.feeds (h := { h3 with gver := h3.gver + 1 }) (hop3 x hx hxt) k5
    · exact k5.fed hfed
  refine train_bind hseed fun _ H _ hL => ?_
  exact train_visits hbeg l [] H rfl hL

end INNC
