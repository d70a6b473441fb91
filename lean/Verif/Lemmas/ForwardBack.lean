import Verif.Lemmas.ForwardLift
import Verif.Lemmas.Valid
/-
The invariant of programs that compute with variables is kept by `backward()`, for the variables that have nothing to do
with its graph but leaves.
-/
namespace INNC
open Spec Tensor
variable {F : Type}

section
variable [FOps F]

/-- In every reachable state the graph of a tensor contains the operands of its members. -/
theorem closed_from {h : Heap F} (hh : History h) {t : Nat} (ht : t < h.ts.length) : Closed h (From h t) where
  lt := fun x hx => by
    induction hx with
    | root => exact ht
    | @step x y _ hu ih =>
      have := (graph_history hh).older x y hu
      omega
  op := fun x y hx hu => .step hx hu
  grad := fun x g i _ hi hg => (valid_history hh).grad x g i hi hg

theorem backward_frame {h h' : Heap F} (hh : History h) {t : Nat} (hp : Propagates t h h') : BFrame h (From h t) h' := by
  have ht : t < h.ts.length := by
    cases hi : h.ts[t]? with
    | some i => exact getElem?_lt hi
    | none =>
      have e : backward t h = .ub .nullptr := by
        unfold backward
        exact M.bind_ub (by unfold getT; rw [hi])
      unfold Propagates at hp
      rw [e] at hp
      rcases hp with hp | ⟨e, hp⟩ <;> cases hp
  have hb := (BFrame.refl h (From h t)).backward (closed_from hh ht) .root
  rcases hp with hp | ⟨e, hp⟩ <;> rw [hp] at hb
  · exact hb.1
  · exact hb


end

variable [Field F] [FOps F] {h H : Heap F} {V : Nat → Prop} {t : Nat}

omit [Field F] in
theorem Spec.From.trans {a b c : Nat} (h1 : From h a b) (h2 : From h b c) : From h a c := by
  induction h2 with
  | root => exact h1
  | step _ hu ih => exact .step ih hu

omit [Field F] in
theorem from_leaf {x y : Nat} (hx : ¬ Interior h x) (hy : From h x y) : y = x := by
  induction hy with
  | root => rfl
  | step _ hu ih => subst ih; exact absurd hu.interior hx

/-- The owner of a gradient is reached from the tensor. -/
theorem Inv.ownerFrom (hI : Inv h V) {D : Nat} : ∀ (n x : Nat), x < n → V x → gradStore h x = some D →
    ∃ y, V y ∧ From h x y ∧ ¬ IsView h y ∧ gradStore h y = some D
  | 0, x, hn, _, _ => absurd hn (by omega)
  | n + 1, x, hn, hx, hD => by
    by_cases hv : IsView h x
    · obtain ⟨b, hu, hb, hlt⟩ := hI.base hx hv
      obtain ⟨y, h1, h2, h3, h4⟩ := hI.ownerFrom n b (by omega) hb (by rw [← (hI.view x b hx hv hu).2.2.1]; exact hD)
      exact ⟨y, h1, (From.step .root hu).trans h2, h3, h4⟩
    · exact ⟨x, hx, .root, hv, hD⟩

omit [Field F] in
/-- What `backward()` leaves of the root: no gradient, unless it is to be kept, and the same count of arrivals. -/
theorem root_after {i : Impl} (hg : Graph h) (hU : Unused h t) (hi : h.ts[t]? = some i) (hr : i.requiresGrad = true)
    (hf : i.gradFn.isSome = true) (hn : numel i.view.sizes = 1) (hb : backward t h = .ok () H) :
    (i.retainGrad = false → gradAt H t = none) ∧
    ∀ i' g, H.ts[t]? = some i' → i.gradFn = some g → ∃ g', i'.gradFn = some g' ∧ g'.accOutway = g.accOutway := by
  obtain ⟨h1, n, v, _, _, l, _, hl, hsch, _, hend⟩ := backward_order hg hi hr hf hn
  obtain ⟨R, hR, hall, hp⟩ := hend H hb
  obtain ⟨acc, ver, hpr, _, hacc⟩ := hp.ex
  have ht : Interior h t := by unfold Interior; rw [opOf_some hi]; exact hf
  refine ⟨fun hret => hp.dropped hU t (((hsch hU).all t).2 ⟨.root, ht⟩) i hi hret, fun i' g hi' hgi => ?_⟩
  have e := hpr.at_ t i hi
  rw [hi'] at e
  obtain rfl := Option.some.inj e
  refine ⟨_, by rw [hgi]; rfl, ?_⟩
  show acc t = _
  rw [hacc t i g hi hgi hr]
  have : indeg h l t = 0 := by
    unfold indeg
    rw [List.sum_eq_zero_iff]
    intro m hm
    obtain ⟨p, hp, rfl⟩ := List.mem_map.1 hm
    refine List.count_eq_zero.2 fun hc => ?_
    have h1 := hg.older p t hc
    have h2 := (hl p hp).1.le hg
    omega
  omega

variable [Exact F]

/-- What matters of an operation. -/
def core (g : GradFn) : BackKind × List Nat × Nat := (g.kind, g.inputs, g.accOutway)

/-- The variables that share nothing but leaves with the graph of `t`, and no elements with its gradients. -/
def Clear (h : Heap F) (V : Nat → Prop) (t x : Nat) : Prop := V x ∧ Separate h x t ∧ Aloof h x t

omit [Field F] [Exact F] in
theorem ReadStore.trans {x y d : Nat} (hx : From h x y) (hd : ReadStore h y d) : ReadStore h x d := by
  rcases hd with ⟨z, i, hz, h2⟩ | ⟨z, g, k, i, hz, h2⟩
  · exact .inl ⟨z, i, hx.trans hz, h2⟩
  · exact .inr ⟨z, g, k, i, hx.trans hz, h2⟩

omit [Exact F] in
theorem Inv.read_used (hI : Inv h V) {x d : Nat} (hx : V x) (hd : ReadStore h x d) : UsedStore h V d := by
  rcases hd with ⟨z, i, hz, h2⟩ | ⟨z, g, k, i, hz, h2⟩
  · exact .inl ⟨z, i, (hI.from hx hz).1, h2⟩
  · exact .inr ⟨z, g, k, i, (hI.from hx hz).1, h2⟩

omit [Exact F] in
theorem Clear.next (hI : Inv h V) {x y : Nat} (hx : Clear h V t x) (hy : From h x y) : Clear h V t y :=
  ⟨(hI.from hx.1 hy).1, fun z hz => hx.2.1 z (hy.trans hz), fun z d hz hd hr => hx.2.2 z d hz hd (ReadStore.trans hy hr)⟩

theorem Inv.back (hI : Inv h V) (hh : History h) (ht : V t) (hS : Smooth h t) (hr : requiresGrad h t = true) (ho : Interior h t)
    (hn : vol (shapeOf h t) = 1) (e : backward t h = .ok () H) : Inv H (Clear h V t) := by
  obtain ⟨it, _, hit, _⟩ := hI.reads t ht
  rw [requiresGrad_eq hit] at hr
  rw [shapeOf_eq hit] at hn
  have hgf : it.gradFn.isSome = true := by unfold Interior at ho; rwa [opOf_eq hit] at ho
  obtain ⟨u0, hl, _⟩ := exists_lift hI ht hS fun _ _ => 0
  obtain ⟨H', l, D, A, e', hs, hG⟩ := backward_ginv (graph_history hh) (hI.unused ht) (hI.prepared ht hS) hl.detached.tangent hit hr hgf
    (by rw [numel_eq_vol (by omega)]; exact hn)
  rw [e] at e'
  injection e' with _ e'
  subst e'
  have hb := backward_frame hh (.inl e)
  -- the graph consists of variables
  have hSV : ∀ x, From h t x → V x := fun x hx => (hI.from ht hx).1
  have hcase : ∀ x i, Clear h V t x → From h t x → h.ts[x]? = some i → i.gradFn = none ∨ (x = t ∧ Repeatable h t) := fun x i hx hf hi => by
    by_cases hc : Interior h x
    · exact .inr (hx.2.1 x .root hf hc)
    · left
      unfold Interior at hc
      rw [opOf_eq hi] at hc
      simpa using hc
  obtain ⟨hroot, hacc⟩ := root_after (graph_history hh) (hI.unused ht) hit hr hgf (by rw [numel_eq_vol (by omega)]; exact hn) e
  -- objects
  have hobj : ∀ x i, Clear h V t x → h.ts[x]? = some i → ∃ i', H.ts[x]? = some i' ∧ i'.dtype = i.dtype ∧ i'.view = i.view ∧
      i'.data = i.data ∧ i'.requiresGrad = i.requiresGrad ∧ i'.gradFn.map core = i.gradFn.map core := fun x i hx hi => by
    obtain ⟨i', hi', hsk⟩ := hb.skel x i hi
    obtain ⟨e1, e2, e3, e4, _⟩ := skel_eq hsk
    refine ⟨i', hi', e1, e2, e3, e4, ?_⟩
    have h2 := skel_gradFn hsk
    by_cases hf : From h t x
    · rcases hcase x i hx hf hi with h1 | ⟨hxt, _⟩
      · rw [h1] at h2 ⊢
        simpa using h2
      · rw [hxt] at hi hi'
        rw [hit] at hi
        obtain rfl := Option.some.inj hi
        obtain ⟨g, hg⟩ := Option.isSome_iff_exists.1 hgf
        obtain ⟨g', h3, h4⟩ := hacc i' g hi' hg
        rw [h3, hg] at h2 ⊢
        simp only [Option.map_some, Option.some.injEq, Prod.mk.injEq] at h2
        simp [core, h2, h4]
    · rw [hb.out x i hi hf] at hi'
      rw [← Option.some.inj hi']
  have hobj' : ∀ (x : Nat) (i' : Impl), Clear h V t x → H.ts[x]? = some i' → ∃ i : Impl, h.ts[x]? = some i ∧ i'.dtype = i.dtype ∧ i'.view = i.view ∧
      i'.data = i.data ∧ i'.requiresGrad = i.requiresGrad ∧ i'.gradFn.map core = i.gradFn.map core := fun x i' hx hi' => by
    obtain ⟨i, _, hi, _⟩ := hI.reads x hx.1
    obtain ⟨i2, h1, h2⟩ := hobj x i hx hi
    rw [hi'] at h1
    obtain rfl := Option.some.inj h1
    exact ⟨i, hi, h2⟩
  have hop : ∀ x, Clear h V t x → (opOf H x).map core = (opOf h x).map core := fun x hx => by
    obtain ⟨i, _, hi, _⟩ := hI.reads x hx.1
    obtain ⟨i', h1, _, _, _, _, h2⟩ := hobj x i hx hi
    rw [opOf_eq hi, opOf_eq h1, h2]
  have hop' : ∀ x g, Clear h V t x → opOf H x = some g → ∃ g0, opOf h x = some g0 ∧ g.kind = g0.kind ∧ g.inputs = g0.inputs ∧
      g.accOutway = g0.accOutway := fun x g hx hg => by
    have h1 := hop x hx
    rw [hg] at h1
    cases h2 : opOf h x with
    | none => rw [h2] at h1; simp at h1
    | some g0 =>
      rw [h2] at h1
      simp only [Option.map_some, core, Option.some.injEq, Prod.mk.injEq] at h1
      exact ⟨g0, rfl, h1⟩
  have hview : ∀ x, Clear h V t x → (IsView H x ↔ IsView h x) := fun x hx => by
    have h1 := hop x hx
    unfold IsView
    cases h2 : opOf h x <;> cases h3 : opOf H x <;> rw [h2, h3] at h1 <;>
      simp only [Option.map_some, Option.map_none, core, Option.some.injEq, Prod.mk.injEq, reduceCtorEq] at h1 ⊢ <;> simp [h1]
  have hinter : ∀ x, Clear h V t x → (Interior H x ↔ Interior h x) := fun x hx => by
    have h1 := congrArg Option.isSome (hop x hx)
    simp only [Option.isSome_map] at h1
    unfold Interior
    rw [h1]
  have hreq : ∀ x, Clear h V t x → requiresGrad H x = requiresGrad h x := fun x hx => by
    obtain ⟨i, _, hi, _⟩ := hI.reads x hx.1
    obtain ⟨i', h1, _, _, _, h2, _⟩ := hobj x i hx hi
    rw [requiresGrad_eq hi, requiresGrad_eq h1, h2]
  have hcl : ∀ x y, Clear h V t x → Uses h x y → Clear h V t y := fun x y hx hu => hx.next hI (.step .root hu)
  -- storages
  have hstore : ∀ x d, Clear h V t x → ReadStore h x d → H.st[d]? = h.st[d]? := fun x d hx hd => hb.store d fun hw => by
    rcases hw with hw | ⟨y, hy, hg⟩
    · have := hI.used_lt (hI.read_used hx.1 hd); omega
    · exact hx.2.2 y d hy hg hd
  have hsame : ∀ x, Clear h V t x → SameT h H x := fun x hx => by
    obtain ⟨i, _, hi, _⟩ := hI.reads x hx.1
    obtain ⟨i', h1, h2, h3, h4, h5, _⟩ := hobj x i hx hi
    exact ⟨i, i', hi, h1, h2, h3, h4, hstore x _ hx (.inl ⟨x, i, .root, hi, rfl⟩), fun hc => by rw [h5]; exact hc⟩
  -- gradients
  have hgobj : ∀ (x g : Nat) (i : Impl), V x → h.ts[x]? = some i → i.grad = some g → ∃ j j', h.ts[g]? = some j ∧
      H.ts[g]? = some j' ∧ j'.data = j.data ∧ j'.dtype = i.dtype ∧ j'.view = i.view ∧ j'.requiresGrad = false ∧ j'.gradFn = none ∧
      j'.grad = none := fun x g i hx hi hg => by
    obtain ⟨j, hj, k1, k2, k3, k4, k5⟩ := hI.grad x i g hx hi hg
    obtain ⟨j', hj', hsk⟩ := hb.skel g j hj
    obtain ⟨e1, e2, e3, e4, _⟩ := skel_eq hsk
    refine ⟨j, j', hj, hj', e3, by rw [e1, k1], by rw [e2, k2], by rw [e4, k3], ?_, ?_⟩
    · have h2 := skel_gradFn hsk
      rw [k4] at h2
      simpa using h2
    · rw [hb.leaf g j j' hj hj' k4 (.inr k3), k5]
  have hgrad : ∀ (x : Nat) (i i' : Impl), Clear h V t x → h.ts[x]? = some i → H.ts[x]? = some i' →
      i'.grad = i.grad ∨ (From h t x ∧ i.gradFn = none ∧ i.grad = none) := fun x i i' hx hi hi' => by
    by_cases hf : From h t x
    · rcases hcase x i hx hf hi with hlf | ⟨hxt, hrep⟩
      · cases hg : i.grad with
        | none => exact .inr ⟨hf, hlf, rfl⟩
        | some g => rw [← hg]; exact .inl (hb.leaf x i i' hi hi' hlf (.inl (by rw [hg]; rfl)))
      · left
        rw [hxt] at hi hi'
        have h1 := hrep.2 i hi
        rw [h1.2]
        rw [hit] at hi
        obtain rfl := Option.some.inj hi
        have h2 := hroot h1.1
        rwa [gradAt_some hi'] at h2
    · rw [hb.out x i hi hf] at hi'
      rw [← Option.some.inj hi']
      exact .inl rfl
  have hgs : ∀ (x D : Nat), Clear h V t x → gradStore h x = some D → gradStore H x = some D := fun x D hx hD => by
    obtain ⟨i, g, j, hi, hg, hj, hjd⟩ := gradStore_some hD
    obtain ⟨i', hi', _⟩ := hobj x i hx hi
    rcases hgrad x i i' hx hi hi' with h1 | h1
    · obtain ⟨j1, j2, q1, q2, q3, _⟩ := hgobj x g i hx.1 hi hg
      rw [hj] at q1
      obtain rfl := Option.some.inj q1
      simp [gradStore, hi', h1, hg, q2, q3, hjd]
    · rw [h1.2.2] at hg; simp at hg
  have hgs' : ∀ (x D : Nat), Clear h V t x → gradStore H x = some D → gradStore h x = some D ∨
      (From h t x ∧ ¬ Interior h x ∧ gradStore h x = none ∧ h.st.length ≤ D) := fun x D hx hD => by
    obtain ⟨i', g, j', hi', hg, hj, hjd⟩ := gradStore_some hD
    obtain ⟨i, hi, _⟩ := hobj' x i' hx hi'
    rcases hgrad x i i' hx hi hi' with h1 | ⟨h1, h2, h3⟩
    · rw [h1] at hg
      obtain ⟨j1, j2, q1, q2, q3, _⟩ := hgobj x g i hx.1 hi hg
      rw [hj] at q2
      obtain rfl := Option.some.inj q2
      exact .inl (by simp [gradStore, hi, hg, q1, ← q3, hjd])
    · refine .inr ⟨h1, by unfold Interior; rw [opOf_eq hi, h2]; simp, by simp [gradStore, hi, h3], ?_⟩
      obtain ⟨j, q1, _, _, _, q2, _⟩ := hb.leafNew x g i i' hi hi' h2 h3 hg
      rw [hj] at q1
      obtain rfl := Option.some.inj q1
      omega
  -- leaves of the graph that have a gradient need it
  have hneed : ∀ (x : Nat) (D : Nat), Clear h V t x → From h t x → gradStore H x = some D → Needs h t x ∧ x ∉ l ∧
      ¬ Interior h x := fun x D hx hf hD => by
    obtain ⟨i', g, j', hi', hg, _, _⟩ := gradStore_some hD
    obtain ⟨i, hi, _⟩ := hobj' x i' hx hi'
    have hlf : i.gradFn = none := (hcase x i hx hf hi).resolve_right fun hc => by
      obtain ⟨hxt, hrep⟩ := hc
      rw [hxt] at hi hi'
      rw [hit] at hi
      obtain rfl := Option.some.inj hi
      have h2 := hroot (hrep.2 _ hit).1
      rw [gradAt_some hi', hg] at h2
      cases h2
    have hint : ¬ Interior h x := by unfold Interior; rw [opOf_eq hi, hlf]; simp
    refine ⟨⟨hf, i, hi, ?_⟩, fun hc => hint ((hs.all x).1 hc).2, hint⟩
    by_contra hc
    have hc : i.requiresGrad = false := by simpa using hc
    have h1 := hb.leaf x i i' hi hi' hlf (.inr hc)
    rw [hI.bare x i hx.1 hi hc, hg] at h1
    cases h1
  have hD : ∀ (x d : Nat), Clear h V t x → From h t x → ¬ IsView h x → gradStore H x = some d → D x = some d := fun x d hx hf hv hd => by
    obtain ⟨h1, h2, _⟩ := hneed x d hx hf hd
    have how : INNC.owner h x = x := owner_self hv
    obtain ⟨i', g, j', hi', hg, hj, hjd⟩ := gradStore_some hd
    cases hc : D x with
    | none =>
      have := (hG.none_ x h1 h2 (fun _ => hS.root) (by rw [how]; exact hc)).2.1
      rw [gradAt_some hi', hg] at this
      cases this
    | some d' =>
      obtain ⟨i2, g2, j2, q1, q2, q3, _, _, _, _, _, _, q4⟩ := hG.some_ x d' h1 h2 (fun _ => hS.root) (by rw [how]; exact hc)
      rw [hi'] at q1
      obtain rfl := Option.some.inj q1
      rw [hg] at q2
      obtain rfl := Option.some.inj q2
      rw [hj] at q3
      obtain rfl := Option.some.inj q3
      rw [← q4, hjd]
  have hlt : ∀ x d, V x → ¬ IsView h x → gradStore h x = some d → d < h.st.length := fun x d hx hv hd => by
    obtain ⟨i, _, hi, _⟩ := hI.reads x hx
    obtain ⟨s, hs, _⟩ := hI.cells x i d hx hv hi hd
    exact getElem?_lt hs
  refine ⟨fun x hx => ?_, fun x g hx hg => ?_, fun x i' hx hi' hr => ?_, fun x i' hx hi' hr hv => ?_, fun x b hx hv hu => ?_,
    fun x i' g hx hi' hg => ?_, fun x i' hx hi' hr => ?_, fun x i' d hx hv hi' hd => ?_, fun x y d hx hy hvx hvy hdx hdy => ?_⟩
  · obtain ⟨i, f, hi, hrd⟩ := hI.reads x hx.1
    obtain ⟨i1, i', e1, e2, e3, e4, e5, e6, _⟩ := hsame x hx
    rw [hi] at e1
    obtain rfl := Option.some.inj e1
    exact ⟨i', f, e2, hrd.same e3 e4 e5 e6⟩
  · obtain ⟨g0, hg, k1, k2, k3⟩ := hop' x g hx hg
    obtain ⟨h1, h2, h3, h4⟩ := hI.ops x g0 hx.1 hg
    have hin : ∀ a ∈ g0.inputs, Clear h V t a := fun a ha => hcl x a hx (by unfold Uses operands; rw [hg]; exact ha)
    rw [k1, k2, k3]
    refine ⟨by rw [hreq x hx]; exact h1, h2, fun a ha => ⟨hin a ha, (h3 a ha).2⟩, h4.mono (hsame x hx) (fun a ha => hsame a (hin a ha)) fun k hk => ?_⟩
    obtain ⟨ik, _, hik, _⟩ := hI.slopes hx.1 hg hk
    obtain ⟨ik', q1, q2⟩ := hb.skel k ik hik
    obtain ⟨e1, e2, e3, e4, _⟩ := skel_eq q2
    exact ⟨ik, ik', hik, q1, e1, e2, e3, hstore x _ hx (.inr ⟨x, g0, k, ik, .root, hg, hk, hik, rfl⟩), fun hc => by rw [e4]; exact hc⟩
  · obtain ⟨i, hi, h1, _, _, h4, _⟩ := hobj' x i' hx hi'
    rw [h1]; exact hI.float x i hx.1 hi (by rw [← h4]; exact hr)
  · rw [hview x hx] at hv
    obtain ⟨i, hi, _, h2, _, h4, _⟩ := hobj' x i' hx hi'
    rw [h2]; exact hI.dense x i hx.1 hi (by rw [← h4]; exact hr) hv
  · rw [hview x hx] at hv
    have hu' : Uses h x b := by
      unfold Uses operands at hu ⊢
      cases h1 : opOf H x with
      | none => rw [h1] at hu; simp at hu
      | some g =>
        obtain ⟨g0, h2, _, h3, _⟩ := hop' x g hx h1
        rw [h1] at hu
        rw [h2]
        simp only at hu ⊢
        rwa [h3] at hu
    have hbc := hcl x b hx hu'
    obtain ⟨h1, h2, h3, h4⟩ := hI.view x b hx.1 hv hu'
    obtain ⟨d, hd⟩ := Option.isSome_iff_exists.1 h2
    have h5 := hgs x d hx hd
    have h6 := hgs b d hbc (by rw [← h3]; exact hd)
    refine ⟨by rw [hreq b hbc]; exact h1, by rw [h5]; rfl, by rw [h5, h6], ?_⟩
    obtain ⟨i, _, hi, _⟩ := hI.reads x hx.1
    obtain ⟨j, _, hj, _⟩ := hI.reads b hbc.1
    obtain ⟨i', a1, a2, _⟩ := hobj x i hx hi
    obtain ⟨j', b1, b2, _⟩ := hobj b j hbc hj
    rw [hi, hj] at h4
    rw [a1, b1, Option.map_some, Option.map_some, a2, b2]
    exact h4
  · obtain ⟨i, hi, h1, h2, _⟩ := hobj' x i' hx hi'
    rcases hgrad x i i' hx hi hi' with h3 | ⟨h3, h4, h5⟩
    · rw [h3] at hg
      obtain ⟨j1, j2, q1, q2, q3, k1, k2, k3⟩ := hgobj x g i hx.1 hi hg
      exact ⟨j2, q2, by rw [k1, h1], by rw [k2, h2], k3⟩
    · obtain ⟨j, q1, q2, q3, q4, _, q5⟩ := hb.leafNew x g i i' hi hi' h4 h5 hg
      exact ⟨j, q1, by rw [q2, h1], by rw [q3, h2], q4, q5⟩
  · obtain ⟨i, hi, _, _, _, h4, _⟩ := hobj' x i' hx hi'
    have hr : i.requiresGrad = false := by rw [← h4]; exact hr
    rcases hgrad x i i' hx hi hi' with h3 | ⟨h3, h5, h6⟩
    · rw [h3]; exact hI.bare x i hx.1 hi hr
    · rw [hb.leaf x i i' hi hi' h5 (.inr hr)]; exact h6
  · rw [hview x hx] at hv
    obtain ⟨i, hi, h1, h2, _⟩ := hobj' x i' hx hi'
    have hint : Interior H x ↔ Interior h x := hinter x hx
    by_cases hf : From h t x
    · obtain ⟨n1, n2, n3⟩ := hneed x d hx hf hd
      obtain ⟨s, q1, q2, q3⟩ := hG.cells x i d n1 hv n2 hi (hD x d hx hf hv hd)
      refine ⟨s, q1, by rw [h1]; exact q2, ?_⟩
      rw [h1, h2]
      rcases q3 with ⟨q3, q4, _⟩ | ⟨c, q3, q4, q5⟩
      · refine .inl ⟨q3, ?_⟩
        have hsm := hS.small x i hf hi
        unfold Spec.Small at hsm
        have h7 := vol_lt_of_bytes hsm
        rw [Nat.mul_comm] at hsm
        rw [q4, numel_eq_vol (by omega), ← Nat.cast_mul, wrapU_natCast (by omega)]
      · exact .inr ⟨fun hc => n3 (hint.1 hc), c, A x, q3, q4, q5⟩
    · have hd' : gradStore h x = some d := (hgs' x d hx hd).resolve_right fun hc => hf hc.1
      obtain ⟨s, q1, q2⟩ := hI.cells x i d hx.1 hv hi hd'
      refine ⟨s, ?_, by rw [hint, h1, h2]; exact q2⟩
      rw [hb.store d, q1]
      rintro (hw | ⟨y, hy, hg⟩)
      · have := getElem?_lt q1; omega
      · obtain ⟨o, o1, o2, o3, o4⟩ := hI.ownerFrom _ y (Nat.lt_succ_self y) (hSV y hy) hg
        have := hI.apart o x d o1 hx.1 o3 hv o4 hd'
        subst this
        exact hf (hy.trans o2)
  · rw [hview x hx] at hvx
    rw [hview y hy] at hvy
    rcases hgs' x d hx hdx with h1 | ⟨h1, _, _, h2⟩
    · rcases hgs' y d hy hdy with h3 | ⟨h3, _, _, h4⟩
      · exact hI.apart x y d hx.1 hy.1 hvx hvy h1 h3
      · have := hlt x d hx.1 hvx h1; omega
    · rcases hgs' y d hy hdy with h3 | ⟨h3, _, _, h4⟩
      · have := hlt y d hy.1 hvy h3; omega
      · obtain ⟨n1, n2, _⟩ := hneed x d hx h1 hdx
        obtain ⟨n3, n4, _⟩ := hneed y d hy h3 hdy
        exact hG.apart x y d n1 n3 hvx hvy n2 n4 (hD x d hx h1 hvx hdx) (hD y d hy h3 hvy hdy)

end INNC
