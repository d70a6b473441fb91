import Verif.Lemmas.ForwardPrograms
/-
Two states that agree on the computation of a tensor: derivatives are the same.
-/
namespace INNC
open Spec Tensor
variable {F : Type} {h H : Heap F} {u : Nat}

/-- The tensor is the same in both states, up to its gradient. -/
def Alike (h H : Heap F) (x : Nat) : Prop :=
  ∃ i i', h.ts[x]? = some i ∧ H.ts[x]? = some i' ∧ i'.dtype = i.dtype ∧ i'.view = i.view ∧ i'.data = i.data ∧
    i'.requiresGrad = i.requiresGrad ∧ H.st[i.data]? = h.st[i.data]?

/-- What matters of an operation for derivatives. -/
def opParts (g : GradFn) : BackKind × List Nat := (g.kind, g.inputs)

/-- The states agree on the computation of `u`. -/
structure Agree (h H : Heap F) (u : Nat) : Prop where
  same : ∀ x, From h u x → Alike h H x
  op : ∀ x, From h u x → (opOf H x).map opParts = (opOf h x).map opParts
  slope : ∀ x g k, From h u x → opOf h x = some g → g.kind = .knownGrad k → Alike h H k

theorem Alike.symm {x : Nat} (a : Alike h H x) : Alike H h x := by
  obtain ⟨i, i', h1, h2, h3, h4, h5, h6, h7⟩ := a
  exact ⟨i', i, h2, h1, h3.symm, h4.symm, h5.symm, h6.symm, by rw [h5]; exact h7.symm⟩

theorem Alike.shape {x : Nat} (a : Alike h H x) : shapeOf H x = shapeOf h x := by
  obtain ⟨i, i', h1, h2, h3, h4, _⟩ := a
  rw [shapeOf_eq h1, shapeOf_eq h2, h4]

theorem Alike.req {x : Nat} (a : Alike h H x) : requiresGrad H x = requiresGrad h x := by
  obtain ⟨i, i', h1, h2, _, _, _, h3, _⟩ := a
  rw [requiresGrad_eq h1, requiresGrad_eq h2, h3]

theorem Agree.op_some (a : Agree h H u) {x : Nat} (hx : From h u x) {g : GradFn} (hg : opOf H x = some g) :
    ∃ g0, opOf h x = some g0 ∧ g.kind = g0.kind ∧ g.inputs = g0.inputs := by
  have h1 := a.op x hx
  rw [hg] at h1
  cases h2 : opOf h x with
  | none => rw [h2] at h1; simp at h1
  | some g0 =>
    rw [h2] at h1
    simp only [Option.map_some, opParts, Option.some.injEq, Prod.mk.injEq] at h1
    exact ⟨g0, rfl, h1⟩

theorem Agree.some_op (a : Agree h H u) {x : Nat} (hx : From h u x) {g : GradFn} (hg : opOf h x = some g) :
    ∃ g0, opOf H x = some g0 ∧ g.kind = g0.kind ∧ g.inputs = g0.inputs := by
  have h1 := a.op x hx
  rw [hg] at h1
  cases h2 : opOf H x with
  | none => rw [h2] at h1; simp at h1
  | some g0 =>
    rw [h2] at h1
    simp only [Option.map_some, opParts, Option.some.injEq, Prod.mk.injEq] at h1
    exact ⟨g0, rfl, h1.1.symm, h1.2.symm⟩

theorem Agree.uses (a : Agree h H u) {x y : Nat} (hx : From h u x) : Uses H x y ↔ Uses h x y := by
  unfold Uses operands
  have h1 := a.op x hx
  cases h2 : opOf h x <;> cases h3 : opOf H x <;> rw [h2, h3] at h1 <;>
    simp only [Option.map_some, Option.map_none, opParts, Option.some.injEq, Prod.mk.injEq, reduceCtorEq] at h1 ⊢
  rw [h1.2]

theorem Agree.froms (a : Agree h H u) {x : Nat} : From H u x ↔ From h u x := by
  constructor
  · intro hx
    induction hx with
    | root => exact .root
    | step _ hu ih => exact .step ih ((a.uses ih).1 hu)
  · intro hx
    induction hx with
    | root => exact .root
    | step hx hu ih => exact .step ih ((a.uses hx).2 hu)

theorem Agree.symm (a : Agree h H u) : Agree H h u where
  same := fun x hx => (a.same x (a.froms.1 hx)).symm
  op := fun x hx => (a.op x (a.froms.1 hx)).symm
  slope := fun x g k hx hg hk => by
    obtain ⟨g0, h1, h2, _⟩ := a.op_some (a.froms.1 hx) hg
    exact (a.slope x g0 k (a.froms.1 hx) h1 (by rw [← h2]; exact hk)).symm

theorem Agree.interior (a : Agree h H u) {x : Nat} (hx : From h u x) : Interior H x ↔ Interior h x := by
  have h1 := congrArg Option.isSome (a.op x hx)
  simp only [Option.isSome_map] at h1
  unfold Interior
  rw [h1]

theorem Agree.view (a : Agree h H u) {x : Nat} (hx : From h u x) : IsView H x ↔ IsView h x := by
  constructor
  · rintro ⟨g, hg, hk⟩
    obtain ⟨g0, h1, h2, _⟩ := a.op_some hx hg
    exact ⟨g0, h1, by rw [← h2]; exact hk⟩
  · rintro ⟨g, hg, hk⟩
    obtain ⟨g0, h1, h2, _⟩ := a.some_op hx hg
    exact ⟨g0, h1, by rw [← h2]; exact hk⟩

theorem Alike.needs_ {x : Nat} (a : Alike h H x) (hn : ∃ i, h.ts[x]? = some i ∧ i.requiresGrad = true) :
    ∃ i, H.ts[x]? = some i ∧ i.requiresGrad = true := by
  obtain ⟨i, i', h1, h2, _, _, _, h3, _⟩ := a
  obtain ⟨j, hj, hr⟩ := hn
  rw [h1] at hj
  obtain rfl := Option.some.inj hj
  exact ⟨i', h2, by rw [h3]; exact hr⟩

theorem Agree.needs (a : Agree h H u) {x : Nat} (hn : Needs h u x) : Needs H u x :=
  ⟨a.froms.2 hn.1, (a.same x hn.1).needs_ hn.2⟩

theorem Agree.leaf (a : Agree h H u) {x : Nat} : Leaf H u x ↔ Leaf h u x :=
  ⟨fun hx => ⟨a.symm.needs hx.1, fun hc => hx.2 ((a.interior (a.froms.1 hx.1.1)).2 hc)⟩,
    fun hx => ⟨a.needs hx.1, fun hc => hx.2 ((a.interior hx.1.1).1 hc)⟩⟩

theorem segments_agree {R : Type} {v : Nat → List Nat → R} {x d : Nat} (hx : shapeOf H x = shapeOf h x) :
    ∀ (l : List Nat) (k : Nat), (∀ a ∈ l, shapeOf H a = shapeOf h a) → Segments h v x d k l → Segments H v x d k l
  | [], k, _, hs => by unfold Segments at hs ⊢; rw [hx]; exact hs
  | a :: l, k, hl, hs => by
    unfold Segments at hs ⊢
    obtain ⟨n, h1, h2, h3⟩ := hs
    exact ⟨n, by rw [hl a (by simp), hx]; exact h1, by rw [hl a (by simp)]; exact h2,
      segments_agree hx l _ (fun b hb => hl b (by simp [hb])) h3⟩

theorem Alike.data {x d : Nat} (a : Alike h H x) (hd : ∃ i, h.ts[x]? = some i ∧ i.data = d) : ∃ i, H.ts[x]? = some i ∧ i.data = d := by
  obtain ⟨i, i', h1, h2, _, _, h3, _⟩ := a
  obtain ⟨j, hj, hd⟩ := hd
  rw [h1] at hj
  obtain rfl := Option.some.inj hj
  exact ⟨i', h2, by rw [h3]; exact hd⟩

theorem Agree.read (a : Agree h H u) {d : Nat} (hr : ReadStore h u d) : ReadStore H u d := by
  rcases hr with ⟨x, i, hx, hi⟩ | ⟨x, g, k, i, hx, hg, hk, hi⟩
  · obtain ⟨j, hj⟩ := (a.same x hx).data ⟨i, hi⟩
    exact .inl ⟨x, j, a.froms.2 hx, hj⟩
  · obtain ⟨j, hj⟩ := (a.slope x g k hx hg hk).data ⟨i, hi⟩
    obtain ⟨g0, h1, h2, _⟩ := a.some_op hx hg
    exact .inr ⟨x, g0, k, j, a.froms.2 hx, h1, by rw [← h2]; exact hk, hj⟩

section
variable [Field F] [FOps F]

theorem Spec.Slopes.alike {x p : Nat} {f : List Nat → Val F} (hs : Slopes h x p f) (hx : shapeOf H x = shapeOf h x) (hp : Alike h H p) :
    Slopes H x p f := by
  obtain ⟨i, g, hi, hr, hs⟩ := hs
  obtain ⟨i0, i', q1, q2, q3, q4, q5, _, q6⟩ := hp
  rw [q1] at hi
  obtain rfl := Option.some.inj hi
  refine ⟨i', g, q2, hr.same q3 q4 q5 q6, ?_⟩
  rw [hx, q3, q4]
  exact hs

theorem Agree.computed (a : Agree h H u) {v : Nat → List Nat → DualNumber F} {x : Nat} {g : GradFn} (hx : From h u x)
    (hg : opOf h x = some g) (hc : Computed h u v x g.kind g.inputs) : Computed H u v x g.kind g.inputs := by
  have hin : ∀ y ∈ g.inputs, From h u y := fun y hy => .step hx (by unfold Uses operands; rw [hg]; exact hy)
  have hsh : ∀ y ∈ g.inputs, shapeOf H y = shapeOf h y := fun y hy => (a.same y (hin y hy)).shape
  have hsx := (a.same x hx).shape
  have hsl : ∀ k, g.kind = .knownGrad k → Alike h H k := fun k hk => a.slope x g k hx hg hk
  generalize g.kind = kind at hc hsl
  generalize g.inputs = ins at hc hin hsh
  cases kind with
  | cat d =>
    unfold Computed at hc ⊢
    obtain ⟨⟨i, hi, hv⟩, h2⟩ := hc
    obtain ⟨i1, i', h3, h4, _, h5, _⟩ := a.same x hx
    rw [hi] at h3
    obtain rfl := Option.some.inj h3
    exact ⟨⟨i', h4, by rw [h5]; exact hv⟩, segments_agree hsx ins 0 hsh h2⟩
  | noBack =>
    rcases ins with _ | ⟨p, _ | ⟨q, l⟩⟩ <;> simp only [Computed] at hc ⊢
    obtain ⟨i, j, hi, hj, h1⟩ := hc
    obtain ⟨i1, i', h3, h4, _, h5, _⟩ := a.same x hx
    obtain ⟨j1, j', h6, h7, _, h8, _⟩ := a.same p (hin p (by simp))
    rw [hi] at h3
    obtain rfl := Option.some.inj h3
    rw [hj] at h6
    obtain rfl := Option.some.inj h6
    exact ⟨i', j', h4, h7, by rw [h5, h8]; exact h1⟩
  | knownGrad k =>
    rcases ins with _ | ⟨p, _ | ⟨q, l⟩⟩ <;> simp only [Computed] at hc ⊢
    obtain ⟨i, f, hi, h1, h2, h3, hsp, h4⟩ := hc
    obtain ⟨i1, i', h5, h6, h7, h8, h9, _, h10⟩ := hsl _ rfl
    rw [hi] at h5
    obtain rfl := Option.some.inj h5
    have hsp' := hsp.alike hsx (a.same p (hin p (by simp)))
    rw [hsx, hsh p (by simp)]
    exact ⟨i', f, h6, by rw [h8]; exact h1, by rw [h7]; exact h2, h3.same h7 h8 h9 h10, hsp', h4⟩
  | _ =>
    rcases ins with _ | ⟨p, _ | ⟨q, _ | ⟨w, l⟩⟩⟩ <;> simp only [Computed] at hc ⊢
    all_goals
      first
        | (rw [hsx, hsh p (by simp), hsh q (by simp)]; exact hc)
        | (rw [hsx, hsh p (by simp), hsh q (by simp)]
           exact ⟨hc.1, hc.2.1, a.needs hc.2.2.1, a.needs hc.2.2.2.1, hc.2.2.2.2⟩)
        | (rw [hsx, hsh p (by simp)]; exact hc)
        | (rw [hsx, hsh p (by simp)]; exact ⟨hc.1, a.needs hc.2.1, hc.2.2⟩)

theorem Agree.lift (a : Agree h H u) {v : Nat → List Nat → DualNumber F} (hl : Lift h u v) : Lift H u v where
  value := fun x i' hx hi' => by
    obtain ⟨i, j', h1, h2, h3, h4, h5, _, h6⟩ := a.same x (a.froms.1 hx)
    rw [hi'] at h2
    obtain rfl := Option.some.inj h2
    obtain ⟨f, hf, hv⟩ := hl.value x i (a.froms.1 hx) h1
    exact ⟨f, hf.same h3 h4 h5 h6, by rw [h4]; exact hv⟩
  const := fun x i' hx hi' hr => by
    obtain ⟨i, j', h1, h2, h3, h4, h5, h7, h6⟩ := a.same x (a.froms.1 hx)
    rw [hi'] at h2
    obtain rfl := Option.some.inj h2
    rw [h4]
    exact hl.const x i (a.froms.1 hx) h1 (by rw [← h7]; exact hr)
  op := fun x g hx hg => by
    have hx' := a.froms.1 hx
    obtain ⟨g0, h1, h2, h3⟩ := a.op_some hx' hg
    rw [h2, h3]
    exact a.computed hx' h1 (hl.op x g0 hx' h1)

theorem Agree.direction (a : Agree h H u) {v : Nat → List Nat → DualNumber F} {x : Nat} {idx : List Nat}
    (hd : Direction h u v x idx) : Direction H u v x idx := fun y hy k hk => by
  have hy' := a.leaf.1 hy
  rw [(a.same y hy'.1.1).shape] at hk
  exact hd y hy' k hk

theorem Agree.smooth (a : Agree h H u) (hg : ∀ x d, From h u x → gradStore H x = some d → ¬ ReadStore h u d) (hs : Smooth h u) :
    Smooth H u where
  alone := fun x d hx hd hr => hg x d (a.froms.1 hx) hd (a.symm.read hr)
  root := fun hc => hs.root ((a.view .root).1 hc)
  small := fun x i' hx hi' => by
    obtain ⟨i, j', h1, h2, h3, h4, _⟩ := a.same x (a.froms.1 hx)
    rw [hi'] at h2
    obtain rfl := Option.some.inj h2
    rw [h3, h4]
    exact hs.small x i (a.froms.1 hx) h1
  quotient := fun x g p q hx hg hk hin => by
    have hx' := a.froms.1 hx
    obtain ⟨g0, hg, k1, k2⟩ := a.op_some hx' hg
    rw [k1] at hk
    rw [k2] at hin
    have hp : From h u p := .step hx' (by unfold Uses operands; rw [hg]; simp [hin])
    have hq : From h u q := .step hx' (by unfold Uses operands; rw [hg]; simp [hin])
    obtain ⟨h1, h2, h3, h4⟩ := hs.quotient x g0 p q hx' hg hk hin
    refine ⟨by rw [(a.same q hq).shape, (a.same x hx').shape]; exact h1, by rw [(a.same p hp).req]; exact h2,
      by rw [(a.same q hq).req]; exact h3, fun i' f idx hi' hr hb => ?_⟩
    obtain ⟨i, j', e1, e2, e3, e4, e5, _, e6⟩ := a.same q hq
    rw [hi'] at e2
    obtain rfl := Option.some.inj e2
    rw [e4] at hb
    exact h4 i f idx e1 (hr.same e3.symm e4.symm e5.symm (by rw [e5]; exact e6.symm)) hb
  mean := fun x g p hx hg hk hin => by
    have hx' := a.froms.1 hx
    obtain ⟨g0, hg, k1, k2⟩ := a.op_some hx' hg
    rw [k1] at hk
    rw [k2] at hin
    have hp : From h u p := .step hx' (by unfold Uses operands; rw [hg]; simp [hin])
    rw [(a.same p hp).shape]
    exact hs.mean x g0 p hx' hg hk hin

theorem Agree.starts (a : Agree h H u) (hg : ∀ x d, From h u x → gradStore H x = some d → ¬ ReadStore h u d) (hs : Starts h u) :
    Starts H u :=
  ⟨by rw [(a.same u .root).req]; exact hs.1, (a.interior .root).2 hs.2.1, by rw [(a.same u .root).shape]; exact hs.2.2.1,
    a.smooth hg hs.2.2.2⟩

end
end INNC
