import Verif.Lemmas.Descent
import Verif.Lemmas.Weighted
/-
The sum of squares of `w * x - y` is a function that gradient descent can minimise.
-/
namespace INNC
open Spec Tensor DualNumber
variable {F : Type} [Field F] [FOps F] {h h1 H : Heap F} {V : Nat → Prop}

omit [FOps F] in
theorem Spec.Inner.mono {l l' : List Nat} (hN : Inner h l) (hs : ∀ a ∈ l', a ∈ l) : Inner h l' :=
  ⟨fun t ht => hN.small t (hs t ht), fun t ht => hN.quotient t (hs t ht), fun t ht => hN.mean t (hs t ht),
    fun t ht x d hx hd t' ht' => hN.alone t (hs t ht) x d hx hd t' (hs t' ht')⟩

theorem inner_leaves {l : List Nat} (hl : ∀ x ∈ l, ¬ Interior h x ∧ OffGradients h x) (hs : ∀ x ∈ l, Spec.Small (shapeOf h x) .f64) : Inner h l := by
  have hno : ∀ x ∈ l, ∀ g, opOf h x ≠ some g := fun x hx g hg => (hl x hx).1 (by unfold Interior; rw [hg]; rfl)
  refine ⟨fun t ht x i hx hi => ?_, fun t ht x g a b hx hg => ?_, fun t ht x g hx hg => ?_, fun t ht x d hx hd t' ht' hr => ?_⟩
  · obtain rfl := from_leaf (hl t ht).1 hx
    have := hs x ht
    rw [shapeOf_eq hi] at this
    exact small_of_f64 this _
  · obtain rfl := from_leaf (hl t ht).1 hx
    exact absurd hg (hno x ht g)
  · obtain rfl := from_leaf (hl t ht).1 hx
    exact absurd hg (hno x ht g)
  · rcases hr with ⟨z, iz, hz, hiz, hzd⟩ | ⟨z, gz, k, iz, hz, hgz, _⟩ <;> obtain rfl := from_leaf (hl t' ht').1 hz
    · exact (hl z ht').2 iz hiz x (by rw [hd, hzd])
    · exact absurd hgz (hno z ht' gz)

theorem Inv.grad_kept (hI : Inv h V) (he : Extends h h1) {x : Nat} (hx : V x) {b : List Nat → F}
    (hb : GradOrZero h x b) : GradOrZero h1 x b := by
  have hsh := (hI.same_ext he hx).shape
  rcases hb with ⟨i0, g, f, h1', h2, h3, h4⟩ | ⟨⟨i0, h1', h2⟩, h3⟩
  · exact .inl ⟨i0, g, f, he.ts _ _ h1', h2, h3.of_extends he, h4⟩
  · refine .inr ⟨⟨i0, he.ts _ _ h1', fun g j s hg hj hs => ?_⟩, by rw [hsh]; exact h3⟩
    obtain ⟨j', hj', _⟩ := hI.grad x i0 g hx h1' hg
    rw [he.ts g j' hj'] at hj
    obtain rfl := Option.some.inj hj
    have hgs : gradStore h x = some j'.data := by simp [gradStore, h1', hg, hj']
    obtain ⟨y, y1, _, y3, y4⟩ := hI.ownerFrom (x + 1) x (by omega) hx hgs
    obtain ⟨iy, _, hiy, _⟩ := hI.reads y y1
    obtain ⟨s', hs', _⟩ := hI.cells y iy _ y1 y3 hiy y4
    rw [he.st _ s' hs'] at hs
    obtain rfl := Option.some.inj hs
    exact h2 g j' s' hg hj' hs'

omit [FOps F] in
theorem Spec.Values.extends {x : Nat} {s : List Nat} {a : List Nat → F} (hv : Values h x s a) (he : Extends h H) : Values H x s a := by
  obtain ⟨dt, f, hd, ha⟩ := hv
  exact ⟨dt, f, hd.of_extends he, ha⟩

theorem Spec.TrainBase.extends {ws ds : List Nat} {rate : Nat} {c : F} (hh : History h) (hI : Inv h V) (hV : ∀ x ∈ ws ++ rate :: ds, V x)
    (hB : TrainBase h ws rate c ds) (he : Extends h H) (ha : AK false h H) : TrainBase H ws rate c ds :=
  hB.keep (valid_history hh) (fun x hx => by
    obtain ⟨i, _, hi, _⟩ := hI.reads x (hV x hx)
    have := he.ts x i hi
    exact ⟨i, i, hi, this, rfl, rfl, rfl, by rw [opOf_eq hi, opOf_eq this]⟩)
    (fun d hd => (ha.grads (valid_history hh) d hd).imp id And.right) (hB.value.extends he)

variable [Exact F]

theorem squares_objective (w x y rate : Nat) (c : F) (s : List Nat) (a : Nat → List Nat → F) :
    Objective (sumOfSquares w x y) [w] rate c [x, y] (fun _ => s) a
      (fun θ v idx => 2 * a x idx * (θ v idx * a x idx - a y idx)) := by
  intro h θ hf hB hw hd
  have hh := forward_history hf
  obtain ⟨V, hV, hI⟩ := forward_inv hf
  obtain ⟨hw1, hw2⟩ := hw w (by simp)
  have hx1 := hd x (by simp)
  have hy1 := hd y (by simp)
  have hVw := hV w (by simp)
  have hVx := hV x (by simp)
  have hVy := hV y (by simp)
  obtain ⟨hreq, hsm⟩ := hB.params w (by simp)
  rw [hw1.shape] at hsm
  simp only at hw1 hx1 hy1 hsm
  have hbs := broadcasts_self s
  have hN0 : Inner h ([w, x] ++ [y]) := inner_leaves (fun z hz => hB.leaf z (by simp at hz ⊢; tauto)) fun z hz => by
    simp only [List.cons_append, List.nil_append, List.mem_cons, List.not_mem_nil, or_false] at hz
    rcases hz with rfl | rfl | rfl
    · rw [hw1.shape]; exact hsm
    · rw [hx1.shape]; exact hsm
    · rw [hy1.shape]; exact hsm
  -- the product
  obtain ⟨h1, e1, st1⟩ := hI.arith_step (op := .mul) hVw hVx (s := s) (by rw [hw1.shape, hx1.shape]; exact hbs) hsm (.inl hreq)
  have F1 : Forward h1 (h.ts.length :: ([w] ++ rate :: [x, y])) :=
    hf.returns (c := .mul w x) ⟨s, by rw [hw1.shape, hx1.shape]; exact hbs, hsm⟩ (by simp [args]) (some'_ok (x := mulT w x) e1)
  have A1 : AK false h h1 := (ak_run (.mul w x)).ok (some'_ok (x := mulT w x) e1)
  obtain ⟨V1, hV1, hI1⟩ := forward_inv F1
  have N1 : Inner h1 ([h.ts.length, y] ++ []) := st1.inner hI (l := [y]) (by simp [hVw, hVx, hVy]) hN0 hsm (by simp [arithBack]) (by simp [arithBack])
  -- the difference
  have hb1 : Broadcasts (shapeOf h1 h.ts.length) (shapeOf h1 y) s := by rw [st1.shape, (hy1.extends st1.ext).shape]; exact hbs
  obtain ⟨h2, e2, st2⟩ := hI1.arith_step (op := .sub) (hV1 _ (by simp)) (hV1 y (by simp)) hb1 hsm (.inl st1.req)
  have F2 : Forward h2 (h1.ts.length :: h.ts.length :: ([w] ++ rate :: [x, y])) :=
    F1.returns (c := .sub h.ts.length y) ⟨s, hb1, hsm⟩ (by simp [args]) (some'_ok (x := subT h.ts.length y) e2)
  have A2 : AK false h1 h2 := (ak_run (.sub h.ts.length y)).ok (some'_ok (x := subT h.ts.length y) e2)
  obtain ⟨V2, hV2, hI2⟩ := forward_inv F2
  have N2 : Inner h2 ([h1.ts.length, h1.ts.length] ++ []) := by
    have := st2.inner hI1 (l := []) (by simp [hV1]) N1 hsm (by simp [arithBack]) (by simp [arithBack])
    exact this.mono (by simp)
  -- the square
  have hb2 : Broadcasts (shapeOf h2 h1.ts.length) (shapeOf h2 h1.ts.length) s := by rw [st2.shape]; exact hbs
  obtain ⟨h3, e3, st3⟩ := hI2.arith_step (op := .mul) (hV2 _ (by simp)) (hV2 h1.ts.length (by simp)) hb2 hsm (.inl st2.req)
  have F3 : Forward h3 (h2.ts.length :: h1.ts.length :: h.ts.length :: ([w] ++ rate :: [x, y])) :=
    F2.returns (c := .mul h1.ts.length h1.ts.length) ⟨s, hb2, hsm⟩ (by simp [args]) (some'_ok (x := mulT _ _) e3)
  have A3 : AK false h2 h3 := (ak_run (.mul h1.ts.length h1.ts.length)).ok (some'_ok (x := mulT _ _) e3)
  obtain ⟨V3, hV3, hI3⟩ := forward_inv F3
  have N3 : Inner h3 [h2.ts.length] := st3.inner hI2 (l := []) (by simp [hV2]) N2 hsm (by simp [arithBack]) (by simp [arithBack])
  -- the sum
  have hvol : vol (shapeOf h3 h2.ts.length) < 9223372036854775808 := by
    rw [st3.shape]
    have := hsm
    unfold Spec.Small at this
    have e8 : DType.f64.size = 8 := rfl
    rw [e8] at this
    omega
  obtain ⟨h4, e4, st4⟩ := hI3.sum_step (hV3 h2.ts.length (by simp)) st3.req hvol
  have F4 : Forward h4 (h3.ts.length :: h2.ts.length :: h1.ts.length :: h.ts.length :: ([w] ++ rate :: [x, y])) :=
    F3.returns (c := .sum h2.ts.length) hvol (by simp [args]) (some'_ok (x := sumT _) e4)
  have A4 : AK false h3 h4 := (ak_run (.sum h2.ts.length)).ok (some'_ok (x := sumT _) e4)
  obtain ⟨V4, hV4, hI4⟩ := forward_inv F4
  have hS : Smooth h4 h3.ts.length := st4.smooth hI3 (by simp [hV3]) N3 (by unfold Spec.Small; decide) (by simp) (by simp) (by simp)
  have x04 := ((st1.ext.trans st2.ext).trans st3.ext).trans st4.ext
  have A04 : AK false h h4 := Pre.trans (R := AK false) (Pre.trans (R := AK false) (Pre.trans (R := AK false) A1 A2) A3) A4
  have hB4 := hB.extends hh hI hV x04 A04
  have hst : Starts h4 h3.ts.length := ⟨st4.req, st4.interior, by rw [st4.shape]; rfl, hS⟩
  refine ⟨h3.ts.length, h4, _, ?_, F4, by simp, hst, hB4, fun v hv => ?_, fun z hz => (hd z hz).extends x04⟩
  · unfold sumOfSquares
    rw [M.bind_ok (show mulT w x h = _ from e1), M.bind_ok (show subT _ y h1 = _ from e2), M.bind_ok (show mulT _ _ h2 = _ from e3), e4]
  obtain rfl : v = w := by simpa using hv
  have hop : ∀ {g g' : Heap F} {z : Nat} {k : BackKind} {ins r : List Nat}, Stepped g g' z k ins r → Extends g' h4 →
      opOf h4 z = some ⟨k, ins, 0, 0, 0⟩ ∧ shapeOf h4 z = r := fun st ex => by
    obtain ⟨dt, v, d, hp, hv, _⟩ := st.obj
    have := ex.ts _ _ hp
    exact ⟨by rw [opOf_eq this], by rw [shapeOf_eq this]; exact hv⟩
  obtain ⟨o1, s1⟩ := hop st1 ((st2.ext.trans st3.ext).trans st4.ext)
  obtain ⟨o2, s2⟩ := hop st2 (st3.ext.trans st4.ext)
  obtain ⟨o3, s3⟩ := hop st3 st4.ext
  obtain ⟨o4, s4⟩ := hop st4 (Extends.refl _)
  have hv4 := hw1.extends x04
  have hx4 := hx1.extends x04
  have hy4 := hy1.extends x04
  have f3 : From h4 h3.ts.length h2.ts.length := .step .root (by unfold Uses operands; rw [o4]; simp)
  have f2 : From h4 h3.ts.length h1.ts.length := .step f3 (by unfold Uses operands; rw [o3]; simp)
  have f1 : From h4 h3.ts.length h.ts.length := .step f2 (by unfold Uses operands; rw [o2]; simp)
  have fy : From h4 h3.ts.length y := .step f2 (by unfold Uses operands; rw [o2]; simp)
  have fx : From h4 h3.ts.length x := .step f1 (by unfold Uses operands; rw [o1]; simp)
  have fv : From h4 h3.ts.length v := .step f1 (by unfold Uses operands; rw [o1]; simp)
  have hleaf : Leaf h4 h3.ts.length v := by
    obtain ⟨dt, f, ⟨i, hi, _⟩, _⟩ := id hv4
    have := (hB4.params v (by simp)).1
    rw [requiresGrad_eq hi] at this
    exact ⟨⟨fv, i, hi, this⟩, (hB4.leaf v (by simp)).1⟩
  refine ⟨hleaf, hv4, hI.grad_kept x04 hVw hw2, fun idx hidx => ⟨fun _ => ?_, fun hc => absurd hleaf hc⟩⟩
  obtain ⟨u, hl, hdir⟩ := exists_direction hI4 (hV4 _ (by simp)) hS v idx
  refine ⟨u, [], hl, hdir, by rw [s4]; trivial, ?_⟩
  have hfst : ∀ z b, From h4 h3.ts.length z → Values h4 z s b → ∀ k, InBox s k → (u z k).fst = b k := fun z b hz ⟨dt, f, ⟨i, hi, k1, k2, hr⟩, hb⟩ k hk => by
    obtain ⟨f', hr', hu⟩ := hl.value z i hz hi
    rw [← k2] at hk
    rw [hu k hk, reads_unique hr' hr hk, hb k (by rw [← k2]; exact hk)]
  have hsnd : ∀ z ∈ [x, y], From h4 h3.ts.length z → Values h4 z s (a z) → ∀ k, InBox s k → (u z k).snd = 0 := fun z hz hfz hvz k hk => by
    obtain ⟨dt, f, ⟨i, hi, _, k2, _⟩, _⟩ := id hvz
    cases hq : i.requiresGrad with
    | false => exact hl.const z i hfz hi hq k (by rw [k2]; exact hk)
    | true =>
      refine (hdir z ⟨⟨hfz, i, hi, hq⟩, (hB4.leaf z (by simp at hz ⊢; tauto)).1⟩ k (by rw [hvz.shape]; exact hk)).2 fun hc => ?_
      exact hB4.others z (List.mem_cons_of_mem _ hz) v (by simp) ⟨i, i, hi, hc.1 ▸ hi, rfl⟩
  have c1 : ∀ k, InBox s k → u h.ts.length k = u v k * u x k := fun k hk => by
    have := (hl.op _ _ f1 o1).2 k (by rw [s1]; exact hk)
    rwa [hv4.shape, hx4.shape, project_self hk] at this
  have c2 : ∀ k, InBox s k → u h1.ts.length k = u h.ts.length k - u y k := fun k hk => by
    have := (hl.op _ _ f2 o2).2 k (by rw [s2]; exact hk)
    rwa [s1, hy4.shape, project_self hk] at this
  have c3 : ∀ k, InBox s k → u h2.ts.length k = u h1.ts.length k * u h1.ts.length k := fun k hk => by
    have := (hl.op _ _ f3 o3).2 k (by rw [s3]; exact hk)
    rwa [s2, project_self hk] at this
  have c4 := (hl.op _ _ .root o4).2
  rw [s3] at c4
  rw [c4, snd_boxSum]
  have hval : ∀ k, InBox s k → (u h2.ts.length k).snd = 2 * a x k * (θ v k * a x k - a y k) * (u v k).snd := fun k hk => by
    rw [c3 k hk, c2 k hk, c1 k hk]
    simp only [DualNumber.snd_mul, TrivSqZeroExt.fst_sub, TrivSqZeroExt.snd_sub, TrivSqZeroExt.fst_mul]
    rw [hfst v (θ v) fv hv4 k hk, hfst x (a x) fx hx4 k hk, hfst y (a y) fy hy4 k hk, hsnd x (by simp) fx hx4 k hk, hsnd y (by simp) fy hy4 k hk]
    ring
  have hvs : shapeOf h4 v = s := hv4.shape
  rw [boxSum_single hidx _ fun k hk hne => by
      rw [hval k hk, (hdir v hleaf k (by rw [hvs]; exact hk)).2 (fun hc => hne hc.2), mul_zero],
    hval idx hidx, (hdir v hleaf idx (by rw [hvs]; exact hidx)).1 rfl rfl, mul_one]

end INNC
