import Verif.Lemmas.Accumulate
/-
One more operation on the result of a computation: the premises of `backward()`, and the dual numbers.
-/
namespace INNC
open Spec Tensor DualNumber
variable {F : Type} [Field F] [FOps F] {h h1 : Heap F} {V : Nat → Prop} {p : Nat} {kind : BackKind} {ins s : List Nat}

/-- `p` is the result, of shape `s`, of an operation on `ins`, of which one requires grad. -/
structure Stepped (h h1 : Heap F) (p : Nat) (kind : BackKind) (ins s : List Nat) : Prop where
  ext : Extends h h1
  new : h.ts.length ≤ p
  obj : ∃ dt v d, h1.ts[p]? = some ⟨dt, v, d, none, true, false, some ⟨kind, ins, 0, 0, 0⟩⟩ ∧ v.sizes = s ∧ h.st.length ≤ d
  slope : ∀ k i, kind = .knownGrad k → h1.ts[k]? = some i → h.st.length ≤ i.data

theorem Stepped.op (st : Stepped h h1 p kind ins s) : opOf h1 p = some ⟨kind, ins, 0, 0, 0⟩ := by
  obtain ⟨dt, v, d, hp, _⟩ := st.obj
  rw [opOf_eq hp]

theorem Stepped.shape (st : Stepped h h1 p kind ins s) : shapeOf h1 p = s := by
  obtain ⟨dt, v, d, hp, hv, _⟩ := st.obj
  rw [shapeOf_eq hp]; exact hv

theorem Stepped.req (st : Stepped h h1 p kind ins s) : requiresGrad h1 p = true := by
  obtain ⟨dt, v, d, hp, _⟩ := st.obj
  rw [requiresGrad_eq hp]

theorem Stepped.interior (st : Stepped h h1 p kind ins s) : Interior h1 p := by
  unfold Interior
  rw [st.op]; rfl

theorem Stepped.noGrad (st : Stepped h h1 p kind ins s) : gradStore h1 p = none := by
  obtain ⟨dt, v, d, hp, _⟩ := st.obj
  simp [gradStore, hp]

theorem Stepped.noView (st : Stepped h h1 p kind ins s) (hk : kind ≠ .noBack) : ¬ IsView h1 p := by
  rintro ⟨g, hg, e⟩
  rw [st.op] at hg
  obtain rfl := Option.some.inj hg
  exact hk e

theorem Stepped.from (st : Stepped h h1 p kind ins s) {x : Nat} : From h1 p x ↔ x = p ∨ ∃ a ∈ ins, From h1 a x := by
  constructor
  · intro hx
    induction hx with
    | root => exact .inl rfl
    | step _ hu ih =>
      rcases ih with rfl | ⟨a, ha, hf⟩
      · unfold Uses operands at hu
        rw [st.op] at hu
        exact .inr ⟨_, hu, .root⟩
      · exact .inr ⟨a, ha, .step hf hu⟩
  · rintro (rfl | ⟨a, ha, hf⟩)
    · exact .root
    · exact (From.step .root (by unfold Uses operands; rw [st.op]; exact ha)).trans hf

theorem Inv.op_ext (hI : Inv h V) (he : Extends h h1) {x : Nat} (hx : V x) : opOf h1 x = opOf h x := by
  unfold opOf; rw [hI.at_ext he hx]

theorem Inv.agree_ext (hI : Inv h V) (he : Extends h h1) {y : Nat} (hy : V y) : Agree h h1 y where
  same := fun x hx => by
    obtain ⟨i, i', q1, q2, q3, q4, q5, q6, _⟩ := hI.same_ext he (hI.from hy hx).1
    rw [hI.at_ext he (hI.from hy hx).1, q1] at q2
    obtain rfl := Option.some.inj q2
    exact ⟨i, i, q1, by rw [hI.at_ext he (hI.from hy hx).1]; exact q1, rfl, rfl, rfl, rfl, q6⟩
  op := fun x hx => by unfold opOf; rw [hI.at_ext he (hI.from hy hx).1]
  slope := fun x g k hx hg hk => by
    obtain ⟨i, f, hi, hr⟩ := hI.slopes (hI.from hy hx).1 hg hk
    obtain ⟨s, c, hs, _⟩ := hr.cells
    exact ⟨i, i, hi, he.ts k i hi, rfl, rfl, rfl, rfl, by rw [hs, he.st _ s hs]⟩

theorem Stepped.core (st : Stepped h h1 p kind ins s) (hI : Inv h V) {l : List Nat} (hV : ∀ a ∈ ins ++ l, V a) (hN : Inner h (ins ++ l))
    (hs : Spec.Small s .f64)
    (hq : ∀ a b, kind = .div → ins = [a, b] → shapeOf h b = s ∧ requiresGrad h a = true ∧ requiresGrad h b = true ∧
      ∀ i f idx, h.ts[b]? = some i → Reads h i f → InBox i.view.sizes idx → real (f idx) ≠ 0)
    (hm : ∀ a, kind = .mean → ins = [a] → (vol (shapeOf h a) : F) ≠ 0) :
    ∀ x, (∃ t ∈ p :: l, From h1 t x) → (∀ i, h1.ts[x]? = some i → Spec.Small i.view.sizes i.dtype) ∧
      (∀ g a b, opOf h1 x = some g → g.kind = .div → g.inputs = [a, b] →
        shapeOf h1 b = shapeOf h1 x ∧ requiresGrad h1 a = true ∧ requiresGrad h1 b = true ∧
        ∀ i f idx, h1.ts[b]? = some i → Reads h1 i f → InBox i.view.sizes idx → real (f idx) ≠ 0) ∧
      (∀ g, opOf h1 x = some g → g.kind = .mean → x = p ∧ kind = .mean ∧ ∀ a, g.inputs = [a] → (vol (shapeOf h1 a) : F) ≠ 0) ∧
      ∀ d, gradStore h1 x = some d → ∀ t' ∈ p :: l, ¬ ReadStore h1 t' d := by
  have hag := fun a ha => hI.agree_ext st.ext (hV a ha)
  have hV' : ∀ a ∈ ins, V a := fun a ha => hV a (List.mem_append_left _ ha)
  have hfrom : ∀ x, (∃ t ∈ p :: l, From h1 t x) → x = p ∨ ∃ a ∈ ins ++ l, From h a x ∧ V x := by
    rintro x ⟨t, ht, hx⟩
    rcases List.mem_cons.1 ht with rfl | ht
    · rcases st.from.1 hx with rfl | ⟨a, ha, hx⟩
      · exact .inl rfl
      · have ha := List.mem_append_left l ha
        have := (hag a ha).froms.1 hx
        exact .inr ⟨a, ha, this, (hI.from (hV a ha) this).1⟩
    · have ht := List.mem_append_right ins ht
      have := (hag t ht).froms.1 hx
      exact .inr ⟨t, ht, this, (hI.from (hV t ht) this).1⟩
  intro x hx
  refine ⟨fun i hi => ?_, fun g a b hg hk hi => ?_, fun g hg hk => ?_, fun d hd t' ht' hr => ?_⟩
  · rcases hfrom x hx with rfl | ⟨a, ha, hx, hVx⟩
    · obtain ⟨dt, v, d, hp, e, _⟩ := st.obj
      rw [hp] at hi
      obtain rfl := Option.some.inj hi
      show Spec.Small v.sizes dt
      rw [e]
      exact small_of_f64 hs dt
    · rw [hI.at_ext st.ext hVx] at hi
      exact hN.small a ha x i hx hi
  · have conv : ∀ {y : Nat} {s' : List Nat}, V b → shapeOf h b = s' → V a → (requiresGrad h a = true ∧ requiresGrad h b = true ∧
        ∀ i f idx, h.ts[b]? = some i → Reads h i f → InBox i.view.sizes idx → real (f idx) ≠ 0) →
        shapeOf h1 b = s' ∧ requiresGrad h1 a = true ∧ requiresGrad h1 b = true ∧
        ∀ i f idx, h1.ts[b]? = some i → Reads h1 i f → InBox i.view.sizes idx → real (f idx) ≠ 0 := by
      intro _ _ hb hs' ha ⟨q1, q2, q3⟩
      refine ⟨by rw [(hI.same_ext st.ext hb).shape]; exact hs', (hI.same_ext st.ext ha).req q1, (hI.same_ext st.ext hb).req q2,
        fun i f idx hi hf hb' => ?_⟩
      rw [hI.at_ext st.ext hb] at hi
      obtain ⟨i', f', hi', hf'⟩ := hI.reads b hb
      rw [hi] at hi'
      obtain rfl := Option.some.inj hi'
      rw [reads_unique hf (hf'.of_extends st.ext) hb']
      exact q3 i f' idx hi hf' hb'
    rcases hfrom x hx with rfl | ⟨a', ha', hx, hVx⟩
    · rw [st.op] at hg
      obtain rfl := Option.some.inj hg
      simp only at hk hi
      obtain ⟨q1, q2⟩ := hq a b hk hi
      rw [st.shape]
      exact conv (y := 0) (hV' b (by rw [hi]; simp)) q1 (hV' a (by rw [hi]; simp)) q2
    · rw [hI.op_ext st.ext hVx] at hg
      obtain ⟨q1, q2⟩ := hN.quotient a' ha' x g a b hx hg hk hi
      have hin := (hI.ops x g hVx hg).2.2.1
      rw [hi] at hin
      rw [(hI.same_ext st.ext hVx).shape]
      exact conv (y := 0) (hin b (by simp)).1 q1 (hin a (by simp)).1 q2
  · rcases hfrom x hx with rfl | ⟨a', ha', hx, hVx⟩
    · rw [st.op] at hg
      obtain rfl := Option.some.inj hg
      simp only at hk
      refine ⟨rfl, hk, fun a hi => ?_⟩
      simp only at hi
      rw [(hI.same_ext st.ext (hV' a (by rw [hi]; simp))).shape]
      exact hm a hk hi
    · rw [hI.op_ext st.ext hVx] at hg
      exact absurd hk (hN.mean a' ha' x g hx hg)
  · rcases hfrom x hx with rfl | ⟨a, ha, hx, hVx⟩
    · rw [st.noGrad] at hd; simp at hd
    · rw [hI.gradStore_ext st.ext hVx] at hd
      have hlt : d < h.st.length := by
        obtain ⟨y, h1, _, h3, h4⟩ := hI.ownerFrom (x + 1) x (by omega) hVx hd
        obtain ⟨i, _, hi, _⟩ := hI.reads y h1
        obtain ⟨s, hs, _⟩ := hI.cells y i d h1 h3 hi h4
        exact getElem?_lt hs
      rcases hr with ⟨y, i, hy, hi, rfl⟩ | ⟨y, g, k, i, hy, hg, hk, hi, rfl⟩
      · rcases hfrom y ⟨t', ht', hy⟩ with rfl | ⟨b, hb, hy, hVy⟩
        · obtain ⟨dt, v, d, hp, e, hle⟩ := st.obj
          rw [hp] at hi
          obtain rfl := Option.some.inj hi
          simp only at hlt
          omega
        · rw [hI.at_ext st.ext hVy] at hi
          exact hN.alone a ha x _ hx hd b hb (.inl ⟨y, i, hy, hi, rfl⟩)
      · rcases hfrom y ⟨t', ht', hy⟩ with rfl | ⟨b, hb, hy, hVy⟩
        · rw [st.op] at hg
          obtain rfl := Option.some.inj hg
          have := st.slope k i hk hi
          omega
        · rw [hI.op_ext st.ext hVy] at hg
          obtain ⟨i', f, hi', _⟩ := hI.slopes hVy hg hk
          have e := st.ext.ts k i' hi'
          rw [hi] at e
          obtain rfl := Option.some.inj e
          exact hN.alone a ha x _ hx hd b hb (.inr ⟨y, g, k, i, hy, hg, hk, hi', rfl⟩)

theorem Stepped.smooth (st : Stepped h h1 p kind ins s) (hI : Inv h V) (hV : ∀ a ∈ ins, V a) (hN : Inner h ins)
    (hs : Spec.Small s .f64) (hv : kind ≠ .noBack)
    (hq : ∀ a b, kind = .div → ins = [a, b] → shapeOf h b = s ∧ requiresGrad h a = true ∧ requiresGrad h b = true ∧
      ∀ i f idx, h.ts[b]? = some i → Reads h i f → InBox i.view.sizes idx → real (f idx) ≠ 0)
    (hm : ∀ a, kind = .mean → ins = [a] → (vol (shapeOf h a) : F) ≠ 0) : Smooth h1 p := by
  have key := fun x hx => st.core (l := []) hI (by simpa using hV) (by simpa using hN) hs hq hm x ⟨p, by simp, hx⟩
  exact ⟨st.noView hv, fun x i hx hi => (key x hx).1 i hi, fun x g a b hx hg hk hi => (key x hx).2.1 g a b hg hk hi,
    fun x g a hx hg hk hi => ⟨((key x hx).2.2.1 g hg hk).1, ((key x hx).2.2.1 g hg hk).2.2 a hi⟩,
    fun x d hx hd => (key x hx).2.2.2 d hd p (by simp)⟩

theorem Stepped.inner (st : Stepped h h1 p kind ins s) (hI : Inv h V) {l : List Nat} (hV : ∀ a ∈ ins ++ l, V a) (hN : Inner h (ins ++ l))
    (hs : Spec.Small s .f64)
    (hq : ∀ a b, kind = .div → ins = [a, b] → shapeOf h b = s ∧ requiresGrad h a = true ∧ requiresGrad h b = true ∧
      ∀ i f idx, h.ts[b]? = some i → Reads h i f → InBox i.view.sizes idx → real (f idx) ≠ 0)
    (hm : kind ≠ .mean) : Inner h1 (p :: l) := by
  have key := fun t ht x hx => st.core hI hV hN hs hq (fun a e => absurd e hm) x ⟨t, ht, hx⟩
  exact ⟨fun t ht x i hx hi => (key t ht x hx).1 i hi, fun t ht x g a b hx hg hk hi => (key t ht x hx).2.1 g a b hg hk hi,
    fun t ht x g hx hg hk => hm ((key t ht x hx).2.2.1 g hg hk).2.1,
    fun t ht x d hx hd => (key t ht x hx).2.2.2 d hd⟩

/-! ### Dual numbers -/

theorem computed_root {t t' x : Nat} {u : Nat → List Nat → DualNumber F} {k : BackKind} (hk : k ≠ .mean)
    (hn : ∀ a ∈ ins, Needs h t a → Needs h t' a) (hc : Computed h t u x k ins) : Computed h t' u x k ins := by
  unfold Computed at hc ⊢
  split at hc
  case h_4 => exact ⟨hc.1, hc.2.1, hn _ (by simp) hc.2.2.1, hn _ (by simp) hc.2.2.2.1, hc.2.2.2.2⟩
  case h_6 => exact absurd rfl hk
  all_goals exact hc

/-- The computation of a part of the graph. -/
theorem Spec.Lift.part {t y : Nat} {u : Nat → List Nat → DualNumber F} (hl : Lift h t u) (hy : From h t y)
    (hm : ∀ x g, From h y x → opOf h x = some g → g.kind ≠ .mean) : Lift h y u where
  value := fun x i hx hi => hl.value x i (hy.trans hx) hi
  const := fun x i hx hi => hl.const x i (hy.trans hx) hi
  op := fun x g hx hg => computed_root (hm x g hx hg)
    (fun a ha hn => ⟨.step hx (by unfold Uses operands; rw [hg]; exact ha), hn.2⟩) (hl.op x g (hy.trans hx) hg)

theorem Inv.const_leaf (hI : Inv h V) {a : Nat} (ha : V a) (hr : requiresGrad h a = false) : ¬ Interior h a := fun hc => by
  unfold Interior at hc
  cases hg : opOf h a with
  | none => rw [hg] at hc; simp at hc
  | some g => rw [(hI.ops a g ha hg).1] at hr; simp at hr

open Classical in
theorem Stepped.lift (st : Stepped h h1 p kind ins s) (hI : Inv h V) (hV : ∀ a ∈ ins, V a) {V1 : Nat → Prop} (hI1 : Inv h1 V1)
    (hp : V1 p) {y : Nat} (hy : y ∈ ins) (hc : ∀ a ∈ ins, a ≠ y → requiresGrad h a = false)
    (hm : ∀ x g, From h y x → opOf h x = some g → g.kind ≠ .mean) {u : Nat → List Nat → DualNumber F} (hl : Lift h y u)
    (W : List Nat → DualNumber F) (hW : ∀ idx, InBox s idx → (W idx).fst = valOf h1 p idx)
    (hcomp : ∀ u' : Nat → List Nat → DualNumber F, u' p = W → u' y = u y →
      (∀ a ∈ ins, a ≠ y → ∀ idx, InBox (shapeOf h a) idx → u' a idx = dn (valOf h a idx) 0) → Computed h1 p u' p kind ins) :
    ∃ u', Lift h1 p u' ∧ (∀ x, From h y x → u' x = u x) ∧ u' p = W := by
  have hyV := hV y hy
  have hne : ∀ x, V x → x ≠ p := fun x hx e => by
    obtain ⟨i, _, hi, _⟩ := hI.reads x hx
    have := getElem?_lt hi
    have := st.new
    omega
  have hag := fun a ha => hI.agree_ext st.ext (hV a ha)
  let u' : Nat → List Nat → DualNumber F := fun x =>
    if x = p then W else if From h y x then u x else fun idx => dn (valOf h x idx) 0
  have hp' : u' p = W := by simp [u']
  have hin : ∀ x, From h y x → u' x = u x := fun x hx => by simp [u', hne x (hI.from hyV hx).1, hx]
  have hout : ∀ x, V x → ¬ From h y x → u' x = fun idx => dn (valOf h x idx) 0 := fun x hx hn => by simp [u', hne x hx, hn]
  have hfrom : ∀ x, From h1 p x → x = p ∨ V x ∧ (From h y x ∨ ¬ From h y x ∧ ¬ Interior h x) := fun x hx => by
    rcases st.from.1 hx with rfl | ⟨a, ha, hx⟩
    · exact .inl rfl
    · have hx := (hag a ha).froms.1 hx
      refine .inr ⟨(hI.from (hV a ha) hx).1, ?_⟩
      by_cases hfy : From h y x
      · exact .inl hfy
      · refine .inr ⟨hfy, ?_⟩
        have hay : a ≠ y := by rintro rfl; exact hfy hx
        have hleaf := hI.const_leaf (hV a ha) (hc a ha hay)
        rw [from_leaf hleaf hx]
        exact hleaf
  refine ⟨u', ⟨fun x i hx hi => ?_, fun x i hx hi hr idx hb => ?_, fun x g hx hg => ?_⟩, hin, hp'⟩
  · rcases hfrom x hx with rfl | ⟨hVx, hf | hf⟩
    · obtain ⟨j, f, hj, hr⟩ := hI1.reads x hp
      rw [hi] at hj
      obtain rfl := Option.some.inj hj
      refine ⟨f, hr, fun idx hb => ?_⟩
      rw [hp', hW idx (by rw [← st.shape, shapeOf_eq hi]; exact hb), valOf_reads hi hr hb]
    · rw [hI.at_ext st.ext hVx] at hi
      obtain ⟨f, hr, hf'⟩ := hl.value x i hf hi
      exact ⟨f, hr.of_extends st.ext, fun idx hb => by rw [hin x hf]; exact hf' idx hb⟩
    · rw [hI.at_ext st.ext hVx] at hi
      obtain ⟨j, f, hj, hr⟩ := hI.reads x hVx
      rw [hi] at hj
      obtain rfl := Option.some.inj hj
      exact ⟨f, hr.of_extends st.ext, fun idx hb => by rw [hout x hVx hf.1, dn_fst, valOf_reads hi hr hb]⟩
  · rcases hfrom x hx with rfl | ⟨hVx, hf | hf⟩
    · have := st.req
      rw [requiresGrad_eq hi, hr] at this
      exact absurd this (by decide)
    · rw [hI.at_ext st.ext hVx] at hi
      rw [hin x hf]
      exact hl.const x i hf hi hr idx hb
    · rw [hout x hVx hf.1, dn_snd]
  · rcases hfrom x hx with rfl | ⟨hVx, hf | hf⟩
    · rw [st.op] at hg
      obtain rfl := Option.some.inj hg
      refine hcomp u' hp' (hin y .root) fun a ha hay idx hb => ?_
      by_cases hfa : From h y a
      · obtain ⟨i, f, hi, hr⟩ := hI.reads a (hV a ha)
        have hra := hc a ha hay
        rw [requiresGrad_eq hi] at hra
        rw [shapeOf_eq hi] at hb
        obtain ⟨f', hr', hv⟩ := hl.value a i hfa hi
        rw [hin a hfa]
        exact (dn_eq (by rw [hv idx hb, valOf_reads hi hr' hb]) (hl.const a i hfa hi hra idx hb).symm).symm
      · rw [hout a (hV a ha) hfa]
    · have hgh := hg
      rw [hI.op_ext st.ext hVx] at hg
      have hc1 := (hag y hy).computed hf hg (hl.op x g hf hg)
      refine computed_congr (hin x hf) (fun a ha => hin a (.step hf (by unfold Uses operands; rw [hg]; exact ha))) ?_
      refine computed_root (hm x g hf hg) (fun a _ hn => ⟨?_, hn.2⟩) hc1
      exact st.from.2 (.inr ⟨y, hy, hn.1⟩)
    · exfalso
      apply hf.2
      unfold Interior at *
      unfold opOf at hg ⊢
      rw [← hI.at_ext st.ext hVx, hg]; rfl

theorem Stepped.leaf (st : Stepped h h1 p kind ins s) (hI : Inv h V) (hV : ∀ a ∈ ins, V a) {y : Nat} (hy : y ∈ ins)
    (hc : ∀ a ∈ ins, a ≠ y → requiresGrad h a = false) {x : Nat} : Leaf h1 p x ↔ Leaf h y x := by
  have ag := hI.agree_ext st.ext (hV y hy)
  constructor
  · rintro ⟨⟨hx, hr⟩, hn⟩
    rcases st.from.1 hx with rfl | ⟨a, ha, hx⟩
    · exact absurd st.interior hn
    · by_cases hay : a = y
      · subst hay
        exact ag.leaf.1 ⟨⟨hx, hr⟩, hn⟩
      · have hx := (hI.agree_ext st.ext (hV a ha)).froms.1 hx
        have := from_leaf (hI.const_leaf (hV a ha) (hc a ha hay)) hx
        subst this
        obtain ⟨i, hi, hr⟩ := hr
        have := hc x ha hay
        rw [hI.at_ext st.ext (hV x ha)] at hi
        rw [requiresGrad_eq hi, hr] at this
        exact absurd this (by decide)
  · intro hx
    have hx := ag.leaf.2 hx
    exact ⟨⟨st.from.2 (.inr ⟨y, hy, hx.1.1⟩), hx.1.2⟩, hx.2⟩

theorem Stepped.direction (st : Stepped h h1 p kind ins s) (hI : Inv h V) (hV : ∀ a ∈ ins, V a) {y : Nat} (hy : y ∈ ins)
    (hc : ∀ a ∈ ins, a ≠ y → requiresGrad h a = false) {u u' : Nat → List Nat → DualNumber F} (hu : ∀ x, From h y x → u' x = u x)
    {x : Nat} {idx : List Nat} : Direction h1 p u' x idx ↔ Direction h y u x idx := by
  have hsh : ∀ z, Leaf h y z → shapeOf h1 z = shapeOf h z := fun z hz => (hI.same_ext st.ext (hI.from (hV y hy) hz.1.1).1).shape
  constructor
  · intro hd z hz k hk
    rw [← hu z hz.1.1]
    exact hd z ((st.leaf hI hV hy hc).2 hz) k (by rw [hsh z hz]; exact hk)
  · intro hd z hz k hk
    have hz := (st.leaf hI hV hy hc).1 hz
    rw [hu z hz.1.1]
    exact hd z hz k (by rw [← hsh z hz]; exact hk)


/-! ### Operations -/

omit [Field F] [FOps F] in
theorem some'_ok {x : M F Nat} {t : Nat} (e : x h = .ok t h1) : some' x h = .ok (some t) h1 := by
  unfold some'
  rw [M.bind_ok e]; rfl

variable [Exact F]

theorem Inv.arith_step (hI : Inv h V) {op : AOp} {l r : Nat} (hl : V l) (hr : V r)
    (hb : Broadcasts (shapeOf h l) (shapeOf h r) s) (hs : Spec.Small s .f64)
    (hq : requiresGrad h l = true ∨ requiresGrad h r = true) :
    ∃ h1, arithT op l r h = .ok h.ts.length h1 ∧ Stepped h h1 h.ts.length (arithBack op) [l, r] s := by
  obtain ⟨li, fl, hli, hlr⟩ := hI.reads l hl
  obtain ⟨ri, fr, hri, hrr⟩ := hI.reads r hr
  rw [shapeOf_eq hli, shapeOf_eq hri] at hb
  rw [requiresGrad_eq hli, requiresGrad_eq hri] at hq
  have hff : li.dtype.isFloat = true ∨ ri.dtype.isFloat = true :=
    hq.imp (hI.float l li hl hli) (hI.float r ri hr hri)
  obtain ⟨h1, li', ri', j, e1, e2, e3, _, he, _, hj, j1, j2, j3, j4, j5, j6⟩ :=
    arith_ok (op := op) (F := F) ⟨li, hli, rfl, rfl, hlr⟩ ⟨ri, hri, rfl, rfl, hrr⟩ hb.1 hb.2 (small_of_f64 hs (later li.dtype ri.dtype))
      fun idx _ => elemBinary_exact op hff _ _
  rw [hli] at e1
  rw [hri] at e2
  obtain rfl := Option.some.inj e1
  obtain rfl := Option.some.inj e2
  have hor : (li.requiresGrad || ri.requiresGrad) = true := Bool.or_eq_true_iff.2 hq
  rw [hor] at j5 j6
  rw [if_pos rfl] at j6
  refine ⟨h1, e3, he, Nat.le_refl _, ⟨j.dtype, j.view, j.data, ?_, by rw [j3]; rfl, by omega⟩, fun k i hk => by cases op <;> simp [arithBack] at hk⟩
  rw [hj]
  obtain ⟨a1, a2, a3, a4, a5, a6, a7⟩ := j
  simp_all

omit [Exact F] in
theorem Built.stepped {x : Nat} {dt : DType} {f : List Nat → Val F} (bt : Built h h1 x dt s f (some ⟨kind, ins, 0, 0, 0⟩))
    (hx : h.ts.length ≤ x) (hk : ∀ k i, kind = .knownGrad k → h1.ts[k]? = some i → h.st.length ≤ i.data) :
    Stepped h h1 x kind ins s := by
  obtain ⟨d, hd, hle⟩ := bt.obj
  exact ⟨bt.ext, hx, ⟨dt, _, d, hd, rfl, hle⟩, hk⟩

theorem Inv.sum_step (hI : Inv h V) {t : Nat} (ht : V t) (hr : requiresGrad h t = true)
    (hs : vol (shapeOf h t) < 9223372036854775808) :
    ∃ h1, sumT t h = .ok h.ts.length h1 ∧ Stepped h h1 h.ts.length .sum [t] [] := by
  obtain ⟨i, f, hi, hf⟩ := hI.reads t ht
  rw [shapeOf_eq hi] at hs
  rw [requiresGrad_eq hi] at hr
  have h2 := sumT_out hi hf (by omega)
  rw [sumOf_exact (hI.float t i ht hi hr), hr, if_pos rfl] at h2
  obtain ⟨h1, e, bt⟩ := h2
  exact ⟨h1, e, bt.stepped (Nat.le_refl _) (by simp)⟩

theorem Inv.mean_step (hI : Inv h V) {t : Nat} (ht : V t) (hr : requiresGrad h t = true)
    (hs : vol (shapeOf h t) < 9223372036854775808) :
    ∃ h1, meanT t h = .ok h.ts.length h1 ∧ Stepped h h1 h.ts.length .mean [t] [] := by
  obtain ⟨i, f, hi, hf⟩ := hI.reads t ht
  rw [shapeOf_eq hi] at hs
  rw [requiresGrad_eq hi] at hr
  have h2 := meanT_out hi hf (by omega)
  rw [meanOf_exact (hI.float t i ht hi hr), hr, if_pos rfl] at h2
  obtain ⟨h1, e, bt⟩ := h2
  exact ⟨h1, e, bt.stepped (Nat.le_refl _) (by simp)⟩

/-- The gradient of a variable that was there before is what it was. -/
theorem Inv.grad_ext (hI : Inv h V) (he : Extends h h1) {x : Nat} (hx : V x) (hl : ¬ Interior h x) {a : List Nat → F}
    (ha : GradOrZero h1 x a) : GradOrZero h x a := by
  obtain ⟨b, hb⟩ := hI.gradOrZero hx hl
  obtain ⟨i, _, hi, _⟩ := hI.reads x hx
  have hsh := (hI.same_ext he hx).shape
  have hb1 : GradOrZero h1 x b := by
    rcases hb with ⟨i0, g, f, h1', h2, h3, h4⟩ | ⟨⟨i0, h1', h2⟩, h3⟩
    · exact .inl ⟨i0, g, f, he.ts _ _ h1', h2, h3.of_extends he, h4⟩
    · refine .inr ⟨⟨i0, he.ts _ _ h1', fun g j s hg hj hs => ?_⟩, by rw [hsh]; exact h3⟩
      obtain ⟨j', hj', _⟩ := hI.grad x i0 g hx h1' hg
      rw [he.ts g j' hj'] at hj
      obtain rfl := Option.some.inj hj
      have hgs : gradStore h x = some j'.data := by simp [gradStore, h1', hg, hj']
      obtain ⟨y, y1, _, y3, y4⟩ := hI.ownerFrom (x + 1) x (by omega) hx hgs
      obtain ⟨iy, _, hiy, _⟩ := hI.reads y y1
      obtain ⟨s', hs', _⟩ := hI.cells y iy _ y1 y3 hiy y4
      rw [he.st _ s' hs'] at hs
      obtain rfl := Option.some.inj hs
      exact h2 g j' s' hg hj' hs'
  have key : ∀ idx, InBox (shapeOf h x) idx → b idx = a idx := fun idx hidx =>
    gradOrZero_unique hb1 ha (by rw [hsh]; exact hidx)
  rcases hb with ⟨i0, g, f, h1', h2, h3, h4⟩ | ⟨h2, h3⟩
  · refine .inl ⟨i0, g, f, h1', h2, h3, fun idx hidx => ?_⟩
    rw [h4 idx hidx, key idx (by rw [shapeOf_eq h1']; exact hidx)]
  · exact .inr ⟨h2, fun idx hidx => by rw [← key idx hidx]; exact h3 idx hidx⟩


/-! ### max and min -/

omit [Field F] [Exact F] in
theorem foldl_pick_keep {keep : COp} {T : DType} {f : List Nat → Val F} {a : Val F × List Nat} : ∀ (l : List (List Nat)),
    (∀ x ∈ l, elemCompare keep T T a.1 (f x) = true) → l.foldl (pick keep T f) a = a
  | [], _ => rfl
  | x :: l, hl => by
    rw [List.foldl_cons, show pick keep T f a x = a by unfold pick; rw [if_pos (hl x (by simp))]]
    exact foldl_pick_keep l fun y hy => hl y (by simp [hy])

omit [Field F] [Exact F] in
theorem foldl_pick_move {keep : COp} {T : DType} {f : List Nat → Val F} {a : Val F × List Nat} : ∀ (l : List (List Nat)),
    (∃ x ∈ l, elemCompare keep T T a.1 (f x) = false) → ∃ b ∈ l, l.foldl (pick keep T f) a = (f b, b)
  | [], ⟨x, hx, _⟩ => absurd hx (by simp)
  | x :: l, hl => by
    rw [List.foldl_cons]
    cases hc : elemCompare keep T T a.1 (f x) with
    | true =>
      rw [show pick keep T f a x = a by unfold pick; rw [if_pos hc]]
      obtain ⟨y, hy, hyc⟩ := hl
      rcases List.mem_cons.1 hy with rfl | hy
      · rw [hc] at hyc; exact absurd hyc (by decide)
      · obtain ⟨b, hb, e⟩ := foldl_pick_move l ⟨y, hy, hyc⟩
        exact ⟨b, by simp [hb], e⟩
    | false =>
      rw [show pick keep T f a x = (f x, x) by unfold pick; rw [if_neg (by rw [hc]; decide)]]
      rcases foldl_pick keep T f l (f x, x) with e | ⟨b, hb, e⟩
      · exact ⟨x, by simp, e⟩
      · exact ⟨b, by simp [hb], e⟩

theorem Inv.extreme_step (hI : Inv h V) {keep : COp} {t : Nat} {i : Impl} {f : List Nat → Val F} (ht : V t)
    (hi : h.ts[t]? = some i) (hr : Reads h i f) (hq : i.requiresGrad = true) (ho : i.view.offset = 0) (hv : vol i.view.sizes ≠ 0)
    (hs : Spec.Small i.view.sizes i.dtype) :
    (i.view.sizes = [] ∨ (∃ idx, InBox i.view.sizes idx ∧
        elemCompare keep i.dtype i.dtype (f (i.view.sizes.map fun _ => 0)) (f idx) = false) →
      ∃ h1 k p, Tensor.extreme keep t h = .ok h.ts.length h1 ∧ Stepped h h1 h.ts.length (.knownGrad k) [t] [] ∧
        InBox i.view.sizes p ∧ Denotes h1 h.ts.length i.dtype [] (fun _ => f p) ∧
        (Ordered keep i.dtype i.view.sizes f → ∀ idx, InBox i.view.sizes idx → elemCompare keep i.dtype i.dtype (f p) (f idx) = true) ∧
        ∃ j g, h1.ts[k]? = some j ∧ Reads h1 j g ∧ j.view.sizes = i.view.sizes ∧ j.dtype = i.dtype ∧
          ∀ idx, InBox i.view.sizes idx → real (g idx) = if idx = p then 1 else 0) ∧
    (¬ (i.view.sizes = [] ∨ ∃ idx, InBox i.view.sizes idx ∧
        elemCompare keep i.dtype i.dtype (f (i.view.sizes.map fun _ => 0)) (f idx) = false) →
      ∃ h1, Tensor.extreme keep t h = .throw .runtime h1) := by
  have hst := startsWith_of_offset hr ho hv
  have hf := hI.float t i ht hi hq
  obtain ⟨hok, hthrow⟩ := extremeGrad_ok (keep := keep) hi hr hst hq hs
  have hmost : Ordered keep i.dtype i.view.sizes f → ∀ idx, InBox i.view.sizes idx → elemCompare keep i.dtype i.dtype
      (best keep i.dtype i.view.sizes f (f (i.view.sizes.map fun _ => 0))).1 (f idx) = true := fun hord idx hb => by
    obtain ⟨a, _, h2, _, h4⟩ := best_spec hord (rowMajor i.view.sizes) (i.view.sizes.map fun _ => 0) [] (zeros_inBox hv)
      fun x hx => mem_rowMajor.1 hx
    have h2 : (best keep i.dtype i.view.sizes f (f (i.view.sizes.map fun _ => 0))).1 = f a := h2
    rw [h2]
    exact h4 idx (mem_rowMajor.2 hb)
  refine ⟨fun hc => ?_, fun hc => ?_⟩
  · have hbest : InBox i.view.sizes (best keep i.dtype i.view.sizes f (f (i.view.sizes.map fun _ => 0))).2 ∧
        (best keep i.dtype i.view.sizes f (f (i.view.sizes.map fun _ => 0))).1 =
          f (best keep i.dtype i.view.sizes f (f (i.view.sizes.map fun _ => 0))).2 := by
      rcases hc with hc | ⟨idx, hb, hc⟩
      · rcases foldl_pick keep i.dtype f (rowMajor i.view.sizes) (f (i.view.sizes.map fun _ => 0), []) with e1 | ⟨b, hb, e1⟩
        · have hbe : best keep i.dtype i.view.sizes f (f (i.view.sizes.map fun _ => 0)) = (f (i.view.sizes.map fun _ => 0), []) := e1
          rw [hbe, hc]
          exact ⟨trivial, rfl⟩
        · have hbe : best keep i.dtype i.view.sizes f (f (i.view.sizes.map fun _ => 0)) = (f b, b) := e1
          rw [hbe]
          exact ⟨mem_rowMajor.1 hb, rfl⟩
      · obtain ⟨b, hb, e1⟩ := foldl_pick_move (a := (f (i.view.sizes.map fun _ => 0), [])) (rowMajor i.view.sizes)
          ⟨idx, mem_rowMajor.2 hb, hc⟩
        have hbe : best keep i.dtype i.view.sizes f (f (i.view.sizes.map fun _ => 0)) = (f b, b) := e1
        rw [hbe]
        exact ⟨mem_rowMajor.1 hb, rfl⟩
    generalize best keep i.dtype i.view.sizes f (f (i.view.sizes.map fun _ => 0)) = B at hok hbest hmost
    obtain ⟨h2, e2, bt, ⟨k, hk, k1, k2, hkr⟩, hfr⟩ := hok hbest.1
    obtain ⟨_, k', hk', hkd⟩ := hfr
    rw [hk] at hk'
    obtain rfl := Option.some.inj hk'
    refine ⟨h2, _, B.2, e2, bt.stepped (Nat.le_refl _) (fun k0 j0 e hj => ?_), hbest.1, ?_, ?_, k, _, hk, hkr, k2, k1, fun idx _ => ?_⟩
    · injection e with e
      rw [← e, hk] at hj
      obtain rfl := Option.some.inj hj
      exact hkd
    · rw [← hbest.2]; exact bt.denotes
    · rw [← hbest.2]; exact hmost
    · split
      · rw [oneElem_exact hf]; rfl
      · rw [zeroElem_exact hf]; rfl
  · refine (fun ⟨h1, e1, _⟩ => ⟨h1, e1⟩ : (∃ h1, Tensor.extreme keep t h = .throw .runtime h1 ∧ Extends h h1) → _) (hthrow ?_)
    have hall : ∀ x ∈ rowMajor i.view.sizes, elemCompare keep i.dtype i.dtype (f (i.view.sizes.map fun _ => 0)) (f x) = true :=
      fun x hx => by
        by_contra hn
        exact hc (.inr ⟨x, mem_rowMajor.1 hx, by simpa using hn⟩)
    have hbe : best keep i.dtype i.view.sizes f (f (i.view.sizes.map fun _ => 0)) = (f (i.view.sizes.map fun _ => 0), []) :=
      foldl_pick_keep (a := (f (i.view.sizes.map fun _ => 0), [])) (rowMajor i.view.sizes) hall
    rw [hbe]
    intro e
    exact hc (.inl (List.eq_nil_of_length_eq_zero e.symm))

end INNC
