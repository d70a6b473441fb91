import Verif.Lemmas.DerivKinds
import Verif.Lemmas.DerivSeed
import Verif.Lemmas.Views
import Verif.Lemmas.Reshape
import Verif.Spec.Forward
/-
Invariant of programs that compute with variables: every result relates to its operands as its operation says, and gradients
have not been touched.
-/
namespace INNC
open Spec Tensor
variable {F : Type} [Field F] [FOps F]

/-- The number stored at an index of a tensor (0 if there is none). -/
def valOf (h : Heap F) (x : Nat) (idx : List Nat) : F :=
  (((h.ts[x]?).bind fun i => (h.st[i.data]?).bind fun s => s.blob.bind fun c =>
    (c[(position i.view idx).toNat]?).bind fun o => o.map real)).getD 0

theorem valOf_reads {h : Heap F} {x : Nat} {i : Impl} {f : List Nat → Val F} (hi : h.ts[x]? = some i) (hr : Reads h i f)
    {idx : List Nat} (hb : InBox i.view.sizes idx) : valOf h x idx = real (f idx) := by
  obtain ⟨s, c, hs, _, hbl, _, hc⟩ := hr.cells
  obtain ⟨p, hp, hcp⟩ := hc idx hb
  unfold valOf
  simp [hi, hs, hbl, hp, hcp]

omit [Field F] [FOps F] in
theorem shapeOf_eq {h : Heap F} {x : Nat} {i : Impl} (hi : h.ts[x]? = some i) : shapeOf h x = i.view.sizes := by
  simp [shapeOf, hi]

/-- The elements of `x` relate to those of its operands as its operation says. -/
def Primal (h : Heap F) (x : Nat) : BackKind → List Nat → Prop
  | .add, [a, b] => Broadcasts (shapeOf h a) (shapeOf h b) (shapeOf h x) ∧ ∀ idx, InBox (shapeOf h x) idx →
      valOf h x idx = valOf h a (project (shapeOf h a) idx) + valOf h b (project (shapeOf h b) idx)
  | .sub, [a, b] => Broadcasts (shapeOf h a) (shapeOf h b) (shapeOf h x) ∧ ∀ idx, InBox (shapeOf h x) idx →
      valOf h x idx = valOf h a (project (shapeOf h a) idx) - valOf h b (project (shapeOf h b) idx)
  | .mul, [a, b] => Broadcasts (shapeOf h a) (shapeOf h b) (shapeOf h x) ∧ ∀ idx, InBox (shapeOf h x) idx →
      valOf h x idx = valOf h a (project (shapeOf h a) idx) * valOf h b (project (shapeOf h b) idx)
  | .div, [a, b] => Broadcasts (shapeOf h a) (shapeOf h b) (shapeOf h x) ∧ ∀ idx, InBox (shapeOf h x) idx →
      valOf h x idx = valOf h a (project (shapeOf h a) idx) / valOf h b (project (shapeOf h b) idx)
  | .sum, [a] => shapeOf h x = [] ∧ valOf h x [] = boxSum (shapeOf h a) (valOf h a)
  | .mean, [a] => requiresGrad h a = true ∧ shapeOf h x = [] ∧ valOf h x [] = boxSum (shapeOf h a) (valOf h a) / (vol (shapeOf h a) : F)
  | .clone, [a] => shapeOf h x = shapeOf h a ∧ ∀ idx, InBox (shapeOf h x) idx → valOf h x idx = valOf h a idx
  | .noBack, [b] => ∃ i j, h.ts[x]? = some i ∧ h.ts[b]? = some j ∧ i.data = j.data ∧ ∀ idx, InBox i.view.sizes idx →
      ∃ idx', InBox j.view.sizes idx' ∧ position j.view idx' = position i.view idx
  | .cat d, ins => (∃ i, h.ts[x]? = some i ∧ i.view = Layout.contig i.view.sizes) ∧
      Segments h (valOf h) x d 0 ins
  | .knownGrad k, [a] => ∃ i f, h.ts[k]? = some i ∧ i.view.sizes = shapeOf h a ∧ i.dtype.isFloat = true ∧ Reads h i f ∧
      Slopes h x a f ∧ Broadcasts (shapeOf h a) (shapeOf h x) (shapeOf h a) ∧ ∀ j, InBox (shapeOf h x) j →
        valOf h x j = boxSum (shapeOf h a) fun idx => if project (shapeOf h x) idx = j then real (f idx) * valOf h a idx else 0
  | _, _ => False

/-- The tensor has the same type, layout, storage and elements in both states. -/
def SameT (h h' : Heap F) (x : Nat) : Prop :=
  ∃ i i', h.ts[x]? = some i ∧ h'.ts[x]? = some i' ∧ i'.dtype = i.dtype ∧ i'.view = i.view ∧ i'.data = i.data ∧
    h'.st[i.data]? = h.st[i.data]? ∧ (i.requiresGrad = true → i'.requiresGrad = true)

omit [Field F] [FOps F] in
theorem SameT.req {h h' : Heap F} {x : Nat} (hs : SameT h h' x) (hr : requiresGrad h x = true) : requiresGrad h' x = true := by
  obtain ⟨i, i', h1, h2, _, _, _, _, h3⟩ := hs
  unfold requiresGrad at hr ⊢
  rw [h1] at hr
  rw [h2]
  exact h3 hr

omit [Field F] [FOps F] in
theorem SameT.shape {h h' : Heap F} {x : Nat} (hs : SameT h h' x) : shapeOf h' x = shapeOf h x := by
  obtain ⟨i, i', h1, h2, _, h3, _⟩ := hs
  rw [shapeOf_eq h1, shapeOf_eq h2, h3]

theorem SameT.val {h h' : Heap F} {x : Nat} (hs : SameT h h' x) : valOf h' x = valOf h x := by
  obtain ⟨i, i', h1, h2, _, h3, h4, h5, _⟩ := hs
  funext idx
  unfold valOf
  simp [h1, h2, h3, h4, h5]

omit [Field F] [FOps F] in
theorem Spec.Reads.same {h h' : Heap F} {i i' : Impl} {f : List Nat → Val F} (hr : Reads h i f) (h1 : i'.dtype = i.dtype)
    (h2 : i'.view = i.view) (h3 : i'.data = i.data) (h4 : h'.st[i.data]? = h.st[i.data]?) : Reads h' i' f :=
  (hr.extends fun s hs => by rw [h4]; exact hs).flags h1 h2 h3

theorem segments_mono {h h' : Heap F} {x d : Nat} (hx : SameT h h' x) : ∀ (ins : List Nat) (k : Nat),
    (∀ a ∈ ins, SameT h h' a) → Segments h (valOf h) x d k ins → Segments h' (valOf h') x d k ins
  | [], k, _, hs => by rw [Segments, hx.shape]; exact hs
  | a :: ins, k, ha, ⟨n, h1, h2, h3⟩ => by
    have ha' := ha a (by simp)
    refine ⟨n, by rw [ha'.shape, hx.shape, h1], ?_, segments_mono hx ins _ (fun b hb => ha b (by simp [hb])) h3⟩
    rw [ha'.shape, hx.val, ha'.val]
    exact h2

theorem Spec.Slopes.mono {h h' : Heap F} {x a : Nat} {f : List Nat → Val F} (hs : Slopes h x a f) (hx : SameT h h' x) (ha : SameT h h' a) :
    Slopes h' x a f := by
  obtain ⟨i, g, hi, hr, hs⟩ := hs
  obtain ⟨i0, i', q1, q2, q3, q4, q5, q6, _⟩ := ha
  rw [q1] at hi
  obtain rfl := Option.some.inj hi
  refine ⟨i', g, q2, hr.same q3 q4 q5 q6, ?_⟩
  rw [hx.shape, q3, q4]
  exact hs

theorem Primal.mono {h h' : Heap F} {x : Nat} {k : BackKind} {ins : List Nat} (hp : Primal h x k ins) (hx : SameT h h' x)
    (hi : ∀ a ∈ ins, SameT h h' a) (hk : ∀ s, k = .knownGrad s → SameT h h' s) : Primal h' x k ins := by
  have two : ∀ a b, ins = [a, b] → SameT h h' a ∧ SameT h h' b := fun a b e => by
    subst e; exact ⟨hi a (by simp), hi b (by simp)⟩
  have one : ∀ a, ins = [a] → SameT h h' a := fun a e => by subst e; exact hi a (by simp)
  unfold Primal at hp ⊢
  split at hp
  case h_1 | h_2 | h_3 | h_4 =>
    have ⟨ha, hb⟩ := two _ _ rfl
    simp only [ha.shape, hb.shape, hx.shape, ha.val, hb.val, hx.val]; exact hp
  case h_6 =>
    refine ⟨(one _ rfl).req hp.1, ?_⟩
    simp only [(one _ rfl).shape, hx.shape, (one _ rfl).val, hx.val]; exact hp.2
  case h_5 | h_7 => simp only [(one _ rfl).shape, hx.shape, (one _ rfl).val, hx.val]; exact hp
  case h_8 =>
    obtain ⟨i, i', q1, q2, q3, q4, q5, q6, _⟩ := hx
    obtain ⟨j, j', r1, r2, r3, r4, r5, r6, _⟩ := one _ rfl
    obtain ⟨i0, j0, e1, e2, e3, e4⟩ := hp
    rw [q1] at e1; rw [r1] at e2
    obtain rfl := Option.some.inj e1
    obtain rfl := Option.some.inj e2
    exact ⟨i', j', q2, r2, by rw [q5, r5, e3], by rw [q4, r4]; exact e4⟩
  case h_9 =>
    obtain ⟨⟨i0, e1, e2⟩, e4⟩ := hp
    obtain ⟨i, i', q1, q2, q3, q4, q5, q6, _⟩ := id hx
    rw [q1] at e1
    obtain rfl := Option.some.inj e1
    exact ⟨⟨i', q2, by rw [q4]; exact e2⟩, segments_mono hx _ _ hi e4⟩
  case h_10 =>
    obtain ⟨i0, f, e1, e2, e3, e4, esl, e5, e6⟩ := hp
    obtain ⟨i, i', q1, q2, q3, q4, q5, q6, _⟩ := hk _ rfl
    rw [q1] at e1
    obtain rfl := Option.some.inj e1
    refine ⟨i', f, q2, by rw [q4, e2, (one _ rfl).shape], by rw [q3]; exact e3, e4.same q3 q4 q5 q6, esl.mono hx (one _ rfl), ?_⟩
    simp only [(one _ rfl).shape, hx.shape, (one _ rfl).val, hx.val]
    exact ⟨e5, e6⟩
  · exact hp

/-- The storage holds elements or slopes of a variable. -/
def UsedStore (h : Heap F) (V : Nat → Prop) (d : Nat) : Prop :=
  (∃ x i, V x ∧ h.ts[x]? = some i ∧ i.data = d) ∨
  ∃ x g k i, V x ∧ opOf h x = some g ∧ g.kind = .knownGrad k ∧ h.ts[k]? = some i ∧ i.data = d

/-- A gradient that is not allocated yet, or an allocated gradient of a leaf. -/
def GradFine (h : Heap F) (x d : Nat) (i : Impl) : Prop :=
  ∃ s, h.st[d]? = some s ∧ s.dt = i.dtype ∧
    ((s.blob = none ∧ s.size = wrapU (i.dtype.size * numel i.view.sizes)) ∨
     (¬ Interior h x ∧ ∃ (c : List (Option (Val F))) (a : List Nat → F), s.blob = some c ∧ c.length < 9223372036854775808 ∧
       ∀ idx, InBox i.view.sizes idx → c[(position i.view idx).toNat]? = some (some (.f (a idx)))))

/-- The invariant. -/
structure Inv (h : Heap F) (V : Nat → Prop) : Prop where
  reads : ∀ x, V x → ∃ i f, h.ts[x]? = some i ∧ Reads h i f
  ops : ∀ x g, V x → opOf h x = some g → requiresGrad h x = true ∧ g.accOutway = 0 ∧ (∀ a ∈ g.inputs, V a ∧ a < x) ∧
    Primal h x g.kind g.inputs
  float : ∀ x i, V x → h.ts[x]? = some i → i.requiresGrad = true → i.dtype.isFloat = true
  dense : ∀ x i, V x → h.ts[x]? = some i → i.requiresGrad = true → ¬ IsView h x → Dense i.view
  view : ∀ x b, V x → IsView h x → Uses h x b → requiresGrad h b = true ∧ (gradStore h x).isSome = true ∧
    gradStore h x = gradStore h b ∧ (h.ts[x]?).map (·.dtype) = (h.ts[b]?).map (·.dtype)
  grad : ∀ x i g, V x → h.ts[x]? = some i → i.grad = some g →
    ∃ j, h.ts[g]? = some j ∧ j.dtype = i.dtype ∧ j.view = i.view ∧ j.requiresGrad = false ∧ j.gradFn = none ∧ j.grad = none
  bare : ∀ x i, V x → h.ts[x]? = some i → i.requiresGrad = false → i.grad = none
  cells : ∀ x i d, V x → ¬ IsView h x → h.ts[x]? = some i → gradStore h x = some d → GradFine h x d i
  apart : ∀ x y d, V x → V y → ¬ IsView h x → ¬ IsView h y → gradStore h x = some d → gradStore h y = some d → x = y

omit [Field F] [FOps F] in
theorem requiresGrad_eq {h : Heap F} {x : Nat} {i : Impl} (hi : h.ts[x]? = some i) : requiresGrad h x = i.requiresGrad := by
  simp [requiresGrad, hi]

omit [Field F] [FOps F] in
theorem opOf_eq {h : Heap F} {x : Nat} {i : Impl} (hi : h.ts[x]? = some i) : opOf h x = i.gradFn := by simp [opOf, hi]

theorem Inv.used_lt {h : Heap F} {V : Nat → Prop} (hI : Inv h V) {d : Nat} (hd : UsedStore h V d) : d < h.st.length := by
  rcases hd with ⟨x, i, hx, hi, rfl⟩ | ⟨x, g, k, i, hx, hg, hk, hi, rfl⟩
  · obtain ⟨i', f, hi', hr⟩ := hI.reads x hx
    rw [hi] at hi'
    obtain rfl := Option.some.inj hi'
    exact hr.data_lt
  · have hp := (hI.ops x g hx hg).2.2.2
    rw [hk] at hp
    unfold Primal at hp
    split at hp <;> try (first | contradiction | (exact absurd hp id))
    all_goals simp_all
    obtain ⟨f, _, _, hr, _⟩ := hp
    exact hr.data_lt

/-! ### New tensors -/

/-- What is required of a new variable without gradient. -/
structure NewVar (h h' : Heap F) (V V' : Nat → Prop) (x : Nat) : Prop where
  obj : ∃ i f, h'.ts[x]? = some i ∧ Reads h' i f ∧ i.grad = none ∧
    (i.requiresGrad = true → i.dtype.isFloat = true ∧ Dense i.view) ∧
    (h.st.length ≤ i.data ∨ ∃ y j, V y ∧ h.ts[y]? = some j ∧ j.data = i.data)
  op : ∀ g, opOf h' x = some g → requiresGrad h' x = true ∧ g.accOutway = 0 ∧ g.kind ≠ .noBack ∧
    (∀ a ∈ g.inputs, V' a ∧ a < x) ∧ Primal h' x g.kind g.inputs ∧
    ∀ k i, g.kind = .knownGrad k → h'.ts[k]? = some i → h.st.length ≤ i.data

theorem NewVar.noGrad {h h' : Heap F} {V V' : Nat → Prop} {x : Nat} (hn : NewVar h h' V V' x) : gradStore h' x = none := by
  obtain ⟨i, f, hi, _, hg, _⟩ := hn.obj
  simp [gradStore, hi, hg]

theorem NewVar.noView {h h' : Heap F} {V V' : Nat → Prop} {x : Nat} (hn : NewVar h h' V V' x) : ¬ IsView h' x := by
  rintro ⟨g, hg, hk⟩
  exact (hn.op g hg).2.2.1 hk

section
variable {h h' : Heap F} {V : Nat → Prop}

theorem Inv.at_ext (hI : Inv h V) (he : Extends h h') {x : Nat} (hx : V x) : h'.ts[x]? = h.ts[x]? := by
  obtain ⟨i, f, hi, _⟩ := hI.reads x hx
  rw [he.ts x i hi, hi]

theorem Inv.gradStore_ext (hI : Inv h V) (he : Extends h h') {x : Nat} (hx : V x) : gradStore h' x = gradStore h x := by
  obtain ⟨i, f, hi, _⟩ := hI.reads x hx
  unfold gradStore
  rw [hI.at_ext he hx, hi]
  cases hg : i.grad with
  | none => simp [hg]
  | some g =>
    obtain ⟨j, hj, _⟩ := hI.grad x i g hx hi hg
    simp [hg, hj, he.ts g j hj]

theorem Inv.same_ext (hI : Inv h V) (he : Extends h h') {x : Nat} (hx : V x) : SameT h h' x := by
  obtain ⟨i, f, hi, hr⟩ := hI.reads x hx
  obtain ⟨s, c, hs, _⟩ := hr.cells
  exact ⟨i, i, hi, he.ts x i hi, rfl, rfl, rfl, by rw [hs, he.st _ s hs], id⟩

/-- The slopes saved with an operation exist. -/
theorem Inv.slopes (hI : Inv h V) {x k : Nat} {g : GradFn} (hx : V x) (hg : opOf h x = some g) (hk : g.kind = .knownGrad k) :
    ∃ i f, h.ts[k]? = some i ∧ Reads h i f := by
  have hp := (hI.ops x g hx hg).2.2.2
  rw [hk] at hp
  unfold Primal at hp
  split at hp <;> try contradiction
  next e _ => injection e with e; subst e; obtain ⟨i, f, hi, _, _, hr, _⟩ := hp; exact ⟨i, f, hi, hr⟩

theorem Inv.extend {V' : Nat → Prop} (hI : Inv h V) (he : Extends h h') (hV : ∀ x, V' x → V x ∨ NewVar h h' V V' x)
    (hsub : ∀ x, V x → V' x) : Inv h' V' := by
  have hop : ∀ x, V x → opOf h' x = opOf h x := fun x hx => by unfold opOf; rw [hI.at_ext he hx]
  have hview : ∀ x, V x → (IsView h' x ↔ IsView h x) := fun x hx => by unfold IsView; rw [hop x hx]
  have hreq : ∀ x, V x → requiresGrad h' x = requiresGrad h x := fun x hx => by unfold requiresGrad; rw [hI.at_ext he hx]
  have hslope : ∀ x g k i', V x → opOf h x = some g → g.kind = .knownGrad k → h'.ts[k]? = some i' → h.ts[k]? = some i' :=
    fun x g k i' hx hg hk hi' => by
      obtain ⟨i, f, hi, _⟩ := hI.slopes hx hg hk
      rw [he.ts k i hi] at hi'
      rw [hi, hi']
  refine ⟨fun x hx => ?_, fun x g hx hg => ?_, fun x i hx hi hr => ?_, fun x i hx hi hr hv => ?_, fun x b hx hv hu => ?_,
    fun x i g hx hi hg => ?_, fun x i hx hi hr => ?_, fun x i d hx hv hi hd => ?_, fun x y d hx hy hvx hvy hdx hdy => ?_⟩
  · rcases hV x hx with hx | hx
    · obtain ⟨i, f, hi, hr⟩ := hI.reads x hx
      exact ⟨i, f, he.ts x i hi, hr.of_extends he⟩
    · obtain ⟨i, f, hi, hr, _⟩ := hx.obj
      exact ⟨i, f, hi, hr⟩
  · rcases hV x hx with hx | hx
    · rw [hop x hx] at hg
      obtain ⟨h1, h2, h3, h4⟩ := hI.ops x g hx hg
      refine ⟨by rw [hreq x hx]; exact h1, h2, fun a ha => ⟨hsub a (h3 a ha).1, (h3 a ha).2⟩, ?_⟩
      refine h4.mono (hI.same_ext he hx) (fun a ha => hI.same_ext he (h3 a ha).1) fun k hk => ?_
      obtain ⟨i, f, hi, hr⟩ := hI.slopes hx hg hk
      obtain ⟨s, c, hs, _⟩ := hr.cells
      exact ⟨i, i, hi, he.ts k i hi, rfl, rfl, rfl, by rw [hs, he.st _ s hs], id⟩
    · obtain ⟨h1, h2, _, h3, h4, _⟩ := hx.op g hg
      exact ⟨h1, h2, h3, h4⟩
  · rcases hV x hx with hx | hx
    · rw [hI.at_ext he hx] at hi; exact hI.float x i hx hi hr
    · obtain ⟨j, f, hj, _, _, hd, _⟩ := hx.obj
      rw [hi] at hj
      obtain rfl := Option.some.inj hj
      exact (hd hr).1
  · rcases hV x hx with hx | hx
    · rw [hview x hx] at hv
      rw [hI.at_ext he hx] at hi; exact hI.dense x i hx hi hr hv
    · obtain ⟨j, f, hj, _, _, hd, _⟩ := hx.obj
      rw [hi] at hj
      obtain rfl := Option.some.inj hj
      exact (hd hr).2
  · rcases hV x hx with hx | hx
    · rw [hview x hx] at hv
      have hu' : Uses h x b := by unfold Uses operands at hu ⊢; rwa [hop x hx] at hu
      have hb : V b := by
        obtain ⟨g, hg, _⟩ := hv
        refine ((hI.ops x g hx hg).2.2.1 b ?_).1
        unfold Uses operands at hu'; rwa [hg] at hu'
      obtain ⟨h1, h2, h3, h4⟩ := hI.view x b hx hv hu'
      rw [hreq b hb, hI.gradStore_ext he hx, hI.gradStore_ext he hb, hI.at_ext he hx, hI.at_ext he hb]
      exact ⟨h1, h2, h3, h4⟩
    · exact absurd hv hx.noView
  · rcases hV x hx with hx | hx
    · rw [hI.at_ext he hx] at hi
      obtain ⟨j, hj, hj2⟩ := hI.grad x i g hx hi hg
      exact ⟨j, he.ts g j hj, hj2⟩
    · obtain ⟨j, f, hj, _, hn, _⟩ := hx.obj
      rw [hi] at hj
      obtain rfl := Option.some.inj hj
      rw [hn] at hg; simp at hg
  · rcases hV x hx with hx | hx
    · rw [hI.at_ext he hx] at hi
      exact hI.bare x i hx hi hr
    · obtain ⟨j, f, hj, _, hn, _⟩ := hx.obj
      rw [hi] at hj
      obtain rfl := Option.some.inj hj
      exact hn
  · rcases hV x hx with hx | hx
    · rw [hview x hx] at hv
      rw [hI.at_ext he hx] at hi
      rw [hI.gradStore_ext he hx] at hd
      obtain ⟨s, hs, h2⟩ := hI.cells x i d hx hv hi hd
      refine ⟨s, he.st d s hs, ?_⟩
      unfold Interior at h2 ⊢
      rw [hop x hx]; exact h2
    · rw [hx.noGrad] at hd; simp at hd
  · rcases hV x hx with hx | hx
    · rcases hV y hy with hy | hy
      · rw [hview x hx] at hvx
        rw [hview y hy] at hvy
        rw [hI.gradStore_ext he hx] at hdx
        rw [hI.gradStore_ext he hy] at hdy
        exact hI.apart x y d hx hy hvx hvy hdx hdy
      · rw [hy.noGrad] at hdy; simp at hdy
    · rw [hx.noGrad] at hdx; simp at hdx

end

/-! ### Views -/

section
variable {h h' : Heap F} {V : Nat → Prop}

theorem Inv.made (hI : Inv h V) {base r d : Nat} {b : Impl} {dt : DType} {v : Layout} (hbV : V base)
    (hb : h.ts[base]? = some b) (vm : ViewMade h h' base r b dt v d) (hdt : dt = b.dtype) (hd : d = b.data)
    (hst : v.strides.length = v.sizes.length) (hoff : v.offset < 18446744073709551616) (σ : List Nat → List Nat)
    (hσ : ∀ idx, InBox v.sizes idx → InBox b.view.sizes (σ idx) ∧ position v idx = position b.view (σ idx)) :
    Inv h' fun x => V x ∨ x = r := by
  obtain ⟨j, hj, j1, j2, j3, j4, j5, j6, j7⟩ := vm.obj
  obtain ⟨b0, f, hb0, hbr⟩ := hI.reads base hbV
  rw [hb] at hb0
  obtain rfl := Option.some.inj hb0
  have hpos := vm.pres
  have hjr : Reads h' j fun idx => f (σ idx) := by
    refine (hbr.extends fun s hs => hpos.st _ s hs).view (by rw [j3, hd]) (by rw [j1, hdt]) (by rw [j2]; exact hst)
      (by rw [j2]; exact hoff) σ ?_
    rw [j2]; exact hσ
  have hlen : r = h.ts.length := vm.id
  cases hrg : b.requiresGrad with
  | false =>
    have he := vm.same hrg
    rw [hrg] at j4 j6
    have hop : opOf h' r = none := by rw [opOf_eq hj, j6]; rfl
    refine hI.extend he (fun x hx => hx.imp id fun e => ?_) fun x hx => .inl hx
    subst e
    refine ⟨⟨j, _, hj, hjr, j7 hrg, fun e => (by rw [j4] at e; exact absurd e (by decide)), .inr ⟨base, b, hbV, hb, by rw [j3, hd]⟩⟩,
      fun g hg => by rw [hop] at hg; exact absurd hg (by simp)⟩
  | true =>
    rw [hrg] at j4 j6
    obtain ⟨b', j', g, gi, g', gj, q1, q2, q3, q4, q5, q6, q7, q8, q9, q10, q11, q12⟩ := vm.shared hrg
    rw [hj] at q6
    obtain rfl := Option.some.inj q6
    -- old tensors
    have hold : ∀ x, V x → ∃ i i', h.ts[x]? = some i ∧ h'.ts[x]? = some i' ∧ i'.dtype = i.dtype ∧ i'.view = i.view ∧
        i'.data = i.data ∧ i'.requiresGrad = i.requiresGrad ∧ i'.gradFn = i.gradFn := by
      intro x hx
      by_cases e : x = base
      · subst e; exact ⟨b, b', hb, q1, by rw [q2], by rw [q2], by rw [q2], by rw [q2], by rw [q2]⟩
      · obtain ⟨i, _, hi, _⟩ := hI.reads x hx
        exact ⟨i, i, hi, vm.other x i e hi, rfl, rfl, rfl, rfl, rfl⟩
    have hlt : ∀ x, V x → x < r := fun x hx => by
      obtain ⟨i, _, hi, _⟩ := hI.reads x hx
      rw [hlen]; exact getElem?_lt hi
    have hop : ∀ x, V x → opOf h' x = opOf h x := fun x hx => by
      obtain ⟨i, i', e1, e2, _, _, _, _, e3⟩ := hold x hx
      rw [opOf_eq e1, opOf_eq e2, e3]
    have hview : ∀ x, V x → (IsView h' x ↔ IsView h x) := fun x hx => by unfold IsView; rw [hop x hx]
    have hreq : ∀ x, V x → requiresGrad h' x = requiresGrad h x := fun x hx => by
      obtain ⟨i, i', e1, e2, _, _, _, e3, _⟩ := hold x hx
      rw [requiresGrad_eq e1, requiresGrad_eq e2, e3]
    have hdty : ∀ x, V x → (h'.ts[x]?).map (·.dtype) = (h.ts[x]?).map (·.dtype) := fun x hx => by
      obtain ⟨i, i', e1, e2, e3, _⟩ := hold x hx
      rw [e1, e2, Option.map_some, Option.map_some, e3]
    have hsame : ∀ x, V x → SameT h h' x := fun x hx => by
      obtain ⟨i, f, hi, hr⟩ := hI.reads x hx
      obtain ⟨i1, i', e1, e2, e3, e4, e5, e6, _⟩ := hold x hx
      rw [hi] at e1
      obtain rfl := Option.some.inj e1
      obtain ⟨s, c, hs, _⟩ := hr.cells
      exact ⟨i, i', hi, e2, e3, e4, e5, by rw [hs, hpos.st _ s hs], fun e => by rw [e6]; exact e⟩
    -- gradients of old tensors
    have hgold : ∀ (k : Nat) (gk : Impl), h.ts[k]? = some gk → gk.requiresGrad = false → h'.ts[k]? = some gk :=
      fun k gk hk hr => by
        by_cases e : k = base
        · subst e; rw [hb] at hk; obtain rfl := Option.some.inj hk; rw [hrg] at hr; exact absurd hr (by decide)
        · exact vm.other k gk e hk
    have hbase : gradStore h' base = some gi.data := by simp [gradStore, q1, q2, q3]
    have hstore : ∀ x, V x → (gradStore h x).isSome = true → gradStore h' x = gradStore h x := fun x hx hs => by
      obtain ⟨D, hD⟩ := Option.isSome_iff_exists.1 hs
      obtain ⟨i, gx, gk, hi, hgx, hgk, hgd⟩ := gradStore_some hD
      by_cases e : x = base
      · subst e
        rw [hb] at hi
        obtain rfl := Option.some.inj hi
        obtain ⟨jg, hjg, _, _, hjf⟩ := hI.grad x b gx hbV hb hgx
        rw [hgk] at hjg
        obtain rfl := Option.some.inj hjg
        obtain rfl := q4 gx hgx
        rw [hgold g gk hgk hjf.1] at q3
        obtain rfl := Option.some.inj q3
        rw [hbase, hD, hgd]
      · obtain ⟨jg, hjg, _, _, hjf⟩ := hI.grad x i gx hx hi hgx
        rw [hgk] at hjg
        obtain rfl := Option.some.inj hjg
        rw [hD]
        simp [gradStore, vm.other x i e hi, hgx, hgold gx gk hgk hjf.1, hgd]
    have hcase : ∀ x D, V x → gradStore h' x = some D → gradStore h x = some D ∨ (x = base ∧ b.grad = none ∧ D = h.st.length) :=
      fun x D hx hD => by
        cases hs : gradStore h x with
        | some D' => rw [hstore x hx (by rw [hs]; rfl), hs] at hD; exact .inl hD
        | none =>
          by_cases e : x = base
          · subst e
            have hn : b.grad = none := by
              cases hgr : b.grad with
              | none => rfl
              | some g0 =>
                obtain ⟨jg, hjg, _⟩ := hI.grad x b g0 hbV hb hgr
                simp [gradStore, hb, hgr, hjg] at hs
            rw [hbase, (q5 hn).2.2.1] at hD
            exact .inr ⟨rfl, hn, (Option.some.inj hD).symm⟩
          · obtain ⟨i, f, hi, _⟩ := hI.reads x hx
            obtain ⟨i', gx, gk, hi', hgx, hgk, hgd⟩ := gradStore_some hD
            rw [vm.other x i e hi] at hi'
            obtain rfl := Option.some.inj hi'
            obtain ⟨jg, hjg, _⟩ := hI.grad x i gx hx hi hgx
            simp [gradStore, hi, hgx, hjg] at hs
    have hrop : opOf h' r = some ⟨.noBack, [base], 0, 0, 0⟩ := by rw [opOf_eq hj, j6]; rfl
    have hrv : IsView h' r := ⟨_, hrop, rfl⟩
    have hrstore : gradStore h' r = some gi.data := by simp [gradStore, hj, q7, q8, q9]
    refine ⟨fun x hx => ?_, fun x g hx hg => ?_, fun x i hx hi hr => ?_, fun x i hx hi hr hv => ?_, fun x b1 hx hv hu => ?_,
      fun x i g1 hx hi hg => ?_, fun x i hx hi hr => ?_, fun x i D hx hv hi hD => ?_, fun x y D hx hy hvx hvy hdx hdy => ?_⟩
    · rcases hx with hx | rfl
      · obtain ⟨i, f, hi, hr⟩ := hI.reads x hx
        obtain ⟨i1, i', e1, e2, e3, e4, e5, e6, _⟩ := hsame x hx
        rw [hi] at e1
        obtain rfl := Option.some.inj e1
        exact ⟨i', f, e2, hr.same e3 e4 e5 e6⟩
      · exact ⟨j, _, hj, hjr⟩
    · rcases hx with hx | rfl
      · rw [hop x hx] at hg
        obtain ⟨h1, h2, h3, h4⟩ := hI.ops x g hx hg
        refine ⟨by rw [hreq x hx]; exact h1, h2, fun a ha => ⟨.inl (h3 a ha).1, (h3 a ha).2⟩, ?_⟩
        refine h4.mono (hsame x hx) (fun a ha => hsame a (h3 a ha).1) fun k hk => ?_
        obtain ⟨i, f, hi, hr⟩ := hI.slopes hx hg hk
        obtain ⟨s, c, hs, _⟩ := hr.cells
        obtain ⟨i', hi', e1, e2, e3⟩ := hpos.ts k i hi
        refine ⟨i, i', hi, hi', e1, e2, e3, by rw [hs, hpos.st _ s hs], fun e => ?_⟩
        by_cases hkb : k = base
        · rw [hkb, q1] at hi'
          rw [← Option.some.inj hi', q2]; exact hrg
        · rw [vm.other k i hkb hi] at hi'
          rw [← Option.some.inj hi']; exact e
      · rw [hrop] at hg
        obtain rfl := Option.some.inj hg
        refine ⟨by rw [requiresGrad_eq hj]; exact j4, rfl, fun a ha => ?_, ?_⟩
        · have : a = base := by simpa using ha
          subst this
          exact ⟨.inl hbV, hlt a hbV⟩
        · refine ⟨j, b', hj, q1, by rw [j3, hd, q2], fun idx hbx => ?_⟩
          rw [j2] at hbx
          exact ⟨σ idx, by rw [q2]; exact (hσ idx hbx).1, by rw [q2, j2]; exact (hσ idx hbx).2.symm⟩
    · rcases hx with hx | rfl
      · obtain ⟨i1, i', e1, e2, e3, _, _, e6, _⟩ := hold x hx
        rw [hi] at e2
        obtain rfl := Option.some.inj e2
        rw [e3]; exact hI.float x i1 hx e1 (by rw [← e6]; exact hr)
      · rw [hj] at hi
        obtain rfl := Option.some.inj hi
        rw [j1, hdt]; exact hI.float base b hbV hb hrg
    · rcases hx with hx | rfl
      · rw [hview x hx] at hv
        obtain ⟨i1, i', e1, e2, _, e4, _, e6, _⟩ := hold x hx
        rw [hi] at e2
        obtain rfl := Option.some.inj e2
        rw [e4]; exact hI.dense x i1 hx e1 (by rw [← e6]; exact hr) hv
      · exact absurd hrv hv
    · rcases hx with hx | rfl
      · rw [hview x hx] at hv
        have hu' : Uses h x b1 := by unfold Uses operands at hu ⊢; rwa [hop x hx] at hu
        have hb1 : V b1 := by
          obtain ⟨g, hg, _⟩ := hv
          refine ((hI.ops x g hx hg).2.2.1 b1 ?_).1
          unfold Uses operands at hu'; rwa [hg] at hu'
        obtain ⟨h1, h2, h3, h4⟩ := hI.view x b1 hx hv hu'
        rw [hreq b1 hb1, hstore x hx h2, hstore b1 hb1 (by rw [← h3]; exact h2), hdty x hx, hdty b1 hb1]
        exact ⟨h1, h2, h3, h4⟩
      · have : b1 = base := by unfold Uses operands at hu; rw [hrop] at hu; simpa using hu
        subst this
        refine ⟨by rw [hreq b1 hbV, requiresGrad_eq hb]; exact hrg, by rw [hrstore]; rfl, by rw [hrstore, hbase], ?_⟩
        rw [hj, q1, Option.map_some, Option.map_some, j1, hdt, q2]
    · rcases hx with hx | rfl
      · by_cases e : x = base
        · subst e
          rw [q1] at hi
          obtain rfl := Option.some.inj hi
          rw [q2] at hg
          obtain rfl := Option.some.inj hg
          cases hgr : b.grad with
          | none =>
            obtain ⟨r1, r2, _, r3, _, r4⟩ := q5 hgr
            exact ⟨gi, q3, by rw [r1, q2], by rw [r2, q2], r3, r4⟩
          | some g0 =>
            obtain rfl := q4 g0 hgr
            obtain ⟨jg, hjg, k1, k2, k3⟩ := hI.grad x b g hbV hb hgr
            exact ⟨jg, hgold g jg hjg k3.1, by rw [k1, q2], by rw [k2, q2], k3⟩
        · obtain ⟨i1, f, hi1, _⟩ := hI.reads x hx
          rw [vm.other x i1 e hi1] at hi
          obtain rfl := Option.some.inj hi
          obtain ⟨jg, hjg, k1, k2, k3⟩ := hI.grad x i1 g1 hx hi1 hg
          exact ⟨jg, hgold g1 jg hjg k3.1, k1, k2, k3⟩
      · rw [hj] at hi
        obtain rfl := Option.some.inj hi
        rw [q7] at hg
        obtain rfl := Option.some.inj hg
        exact ⟨gj, q8, by rw [q11, j1], by rw [q10, j2], q12⟩
    · rcases hx with hx | rfl
      · by_cases e : x = base
        · subst e
          rw [q1] at hi
          obtain rfl := Option.some.inj hi
          rw [q2] at hr
          rw [show b.requiresGrad = false from hr] at hrg
          cases hrg
        · obtain ⟨i1, f, hi1, _⟩ := hI.reads x hx
          rw [vm.other x i1 e hi1] at hi
          obtain rfl := Option.some.inj hi
          exact hI.bare x i1 hx hi1 hr
      · rw [hj] at hi
        obtain rfl := Option.some.inj hi
        rw [j4] at hr
        cases hr
    · rcases hx with hx | rfl
      · rw [hview x hx] at hv
        obtain ⟨i1, i', e1, e2, e3, e4, _⟩ := hold x hx
        rw [hi] at e2
        obtain rfl := Option.some.inj e2
        rcases hcase x D hx hD with hD' | ⟨rfl, hn, rfl⟩
        · obtain ⟨s, hs, h2⟩ := hI.cells x i1 D hx hv e1 hD'
          refine ⟨s, hpos.st D s hs, ?_⟩
          unfold Interior at h2 ⊢
          rw [hop x hx, e3, e4]; exact h2
        · obtain ⟨r1, r2, r3, r4, r5, _⟩ := q5 hn
          rw [hb] at e1
          obtain rfl := Option.some.inj e1
          rw [r3] at r5
          exact ⟨_, r5, e3.symm, .inl ⟨rfl, by rw [e3, e4]⟩⟩
      · exact absurd hrv hv
    · have hlt2 : ∀ x D, V x → ¬ IsView h x → gradStore h x = some D → D < h.st.length := fun x D hx hv hD => by
        obtain ⟨i, f, hi, _⟩ := hI.reads x hx
        obtain ⟨s, hs, _⟩ := hI.cells x i D hx hv hi hD
        exact getElem?_lt hs
      rcases hx with hx | rfl
      · rcases hy with hy | rfl
        · rw [hview x hx] at hvx
          rw [hview y hy] at hvy
          rcases hcase x D hx hdx with h1 | ⟨rfl, _, rfl⟩
          · rcases hcase y D hy hdy with h2 | ⟨rfl, _, rfl⟩
            · exact hI.apart x y D hx hy hvx hvy h1 h2
            · have := hlt2 x _ hx hvx h1; omega
          · rcases hcase y _ hy hdy with h2 | ⟨rfl, _, _⟩
            · have := hlt2 y _ hy hvy h2; omega
            · rfl
        · exact absurd hrv hvy
      · exact absurd hrv hvx

end

/-! ### Flags -/

section
variable {h h' : Heap F} {V : Nat → Prop}

theorem Inv.base (hI : Inv h V) {x : Nat} (hx : V x) (hv : IsView h x) : ∃ b, Uses h x b ∧ V b ∧ b < x := by
  obtain ⟨g, hg, hk⟩ := hv
  obtain ⟨_, _, h3, h4⟩ := hI.ops x g hx hg
  rw [hk] at h4
  unfold Primal at h4
  split at h4 <;> try contradiction
  next b _ e =>
    have hb : b ∈ g.inputs := by rw [e]; simp
    exact ⟨b, by unfold Uses operands; rw [hg]; exact hb, h3 b hb⟩

/-- Every gradient belongs to a variable that is not a view. -/
theorem Inv.owner (hI : Inv h V) {D : Nat} : ∀ (n x : Nat), x < n → V x → gradStore h x = some D →
    ∃ y, V y ∧ ¬ IsView h y ∧ gradStore h y = some D
  | 0, x, hn, _, _ => absurd hn (by omega)
  | n + 1, x, hn, hx, hD => by
    by_cases hv : IsView h x
    · obtain ⟨b, hu, hb, hlt⟩ := hI.base hx hv
      exact hI.owner n b (by omega) hb (by rw [← (hI.view x b hx hv hu).2.2.1]; exact hD)
    · exact ⟨x, hx, hv, hD⟩

theorem Inv.flag (hI : Inv h V) {t : Nat} {i : Impl} (hi : h.ts[t]? = some i) (rg rt : Bool)
    (hng : rg = i.requiresGrad ∨ ¬ IsGrad h t)
    (hok : rg = i.requiresGrad ∨ (rg = true ∧ i.dtype.isFloat = true ∧ (i.requiresGrad = true ∨ Dense i.view))) :
    Inv { h with ts := h.ts.set t { i with requiresGrad := rg, retainGrad := rt } } V := by
  generalize hh : ({ h with ts := h.ts.set t { i with requiresGrad := rg, retainGrad := rt } } : Heap F) = h'
  have hlt := getElem?_lt hi
  have hat : h'.ts[t]? = some { i with requiresGrad := rg, retainGrad := rt } := by
    rw [← hh]; exact List.getElem?_set_self hlt
  have hne : ∀ x : Nat, x ≠ t → h'.ts[x]? = h.ts[x]? := fun x hx => by rw [← hh]; exact List.getElem?_set_ne (Ne.symm hx)
  have hst : h'.st = h.st := by rw [← hh]
  have hold : ∀ (x : Nat) (j : Impl), h.ts[x]? = some j → ∃ j' : Impl, h'.ts[x]? = some j' ∧ j'.dtype = j.dtype ∧ j'.view = j.view ∧
      j'.data = j.data ∧ j'.gradFn = j.gradFn ∧ j'.grad = j.grad ∧ (j.requiresGrad = true → j'.requiresGrad = true) := by
    intro x j hj
    by_cases e : x = t
    · subst e
      rw [hi] at hj
      obtain rfl := Option.some.inj hj
      refine ⟨_, hat, rfl, rfl, rfl, rfl, rfl, fun hr => ?_⟩
      rcases hok with h | h
      · rw [← hr]; exact h
      · exact h.1
    · exact ⟨j, by rw [hne x e]; exact hj, rfl, rfl, rfl, rfl, rfl, id⟩
  have hold' : ∀ (x : Nat) (j' : Impl), h'.ts[x]? = some j' → ∃ j : Impl, h.ts[x]? = some j := fun x j' hj => by
    by_cases e : x = t
    · subst e; exact ⟨i, hi⟩
    · exact ⟨j', by rw [← hne x e]; exact hj⟩
  have hop : ∀ x, opOf h' x = opOf h x := fun x => by
    cases hx : h.ts[x]? with
    | some j => obtain ⟨j', e1, _, _, _, e2, _⟩ := hold x j hx; rw [opOf_eq hx, opOf_eq e1, e2]
    | none =>
      have : x ≠ t := fun e => by subst e; rw [hi] at hx; exact absurd hx (by simp)
      unfold opOf; rw [hne x this]
  have hview : ∀ x, IsView h' x ↔ IsView h x := fun x => by unfold IsView; rw [hop]
  have huses : ∀ x y, Uses h' x y ↔ Uses h x y := fun x y => by unfold Uses operands; rw [hop]
  have hdat : ∀ x : Nat, (h'.ts[x]?).map (·.data) = (h.ts[x]?).map (·.data) := fun x => by
    cases hx : h.ts[x]? with
    | some j => obtain ⟨j', e1, _, _, e2, _⟩ := hold x j hx; rw [e1, Option.map_some, Option.map_some, e2]
    | none =>
      have : x ≠ t := fun e => by subst e; rw [hi] at hx; exact absurd hx (by simp)
      rw [hne x this, hx]
  have hdty : ∀ x : Nat, (h'.ts[x]?).map (·.dtype) = (h.ts[x]?).map (·.dtype) := fun x => by
    cases hx : h.ts[x]? with
    | some j => obtain ⟨j', e1, e2, _⟩ := hold x j hx; rw [e1, Option.map_some, Option.map_some, e2]
    | none =>
      have : x ≠ t := fun e => by subst e; rw [hi] at hx; exact absurd hx (by simp)
      rw [hne x this, hx]
  have hstore : ∀ x, gradStore h' x = gradStore h x := fun x => by
    cases hx : h.ts[x]? with
    | some j =>
      obtain ⟨j', e1, _, _, _, _, e2, _⟩ := hold x j hx
      unfold gradStore
      rw [e1, hx, Option.bind_some, Option.bind_some, e2]
      cases j.grad with
      | none => rfl
      | some g => exact hdat g
    | none =>
      have : x ≠ t := fun e => by subst e; rw [hi] at hx; exact absurd hx (by simp)
      unfold gradStore; rw [hne x this, hx]; rfl
  have hsame : ∀ (x : Nat) (j : Impl), h.ts[x]? = some j → SameT h h' x := fun x j hj => by
    obtain ⟨j', e1, e2, e3, e4, _, _, e5⟩ := hold x j hj
    exact ⟨j, j', hj, e1, e2, e3, e4, by rw [hst], e5⟩
  have hreq : ∀ x, requiresGrad h x = true → requiresGrad h' x = true := fun x hx => by
    cases hj : h.ts[x]? with
    | none => unfold requiresGrad at hx; rw [hj] at hx; exact absurd hx (by simp)
    | some j =>
      obtain ⟨j', e1, _, _, _, _, _, e2⟩ := hold x j hj
      rw [requiresGrad_eq e1]; rw [requiresGrad_eq hj] at hx; exact e2 hx
  refine ⟨fun x hx => ?_, fun x g hx hg => ?_, fun x j' hx hj' hr => ?_, fun x j' hx hj' hr hv => ?_, fun x b hx hv hu => ?_,
    fun x j' g hx hj' hg => ?_, fun x j' hx hj' hr => ?_, fun x j' d hx hv hj' hd => ?_, fun x y d hx hy hvx hvy hdx hdy => ?_⟩
  · obtain ⟨j, f, hj, hr⟩ := hI.reads x hx
    obtain ⟨j', e1, e2, e3, e4, _⟩ := hold x j hj
    exact ⟨j', f, e1, hr.same e2 e3 e4 (by rw [hst])⟩
  · rw [hop] at hg
    obtain ⟨h1, h2, h3, h4⟩ := hI.ops x g hx hg
    refine ⟨hreq x h1, h2, h3, h4.mono ?_ (fun a ha => ?_) fun k hk => ?_⟩
    · obtain ⟨j, _, hj, _⟩ := hI.reads x hx; exact hsame x j hj
    · obtain ⟨j, _, hj, _⟩ := hI.reads a (h3 a ha).1; exact hsame a j hj
    · obtain ⟨j, _, hj, _⟩ := hI.slopes hx hg hk; exact hsame k j hj
  · by_cases e : x = t
    · subst e
      rw [hat] at hj'
      obtain rfl := Option.some.inj hj'
      rcases hok with h1 | h1
      · exact hI.float x i hx hi (by rw [← h1]; exact hr)
      · exact h1.2.1
    · rw [hne x e] at hj'; exact hI.float x j' hx hj' hr
  · rw [hview] at hv
    by_cases e : x = t
    · subst e
      rw [hat] at hj'
      obtain rfl := Option.some.inj hj'
      rcases hok with h1 | ⟨_, _, h1 | h1⟩
      · exact hI.dense x i hx hi (by rw [← h1]; exact hr) hv
      · exact hI.dense x i hx hi h1 hv
      · exact h1
    · rw [hne x e] at hj'; exact hI.dense x j' hx hj' hr hv
  · rw [hview] at hv
    rw [huses] at hu
    obtain ⟨h1, h2, h3, h4⟩ := hI.view x b hx hv hu
    rw [hstore, hstore, hdty, hdty]
    exact ⟨hreq b h1, h2, h3, h4⟩
  · obtain ⟨j, hj⟩ := hold' x j' hj'
    obtain ⟨j'', e1, e2, e3, _, _, e6, _⟩ := hold x j hj
    rw [hj'] at e1
    obtain rfl := Option.some.inj e1
    rw [e6] at hg
    obtain ⟨jg, hjg, k1, k2, k3⟩ := hI.grad x j g hx hj hg
    by_cases hgt : g = t
    · subst hgt
      rw [hi] at hjg
      obtain rfl := Option.some.inj hjg
      rcases hng with h1 | h1
      · exact ⟨_, hat, by rw [← e2] at k1; exact k1, by rw [← e3] at k2; exact k2, by rw [← h1] at k3; exact k3⟩
      · exact absurd ⟨x, j, hj, hg⟩ h1
    · exact ⟨jg, by rw [hne g hgt]; exact hjg, by rw [k1, e2], by rw [k2, e3], k3⟩
  · by_cases e : x = t
    · subst e
      rw [hat] at hj'
      obtain rfl := Option.some.inj hj'
      rcases hok with h1 | h1
      · exact hI.bare x i hx hi (by rw [← h1]; exact hr)
      · exact absurd (show rg = false from hr) (by rw [h1.1]; simp)
    · rw [hne x e] at hj'; exact hI.bare x j' hx hj' hr
  · rw [hview] at hv
    rw [hstore] at hd
    obtain ⟨j, hj⟩ := hold' x j' hj'
    obtain ⟨j'', e1, e2, e3, _⟩ := hold x j hj
    rw [hj'] at e1
    obtain rfl := Option.some.inj e1
    obtain ⟨s, hs, h2⟩ := hI.cells x j d hx hv hj hd
    refine ⟨s, by rw [hst]; exact hs, ?_⟩
    unfold Interior at h2 ⊢
    rw [hop, e2, e3]; exact h2
  · rw [hview] at hvx hvy
    rw [hstore] at hdx hdy
    exact hI.apart x y d hx hy hvx hvy hdx hdy

theorem Inv.weaken (hI : Inv h V) {W : Nat → Prop} (hW : ∀ x, W x → V x)
    (hc : ∀ x g, W x → opOf h x = some g → ∀ a ∈ g.inputs, W a) : Inv h W where
  reads x hx := hI.reads x (hW x hx)
  ops x g hx hg := by
    obtain ⟨h1, h2, h3, h4⟩ := hI.ops x g (hW x hx) hg
    exact ⟨h1, h2, fun a ha => ⟨hc x g hx hg a ha, (h3 a ha).2⟩, h4⟩
  float x i hx := hI.float x i (hW x hx)
  dense x i hx := hI.dense x i (hW x hx)
  view x b hx := hI.view x b (hW x hx)
  grad x i g hx := hI.grad x i g (hW x hx)
  bare x i hx := hI.bare x i (hW x hx)
  cells x i d hx := hI.cells x i d (hW x hx)
  apart x y d hx hy := hI.apart x y d (hW x hx) (hW y hy)

end

end INNC
