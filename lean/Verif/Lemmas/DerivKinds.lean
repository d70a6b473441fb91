import Verif.Lemmas.DerivStep
import Mathlib.Tactic.FieldSimp
import Mathlib.Tactic.LinearCombination
/-
`step_back` of each operation passes the gradient on to the operands.
-/
namespace INNC
open Spec Tensor
variable {F : Type} [Field F] [FOps F]

/-- The back-propagation has come to the tensor `x`, computed by the operation `g`. -/
structure Visit (h : Heap F) (t : Nat) (P : List Nat) (D : Nat → Option Nat) (A : Nat → List Nat → F) (H : Heap F) (x : Nat)
    (kind : BackKind) (ins : List Nat) (i0 : Impl) : Prop where
  graph : Graph h
  prep : Prepared h t
  inv : GInv h t P D A H
  needs : Needs h t x
  notin : x ∉ P
  obj : h.ts[x]? = some i0
  op : ∃ g0, opOf h x = some g0 ∧ g0.kind = kind ∧ g0.inputs = ins
  le : x ≤ t
  alloc : ¬ IsView h x → Alloc D H x
  ins : ∀ a ∈ ins, From h t a ∧ a ∉ P ∧ a < x

section
variable {h : Heap F} {t : Nat} {P : List Nat} {D : Nat → Option Nat} {A : Nat → List Nat → F} {H : Heap F} {x : Nat}
  {kind : BackKind} {ins : List Nat} {i0 : Impl}

theorem Visit.notView (hv : Visit h t P D A H x kind ins i0) (hk : kind ≠ .noBack) : ¬ IsView h x := fun ⟨g, hg, hgk⟩ => by
  obtain ⟨g0, h1, h2, _⟩ := hv.op
  rw [hg] at h1; injection h1 with h1; subst h1
  exact hk (h2.symm.trans hgk)

theorem Visit.shape (hv : Visit h t P D A H x kind ins i0) : shapeOf h x = i0.view.sizes := shapeOf_some hv.obj

theorem Visit.computed (hv : Visit h t P D A H x kind ins i0) {u : Nat → List Nat → DualNumber F} (hl : Tangent h t u)
    (hk : kind ≠ .mean := by simp) : Follow h t u x kind ins := by
  obtain ⟨g0, h1, h2, h3⟩ := hv.op
  have := hl.op x g0 hv.needs.1 h1 fun _ ⟨_, g', q1, q2, _⟩ => by
    rw [h1] at q1; injection q1 with q1; subst q1; exact hk (h2.symm.trans q2)
  rwa [h2, h3] at this

theorem Visit.next (hv : Visit h t P D A H x kind ins i0) {δ} {D' A' H'} (hm : Moved h t P x D A H δ D' A' H') :
    Visit h t P D' A' H' x kind ins i0 :=
  ⟨hv.graph, hv.prep, hm.inv, hv.needs, hv.notin, hv.obj, hv.op, hv.le, fun hx => hm.alloc x (hv.alloc hx), hv.ins⟩

theorem Visit.soft (hv : Visit h t P D A H x kind ins i0) {H'} (he : Extends H H') : Visit h t P D A H' x kind ins i0 :=
  ⟨hv.graph, hv.prep, hv.inv.extends he, hv.needs, hv.notin, hv.obj, hv.op, hv.le, fun hx => (hv.alloc hx).mono he.st, hv.ins⟩

theorem Visit.readied (hv : Visit h t P D A H x kind ins i0) {a D' H'} (hr : Readied h t P D A H a D' H') :
    Visit h t P D' A H' x kind ins i0 :=
  ⟨hv.graph, hv.prep, hr.inv, hv.needs, hv.notin, hv.obj, hv.op, hv.le, fun hx => hr.alloc x (hv.alloc hx), hv.ins⟩

theorem Spec.From.obj (hg : Graph h) {y : Nat} (hy : From h t y) (ht : t < h.ts.length) : ∃ i, h.ts[y]? = some i := by
  have := Spec.From.le hg hy
  exact ⟨_, List.getElem?_eq_getElem (by omega)⟩

theorem Visit.operand (hv : Visit h t P D A H x kind ins i0) {a : Nat} (ha : a ∈ ins) :
    ∃ i, h.ts[a]? = some i ∧ shapeOf h a = i.view.sizes := by
  have h1 := getElem?_lt hv.obj
  have h2 := (hv.ins a ha).2.2
  exact ⟨_, List.getElem?_eq_getElem (by omega), shapeOf_some (List.getElem?_eq_getElem (by omega))⟩

/-- The gradient storage of an operand is not that of `x`. -/
theorem Visit.apart (hv : Visit h t P D A H x kind ins i0) (hk : kind ≠ .noBack) {a d : Nat} (ha : a ∈ ins) (hD : D x = some d) :
    Needs h t a → D (owner h a) ≠ some d := fun hn hc => by
  have := hv.inv.apart x (owner h a) d hv.needs (owner_needs hv.graph hv.prep hn).1 (hv.notView hk) (owner_not_view hv.graph a)
    hv.notin (owner_closed hv.graph hv.prep hv.inv.closed hn (hv.ins a ha).2.1) hD hc
  have h1 := owner_le hv.graph a
  have h2 := (hv.ins a ha).2.2
  omega

/-- The gradient storage of an operand exists already or is not yet allocated. -/
theorem Visit.storeLt (hv : Visit h t P D A H x kind ins i0) {a : Nat} (ha : a ∈ ins) (hn : Needs h t a) {d : Nat}
    (hD : D (owner h a) = some d) : d < H.st.length := by
  have hno := (owner_needs hv.graph hv.prep hn).1
  obtain ⟨_, io, hio, _⟩ := id hno
  obtain ⟨s, hs, _⟩ := hv.inv.cells _ io d hno (owner_not_view hv.graph a)
    (owner_closed hv.graph hv.prep hv.inv.closed hn (hv.ins a ha).2.1) hio hD
  exact getElem?_lt hs

theorem Visit.outGrad (hv : Visit h t P D A H x kind ins i0) {u : Nat → List Nat → DualNumber F} (hl : Tangent h t u)
    (hk : kind ≠ .noBack) : ∃ g j f, getOutGrad x H = .ok g H ∧ j.view.sizes = i0.view.sizes ∧ j.dtype = i0.dtype ∧
      H.ts[g]? = some j ∧ Reads H j f ∧ D x = some j.data ∧ (∀ idx, InBox i0.view.sizes idx → real (f idx) = A x idx) ∧
      (∀ idx, InBox i0.view.sizes idx → position j.view idx = position i0.view idx) ∧
      ∀ a ∈ ins, Aside h t D H a g j f := by
  have hnv := hv.notView hk
  have ho := owner_self hnv
  obtain ⟨i, g, j, f, h1, h2, h3, h4, h5, _, h7, h8, h9, h10⟩ := hv.inv.gradReads hv.graph hv.prep hl hv.needs hv.notin (fun hc => hc ▸ hnv) hv.obj
    (by rw [ho]; exact hv.alloc hnv)
  rw [ho] at h7
  exact ⟨g, j, f, derefGrad_ok h1 h2, h5, h4, h3, h8, h7, h10 hnv, h9, fun a ha => ⟨h3, h8, hv.apart hk ha h7⟩⟩

/-- The elements of tensors of the graph. -/
theorem Visit.data (hv : Visit h t P D A H x kind ins i0) {y : Nat} {i : Impl} {f : List Nat → Val F}
    (hr : ReadStore h t i.data) (hi : h.ts[y]? = some i) (hf : Reads h i f) : ∃ i', i'.view = i.view ∧ i'.dtype = i.dtype ∧
      ∀ a ∈ ins, Aside h t D H a y i' f := by
  obtain ⟨i', h1, h2, h3, h4, _, h6⟩ := hv.inv.data hr hi hf
  refine ⟨i', h3, h2, fun a ha => ⟨h1, h6, fun hn hc => ?_⟩⟩
  rw [h4] at hc
  exact hv.inv.aside _ _ (owner_needs hv.graph hv.prep hn).1 (owner_not_view hv.graph a)
    (owner_closed hv.graph hv.prep hv.inv.closed hn (hv.ins a ha).2.1) hc hr

/-- A new tensor. -/
theorem Visit.temp (hv : Visit h t P D A H x kind ins i0) {H' : Heap F} {w : Nat} {dt : DType} {s : List Nat} {f : List Nat → Val F}
    (hb : Built H H' w dt s f none) : ∃ wi, wi.view.sizes = s ∧ wi.dtype = dt ∧ ∀ a ∈ ins, Aside h t D H' a w wi f := by
  obtain ⟨d, hd, hlt⟩ := hb.obj
  obtain ⟨i, hi, h1, h2, h3⟩ := hb.denotes
  rw [hd] at hi; injection hi with hi; subst hi
  refine ⟨_, h2, h1, fun a ha => ⟨hd, h3, fun hn hc => ?_⟩⟩
  have := hv.storeLt ha hn hc
  dsimp only at this
  omega

theorem reads_unique {i : Impl} {f f' : List Nat → Val F} (h1 : Reads h i f) (h2 : Reads h i f') {idx : List Nat}
    (hi : InBox i.view.sizes idx) : f idx = f' idx := by
  obtain ⟨s, c, hs, _, hb, _, hc⟩ := h1.cells
  obtain ⟨s', c', hs', _, hb', _, hc'⟩ := h2.cells
  rw [hs] at hs'; injection hs' with hs'; subst hs'
  rw [hb] at hb'; injection hb' with hb'; subst hb'
  obtain ⟨p, hp, hcp⟩ := hc idx hi
  obtain ⟨p', hp', hcp'⟩ := hc' idx hi
  have : p = p' := by rw [hp] at hp'; exact_mod_cast hp'
  subst this
  rw [hcp] at hcp'; injection hcp' with hcp'; injection hcp'

theorem Spec.Tangent.fst {u : Nat → List Nat → DualNumber F} (hl : Tangent h t u) {y : Nat} {i : Impl} (hy : From h t y)
    (hi : h.ts[y]? = some i) {f : List Nat → Val F} (hf : Reads h i f) {idx : List Nat} (hb : InBox i.view.sizes idx) :
    (u y idx).fst = real (f idx) := by
  obtain ⟨f', h1, h2⟩ := hl.value y i hy hi
  rw [h2 idx hb, reads_unique h1 hf hb]

theorem inputAt_ok {g : GradFn} {k a : Nat} (hk : g.inputs[k]? = some a) : inputAt (F := F) g k H = .ok a H := by
  unfold inputAt vecAt; rw [hk]; rfl

/-- What `step_back` has to do. -/
def Steps (h : Heap F) (t : Nat) (P : List Nat) (D : Nat → Option Nat) (A : Nat → List Nat → F) (H : Heap F) (x : Nat)
    (ins : List Nat) (m : M F Unit) : Prop :=
  ∃ D' A' H', m H = .ok () H' ∧
    Moved h t P x D A H (fun u => boxSum (shapeOf h x) fun idx => A x idx * (u x idx).snd) D' A' H' ∧
    ∀ a ∈ ins, Needs h t a → Alloc D' H' (owner h a)

open Classical in
/-- What a mean inside the computation adds. -/
noncomputable def through (h : Heap F) (t : Nat) (u : Nat → List Nat → DualNumber F) (x : Nat) : F :=
  if ∃ a, InnerMean h t x a then meanSlope h u x else 0

/-- As `Steps`, where a mean inside the computation adds its derivative whatever its gradient is. -/
def StepsM (h : Heap F) (t : Nat) (P : List Nat) (D : Nat → Option Nat) (A : Nat → List Nat → F) (H : Heap F) (x : Nat)
    (ins : List Nat) (m : M F Unit) : Prop :=
  ∃ D' A' H', m H = .ok () H' ∧
    Moved h t P x D A H (fun u => (boxSum (shapeOf h x) fun idx => A x idx * (u x idx).snd) + through h t u x) D' A' H' ∧
    ∀ a ∈ ins, Needs h t a → Alloc D' H' (owner h a)

theorem through_zero {u : Nat → List Nat → DualNumber F} (hn : ∀ a, ¬ InnerMean h t x a) : through h t u x = 0 :=
  if_neg fun ⟨a, ha⟩ => hn a ha

theorem Visit.stepsM {m : M F Unit} (hv : Visit h t P D A H x kind ins i0) (hk : kind ≠ .mean) (hs : Steps h t P D A H x ins m) :
    StepsM h t P D A H x ins m := by
  obtain ⟨D', A', H', h1, h2, h3⟩ := hs
  refine ⟨D', A', H', h1, h2.congr fun u _ => ?_, h3⟩
  obtain ⟨g0, q1, q2, _⟩ := hv.op
  rw [through_zero, add_zero]
  rintro a ⟨_, g, p1, p2, _⟩
  rw [q1] at p1; injection p1 with p1; subst p1
  exact hk (q2.symm.trans p2)

variable [Exact F] {u : Nat → List Nat → DualNumber F} {a b : Nat}

/-- Passing the gradient on unchanged. -/
theorem Visit.pass (hv : Visit h t P D A H x kind ins i0) (hl : Tangent h t u) (hk : kind ≠ .noBack) {ia : Impl} (ha : a ∈ ins)
    (hia : h.ts[a]? = some ia) (hb : Broadcasts ia.view.sizes i0.view.sizes i0.view.sizes) :
    ∃ D' A' H', (do tryAccGrad a (some (← getOutGrad x)) none) H = .ok () H' ∧
      Moved h t P x D A H (fun u => boxSum i0.view.sizes fun k => A x k * (u a (project ia.view.sizes k)).snd) D' A' H' ∧
      (Needs h t a → Alloc D' H' (owner h a)) := by
  obtain ⟨g, j, f, e1, e2, e3, e4, e5, e6, e7, _, e8⟩ := hv.outGrad hl hk
  obtain ⟨h1, h2, h3⟩ := hv.ins a ha
  obtain ⟨D', A', H', r1, r2, r3⟩ := hv.inv.addTo hv.graph hv.prep hl h1 h2 h3 hv.le hia (e8 a ha) (rg := i0.view.sizes)
    (by rw [e2]; exact hb)
  refine ⟨D', A', H', by rw [M.bind_ok e1]; exact r1, r2.congr fun u _ => boxSum_congr fun k hk => ?_, r3⟩
  rw [e2, project_self hk, e7 k hk]

theorem step_add (hv : Visit h t P D A H x .add ins i0) (hl : Tangent h t u) {g : GradFn} (hgi : g.inputs = ins) (hgk : g.kind = .add) :
    Steps h t P D A H x ins (stepBack x g) := by
  have hc := hv.computed hl
  obtain ⟨a, b, rfl⟩ : ∃ a b, ins = [a, b] := by
    rcases ins with _ | ⟨a, _ | ⟨b, _ | ⟨c, l⟩⟩⟩
    · exact hc.elim
    · exact hc.elim
    · exact ⟨a, b, rfl⟩
    · exact hc.elim
  obtain ⟨ia, hia, sa⟩ := hv.operand (a := a) (by simp)
  obtain ⟨ib, hib, sb⟩ := hv.operand (a := b) (by simp)
  have hB := hc.1
  rw [sa, sb, hv.shape] at hB
  obtain ⟨D1, A1, H1, r1, m1, o1⟩ := hv.pass hl (by decide) (by simp) hia hB.left
  obtain ⟨D2, A2, H2, r2, m2, o2⟩ := (hv.next m1).pass hl (by decide) (a := b) (by simp) hib hB.comm.left
  refine ⟨D2, A2, H2, ?_, (m1.trans m2).congr fun u hu => ?_, fun c hc hn => ?_⟩
  · unfold stepBack
    rw [hgk]
    dsimp only
    rw [M.bind_ok (inputAt_ok (by rw [hgi]; rfl)), ← bind_assoc, M.bind_ok r1, M.bind_ok (inputAt_ok (by rw [hgi]; rfl))]
    exact r2
  · have hc := hv.computed hu
    rw [hv.shape, ← boxSum_add]
    refine boxSum_congr fun k hk => ?_
    rw [hc.2 k (by rw [hv.shape]; exact hk), (m1.big x (le_refl _)).1, sa, sb]
    ring
  · rcases List.mem_pair.1 hc with rfl | rfl
    · exact m2.alloc _ (o1 hn)
    · exact o2 hn

omit [Exact F] in
theorem two_inputs {k : BackKind} (hk : k = .add ∨ k = .sub ∨ k = .mul ∨ k = .div) (hc : Follow h t u x k ins) :
    ∃ a b, ins = [a, b] := by
  rcases hk with rfl | rfl | rfl | rfl <;>
  · rcases ins with _ | ⟨a, _ | ⟨b, _ | ⟨c, l⟩⟩⟩
    · exact hc.elim
    · exact hc.elim
    · exact ⟨a, b, rfl⟩
    · exact hc.elim

omit [Exact F] in
theorem one_input {k : BackKind} (hk : k = .sum ∨ k = .mean ∨ k = .clone ∨ k = .noBack ∨ ∃ w, k = .knownGrad w)
    (hc : Follow h t u x k ins) : ∃ a, ins = [a] := by
  rcases hk with rfl | rfl | rfl | rfl | ⟨w, rfl⟩ <;>
  · rcases ins with _ | ⟨a, _ | ⟨b, l⟩⟩
    · exact hc.elim
    · exact ⟨a, rfl⟩
    · exact hc.elim

theorem step_clone (hv : Visit h t P D A H x .clone ins i0) (hl : Tangent h t u) {g : GradFn} (hgi : g.inputs = ins)
    (hgk : g.kind = .clone) : Steps h t P D A H x ins (stepBack x g) := by
  have hc := hv.computed hl
  obtain ⟨a, rfl⟩ := one_input (by simp) hc
  obtain ⟨ia, hia, sa⟩ := hv.operand (a := a) (by simp)
  have hs := hc.1
  rw [hv.shape, sa] at hs
  obtain ⟨D1, A1, H1, r1, m1, o1⟩ := hv.pass hl (by decide) (by simp) hia (by rw [← hs]; exact broadcasts_self _)
  refine ⟨D1, A1, H1, ?_, m1.congr fun u hu => ?_, fun c hc hn => ?_⟩
  · unfold stepBack
    rw [hgk]
    dsimp only
    rw [M.bind_ok (inputAt_ok (by rw [hgi]; rfl))]
    exact r1
  · have hc := hv.computed hu
    rw [hv.shape]
    refine boxSum_congr fun k hk => ?_
    rw [hc.2 k (by rw [hv.shape]; exact hk), ← hs, project_self hk]
  · rw [List.mem_singleton] at hc; subst hc; exact o1 hn

theorem step_sub (hv : Visit h t P D A H x .sub ins i0) (hl : Tangent h t u) {g : GradFn} (hgi : g.inputs = ins) (hgk : g.kind = .sub) :
    Steps h t P D A H x ins (stepBack x g) := by
  have hc := hv.computed hl
  obtain ⟨a, b, rfl⟩ := two_inputs (by simp) hc
  obtain ⟨ia, hia, sa⟩ := hv.operand (a := a) (by simp)
  obtain ⟨ib, hib, sb⟩ := hv.operand (a := b) (by simp)
  have hB := hc.1
  rw [sa, sb, hv.shape] at hB
  obtain ⟨D1, A1, H1, r1, m1, o1⟩ := hv.pass hl (by decide) (by simp) hia hB.left
  obtain ⟨H1', em, hbm, _⟩ := createScalar_ok (F := F) (dt := .i32) (v := .i (-1)) (by rw [hasType_i]; decide) H1
  have hv1 := hv.next m1
  obtain ⟨mi, ms, mt, masd⟩ := hv1.temp hbm
  have hv2 := hv1.soft hbm.ext
  obtain ⟨og, j, f, e1, e2, e3, e4, e5, e6, e7, _, e8⟩ := hv2.outGrad hl (by decide)
  obtain ⟨h1, h2, h3⟩ := hv2.ins b (by simp)
  have hjf : j.dtype.isFloat = true := by rw [e3]; exact hv.prep.float x i0 hv.needs hv.obj
  obtain ⟨D2, A2, H2, r2, m2, o2⟩ := hv2.inv.mulTo hv2.graph hv2.prep hl h1 h2 h3 hv2.le hib (e8 b (by simp)) (masd b (by simp))
    (Or.inl hjf) (r1 := i0.view.sizes) (rg := i0.view.sizes) (r2 := [])
    (fun _ => by rw [e2, ms]; exact ⟨hB.comm.left, broadcasts_nil _⟩) (fun hf => by rw [hjf] at hf; simp at hf)
    (fun k hk => hB.comm.left.reaches (i := ib) rfl hk) (fun k hk => (broadcasts_self _).reaches e2 hk)
    (fun k hk => (broadcasts_nil _).comm.reaches ms hk)
  have m2 := m2.extends hbm.ext
  refine ⟨D2, A2, H2, ?_, (m1.trans m2).congr fun u hu => ?_, fun c hc hn => ?_⟩
  · unfold stepBack
    rw [hgk]
    dsimp only
    rw [M.bind_ok (inputAt_ok (by rw [hgi]; rfl)), ← bind_assoc, M.bind_ok r1, M.bind_ok em,
      M.bind_ok (inputAt_ok (by rw [hgi]; rfl)), M.bind_ok e1]
    exact r2
  · have hc := hv.computed hu
    rw [hv.shape, ← boxSum_add]
    refine boxSum_congr fun k hk => ?_
    rw [hc.2 k (by rw [hv.shape]; exact hk), e2, project_self hk, e7 k hk, (m1.big x (le_refl _)).1, sa, sb]
    simp only [real, Int.cast_neg, Int.cast_one]
    ring
  · rcases List.mem_pair.1 hc with rfl | rfl
    · exact m2.alloc _ (o1 hn)
    · exact o2 hn

omit [FOps F] [Exact F] in
theorem readStore_from {y : Nat} {i : Impl} (hy : From h t y) (hi : h.ts[y]? = some i) : ReadStore h t i.data :=
  Or.inl ⟨y, i, hy, hi, rfl⟩

/-- One factor of a product. -/
theorem Visit.mulPass (hv : Visit h t P D A H x kind ins i0) (hl : Tangent h t u) (hk : kind ≠ .noBack) (ha : a ∈ ins) (hb : b ∈ ins)
    {ia ib : Impl} (hia : h.ts[a]? = some ia) (hib : h.ts[b]? = some ib)
    (hB : Broadcasts ia.view.sizes ib.view.sizes i0.view.sizes) :
    ∃ D' A' H', (do tryAccGrad a (some b) (some (← getOutGrad x))) H = .ok () H' ∧
      Moved h t P x D A H (fun u => boxSum i0.view.sizes fun k =>
        A x k * (u b (project ib.view.sizes k)).fst * (u a (project ia.view.sizes k)).snd) D' A' H' ∧
      (Needs h t a → Alloc D' H' (owner h a)) := by
  obtain ⟨og, j, f, e1, e2, e3, e4, e5, e6, e7, _, e8⟩ := hv.outGrad hl hk
  obtain ⟨fb, hrb, _⟩ := hl.value b ib (hv.ins b hb).1 hib
  obtain ⟨ib', v1, v2, hasd⟩ := hv.data (readStore_from (hv.ins b hb).1 hib) hib hrb
  obtain ⟨h1, h2, h3⟩ := hv.ins a ha
  have hjf : j.dtype.isFloat = true := by rw [e3]; exact hv.prep.float x i0 hv.needs hv.obj
  obtain ⟨D', A', H', r1, r2, r3⟩ := hv.inv.mulTo hv.graph hv.prep hl h1 h2 h3 hv.le hia (hasd a ha) (e8 a ha)
    (Or.inr hjf) (r1 := i0.view.sizes) (r2 := i0.view.sizes) (rg := i0.view.sizes)
    (fun _ => by rw [e2, v1]; exact ⟨hB, broadcasts_self _⟩)
    (fun _ => by rw [e2, v1]; exact ⟨hB.left, hB.right⟩)
    (fun k hk => hB.reaches (i := ia) rfl hk) (fun k hk => hB.comm.reaches (by rw [v1]) hk)
    (fun k hk => (broadcasts_self _).reaches e2 hk)
  refine ⟨D', A', H', by rw [M.bind_ok e1]; exact r1, r2.congr fun u hu => boxSum_congr fun k hk => ?_, r3⟩
  rw [e2, project_self hk, e7 k hk, v1, hu.fst (hv.ins b hb).1 hib hrb (hB.comm.inBox hk)]
  ring

theorem step_mul (hv : Visit h t P D A H x .mul ins i0) (hl : Tangent h t u) {g : GradFn} (hgi : g.inputs = ins) (hgk : g.kind = .mul) :
    Steps h t P D A H x ins (stepBack x g) := by
  have hc := hv.computed hl
  obtain ⟨a, b, rfl⟩ := two_inputs (by simp) hc
  obtain ⟨ia, hia, sa⟩ := hv.operand (a := a) (by simp)
  obtain ⟨ib, hib, sb⟩ := hv.operand (a := b) (by simp)
  have hB := hc.1
  rw [sa, sb, hv.shape] at hB
  obtain ⟨D1, A1, H1, r1, m1, o1⟩ := hv.mulPass hl (by decide) (a := a) (b := b) (by simp) (by simp) hia hib hB
  obtain ⟨D2, A2, H2, r2, m2, o2⟩ := (hv.next m1).mulPass hl (by decide) (a := b) (b := a) (by simp) (by simp) hib hia hB.comm
  refine ⟨D2, A2, H2, ?_, (m1.trans m2).congr fun u hu => ?_, fun c hc hn => ?_⟩
  · unfold stepBack
    rw [hgk]
    dsimp only
    have i0 : ∀ H : Heap F, inputAt (F := F) g 0 H = .ok a H := fun H => inputAt_ok (by rw [hgi]; rfl)
    have i1 : ∀ H : Heap F, inputAt (F := F) g 1 H = .ok b H := fun H => inputAt_ok (by rw [hgi]; rfl)
    rw [M.bind_ok (i0 _), M.bind_ok (i1 _), ← bind_assoc, M.bind_ok r1, M.bind_ok (i1 _), M.bind_ok (i0 _)]
    exact r2
  · have hc := hv.computed hu
    rw [hv.shape, ← boxSum_add]
    refine boxSum_congr fun k hk => ?_
    rw [hc.2 k (by rw [hv.shape]; exact hk), (m1.big x (le_refl _)).1, sa, sb]
    ring
  · rcases List.mem_pair.1 hc with rfl | rfl
    · exact m2.alloc _ (o1 hn)
    · exact o2 hn

theorem step_noBack (hv : Visit h t P D A H x .noBack ins i0) (hl : Tangent h t u) {g : GradFn} (hgi : g.inputs = ins)
    (hgk : g.kind = .noBack) : Steps h t P D A H x ins (stepBack x g) := by
  have hc := hv.computed hl
  obtain ⟨a, rfl⟩ := one_input (by simp) hc
  obtain ⟨ia, hia, sa⟩ := hv.operand (a := a) (by simp)
  have hview : IsView h x := by
    obtain ⟨g0, h1, h2, _⟩ := hv.op
    exact ⟨g0, h1, h2⟩
  have huse : Uses h x a := by
    obtain ⟨g0, h1, h2, h3⟩ := hv.op
    unfold Uses operands
    rw [h1]
    simp [h3]
  have hn := (hv.prep.view x a hv.needs hview huse).1
  obtain ⟨h1, h2, h3⟩ := hv.ins a (by simp)
  obtain ⟨D1, H1, er, hR⟩ := tryAcc_ok hv.graph hv.prep hv.inv hn h2 fun hc => by have := hv.le; omega
  obtain ⟨_, ia', hia', hrq⟩ := id hn
  obtain ⟨i', hi', _, _, _, e4, _⟩ := hv.inv.obj hia'
  have hoa := owner_le hv.graph a
  refine ⟨D1, A, H1, ?_, ⟨hR.inv, fun o ho => ⟨rfl, hR.other o (by omega)⟩, hR.alloc, fun u hu => ?_⟩, fun c hc _ => ?_⟩
  · unfold stepBack
    rw [hgk]
    dsimp only
    rw [M.bind_ok (inputAt_ok (by rw [hgi]; rfl)), tryAccGrad_some hi' (e4.trans hrq) er]
    rfl
  · rw [boxSum_zero, add_zero]
    intro idx _
    rw [hv.inv.zero x (Or.inr (Or.inl hview)), zero_mul]
  · rw [List.mem_singleton] at hc; subst hc; exact hR.own

omit [FOps F] [Exact F] in
theorem snd_boxSum (s : List Nat) (f : List Nat → DualNumber F) : (boxSum s f).snd = boxSum s fun k => (f k).snd := by
  unfold boxSum
  induction rowMajor s with
  | nil => simp
  | cons a l ih => simp only [List.map_cons, List.sum_cons, TrivSqZeroExt.snd_add, ih]

theorem one_convert (dt : DType) : ∃ w : Val F, convert .i8 dt (.i 1) = some w ∧ real w = 1 := by
  cases dt <;> first
    | exact ⟨.i 1, rfl, by simp [real]⟩
    | exact ⟨.f (FOps.ofInt _ 1), rfl, by simp only [real, Exact.ofInt, Int.cast_one]⟩

theorem onesLike_ok {i : Impl} (hi : H.ts[a]? = some i) (hb : vol i.view.sizes * i.dtype.size < 9223372036854775808) :
    ∃ H' w v, onesLike a H = .ok w H' ∧ Built H H' w i.dtype i.view.sizes (fun _ => v) none ∧ real v = 1 := by
  obtain ⟨v, hc, hv⟩ := one_convert (F := F) i.dtype
  obtain ⟨H', w, e, hbt⟩ := fillNew_ok (F := F) (nt := .i8) (dt := i.dtype) (v := .i 1) (by rw [hasType_i]; decide) hc hb H
  refine ⟨H', w, v, ?_, hbt, hv⟩
  unfold onesLike
  rw [M.bind_ok (getT_ok' hi)]
  exact e

theorem step_sum (hv : Visit h t P D A H x .sum ins i0) (hl : Tangent h t u) {g : GradFn} (hgi : g.inputs = ins) (hgk : g.kind = .sum) :
    Steps h t P D A H x ins (stepBack x g) := by
  have hc := hv.computed hl
  obtain ⟨a, rfl⟩ := one_input (by simp) hc
  obtain ⟨ia, hia, sa⟩ := hv.operand (a := a) (by simp)
  have hs0 := hc.1
  rw [hv.shape] at hs0
  obtain ⟨h1, h2, h3⟩ := hv.ins a (by simp)
  obtain ⟨ia', hia', t1, t2, _⟩ := hv.inv.obj hia
  obtain ⟨H1, w, v, ew, hbw, hv1⟩ := onesLike_ok (F := F) hia' (by rw [t1, t2]; exact hv.prep.bytes a ia h1 hia)
  obtain ⟨wi, ws, wt, wasd⟩ := hv.temp hbw
  have hv2 := hv.soft hbw.ext
  obtain ⟨og, j, f, e1, e2, e3, e4, e5, e6, e7, _, e8⟩ := hv2.outGrad hl (by decide)
  rw [t2] at ws
  rw [hs0] at e2
  have hjf : j.dtype.isFloat = true := by rw [e3]; exact hv.prep.float x i0 hv.needs hv.obj
  obtain ⟨D', A', H', r1, m1, o1⟩ := hv2.inv.mulTo hv2.graph hv2.prep hl h1 h2 h3 hv.le hia (wasd a (by simp)) (e8 a (by simp))
    (Or.inr hjf) (r1 := ia.view.sizes) (r2 := ia.view.sizes) (rg := ia.view.sizes)
    (fun _ => by rw [e2, ws]; exact ⟨broadcasts_self _, broadcasts_nil _⟩)
    (fun _ => by rw [e2, ws]; exact ⟨broadcasts_nil _, broadcasts_self _⟩)
    (fun k hk => (broadcasts_self _).reaches (i := ia) rfl hk) (fun k hk => (broadcasts_self _).reaches ws hk)
    (fun k hk => (broadcasts_nil _).comm.reaches e2 hk)
  refine ⟨D', A', H', ?_, (m1.extends hbw.ext).congr fun u hu => ?_, fun c hc hn => ?_⟩
  · unfold stepBack
    rw [hgk]
    dsimp only
    rw [M.bind_ok (inputAt_ok (by rw [hgi]; rfl)), M.bind_ok ew, M.bind_ok e1]
    exact r1
  · have hc := hv.computed hu
    have hnil : ∀ f : List Nat → F, boxSum [] f = f [] := fun f => by simp [boxSum, rowMajor]
    rw [hv.shape, hs0, hnil, hc.2, sa, ← boxSum_mul_left]
    refine boxSum_congr fun k hk => ?_
    have hp : project j.view.sizes k = [] := by rw [e2]; unfold project; simp
    rw [hp, e7 [] (by rw [hs0]; trivial), hv1, project_self hk]
    ring
  · rw [List.mem_singleton] at hc; subst hc; exact o1 hn

theorem step_mean (hv : Visit h t P D A H x .mean ins i0) (hl : Tangent h t u) {g : GradFn} (hgi : g.inputs = ins) (hgk : g.kind = .mean) :
    StepsM h t P D A H x ins (stepBack x g) := by
  obtain ⟨g0, q1, q2, q3⟩ := hv.op
  obtain ⟨a, rfl⟩ : ∃ a, ins = [a] := by
    have := hv.graph.arity x g0 q1
    rw [q2, q3] at this
    exact length_one this
  obtain ⟨ia, hia, sa⟩ := hv.operand (a := a) (by simp)
  have hinner : x ≠ t → InnerMean h t x a := fun hx => ⟨hx, g0, q1, q2, q3⟩
  have hroot : x = t → ∀ u, Tangent h t u → Follow h t u x .mean [a] := fun hx u hu => by
    have := hu.op x g0 hv.needs.1 q1 fun _ hc => hc.1 hx
    rwa [q2, q3] at this
  have hside : Needs h t a ∧ shapeOf h x = [] ∧ (vol (shapeOf h a) : F) ≠ 0 := by
    by_cases hx : x = t
    · obtain ⟨_, k1, k2, k3, _⟩ := hroot hx u hl
      exact ⟨k1, k2, k3⟩
    · obtain ⟨k1, k2, k3, _⟩ := hl.mean x a hv.needs.1 (hinner hx)
      exact ⟨k1, k2, k3⟩
  obtain ⟨hna, hs0, hvol⟩ := hside
  rw [hv.shape] at hs0
  rw [sa] at hvol
  obtain ⟨h1, h2, h3⟩ := hv.ins a (by simp)
  obtain ⟨ia', hia', t1, t2, _⟩ := hv.inv.obj hia
  have hby := hv.prep.bytes a ia h1 hia
  have hfl := hv.prep.float a ia hna hia
  have hn : numel ia.view.sizes = vol ia.view.sizes := numel_eq_vol (by have := vol_lt_of_bytes hby; omega)
  have hcv : convert .f64 ia.dtype (meanCoef (F := F) (numel ia.view.sizes)) = some (.f (1 / (vol ia.view.sizes : F))) := by
    unfold convert meanCoef
    have : isInteger ia.dtype = false := by revert hfl; cases ia.dtype <;> decide
    rw [this, hn]
    simp only [Bool.false_eq_true, if_false, Exact.div, Exact.ofInt, Exact.cvt, ite_self, Int.cast_one, Int.cast_natCast]
  obtain ⟨H1, w, ew, hbw⟩ := fillNew_ok (F := F) (nt := .f64) (dt := ia.dtype) (s := ia.view.sizes) (hasFloat (by decide) _) hcv hby H
  obtain ⟨wi, ws, wt, wasd⟩ := hv.temp hbw
  have hv2 := hv.soft hbw.ext
  obtain ⟨D', A', H', r1, m1, o1⟩ := hv2.inv.addTo hv2.graph hv2.prep hl h1 h2 h3 hv.le hia (wasd a (by simp)) (rg := ia.view.sizes)
    (by rw [ws]; exact broadcasts_self _)
  refine ⟨D', A', H', ?_, (m1.extends hbw.ext).congr fun u hu => ?_, fun c hc hn => ?_⟩
  · unfold stepBack
    rw [hgk]
    dsimp only
    rw [M.bind_ok (inputAt_ok (by rw [hgi]; rfl)), M.bind_ok (getT_ok' hia'), t1, t2]
    have : full ia.view.sizes .f64 (meanCoef (numel ia.view.sizes)) ia.dtype H = .ok w H1 := ew
    rw [M.bind_ok this]
    exact r1
  · have hnil : ∀ f : List Nat → F, boxSum [] f = f [] := fun f => by simp [boxSum, rowMajor]
    have hsum : boxSum ia.view.sizes (fun k => real (Val.f (1 / (vol ia.view.sizes : F))) * (u a (project ia.view.sizes k)).snd) =
        1 / (vol ia.view.sizes : F) * boxSum ia.view.sizes fun k => (u a k).snd := by
      rw [← boxSum_mul_left]
      refine boxSum_congr fun k hk => ?_
      rw [project_self hk]; rfl
    rw [hv.shape, hs0, hnil, hsum]
    by_cases hxt : x = t
    · obtain ⟨_, _, _, _, hm⟩ := hroot hxt u hu
      rw [sa] at hm
      have hA : A x [] = 1 := by
        rw [hxt]
        exact hv.inv.root (hxt ▸ hv.notView (by decide)) (by rw [← hxt]; exact hv.notin) [] (by rw [← hxt, hv.shape, hs0]; trivial)
      rw [hA, one_mul, through_zero fun _ hc => hc.1 hxt, add_zero, hm, one_div, div_eq_inv_mul]
    · rw [(hu.mean x a hv.needs.1 (hinner hxt)).2.2.2, mul_zero, zero_add]
      unfold through meanSlope operands
      rw [if_pos ⟨a, hinner hxt⟩, q1]
      simp only [Option.map_some, Option.getD_some, q3]
      rw [sa, one_div, div_eq_inv_mul]
  · rw [List.mem_singleton] at hc; subst hc; exact o1 hn

theorem step_known {kg : Nat} (hv : Visit h t P D A H x (.knownGrad kg) ins i0) (hl : Tangent h t u) {g : GradFn} (hgi : g.inputs = ins)
    (hgk : g.kind = .knownGrad kg) : Steps h t P D A H x ins (stepBack x g) := by
  have hc := hv.computed hl
  obtain ⟨a, rfl⟩ := one_input (by simp) hc
  obtain ⟨ia, hia, sa⟩ := hv.operand (a := a) (by simp)
  obtain ⟨ik, fk, hik, sk, fl, hrk, hB, _⟩ := hc
  rw [sa] at sk hB
  rw [hv.shape] at hB
  obtain ⟨h1, h2, h3⟩ := hv.ins a (by simp)
  obtain ⟨og, j, f, e1, e2, e3, e4, e5, e6, e7, _, e8⟩ := hv.outGrad hl (by simp)
  obtain ⟨g0, q1, q2, _⟩ := hv.op
  obtain ⟨ik', v1, v2, hasd⟩ := hv.data (Or.inr ⟨x, g0, kg, ik, hv.needs.1, q1, q2, hik, rfl⟩) hik hrk
  have hjf : j.dtype.isFloat = true := by rw [e3]; exact hv.prep.float x i0 hv.needs hv.obj
  obtain ⟨D', A', H', r1, m1, o1⟩ := hv.inv.mulTo hv.graph hv.prep hl h1 h2 h3 hv.le hia (hasd a (by simp)) (e8 a (by simp))
    (Or.inr hjf) (r1 := ia.view.sizes) (r2 := []) (rg := ia.view.sizes)
    (fun _ => by rw [e2, v1, sk]; exact ⟨broadcasts_self _, hB⟩)
    (fun hf => by rw [v2, fl] at hf; simp at hf)
    (fun k hk => (broadcasts_self _).reaches (i := ia) rfl hk) (fun k hk => (broadcasts_self _).reaches (by rw [v1, sk]) hk)
    (fun k hk => hB.comm.reaches e2 hk)
  refine ⟨D', A', H', ?_, m1.congr fun u hu => ?_, fun c hc hn => ?_⟩
  · unfold stepBack
    rw [hgk]
    dsimp only
    rw [M.bind_ok (inputAt_ok (by rw [hgi]; rfl)), M.bind_ok e1]
    exact r1
  · obtain ⟨ik2, fk2, hik2, _, _, hrk2, _, hux⟩ := hv.computed hu
    rw [hik] at hik2; injection hik2 with hik2; subst hik2
    rw [hv.shape, sa] at hux
    rw [hv.shape, boxSum_congr (s := i0.view.sizes) (g := fun idx => boxSum ia.view.sizes fun k =>
      if project i0.view.sizes k = idx then A x idx * (real (fk2 k) * (u a k).snd) else 0) fun idx hi => ?_]
    · rw [boxSum_swap]
      refine boxSum_congr fun k hk => ?_
      rw [boxSum_single (idx := project i0.view.sizes k) (hB.comm.inBox hk), if_pos rfl, e2, v1, sk, project_self hk,
        e7 _ (hB.comm.inBox hk), reads_unique hrk2 hrk (by rw [sk]; exact hk)]
      · ring
      · intro b _ hb
        rw [if_neg (Ne.symm hb)]
    · rw [hux idx hi, ← boxSum_mul_left]
      refine boxSum_congr fun k hk => ?_
      split
      · rfl
      · rw [mul_zero]
  · rw [List.mem_singleton] at hc; subst hc; exact o1 hn

/-- A kernel that adds to the gradient of the operand `a`. -/
theorem Visit.kernel (hv : Visit h t P D A H x kind ins i0) (hl : Tangent h t u) (ha : a ∈ ins) (hn : Needs h t a) {ia : Impl}
    (hia : h.ts[a]? = some ia) {D1 : Nat → Option Nat} {H1 H' : Heap F} (hR : Readied h t P D A H a D1 H1) {j : Impl}
    (hD : D1 (owner h a) = some j.data) (hjs : j.view.sizes = ia.view.sizes)
    (hpos : ∀ idx, InBox ia.view.sizes idx → position j.view idx = position ia.view idx)
    {rg : List Nat} {w : List Nat → F} (hin : ∀ k, InBox rg k → InBox ia.view.sizes (project ia.view.sizes k))
    (hsc : Scattered H1 j rg w H') :
    ∃ A', Moved h t P x D A H (fun u => boxSum rg fun k => w k * (u a (project ia.view.sizes k)).snd) D1 A' H' ∧
      Alloc D1 H' (owner h a) := by
  have h1 := owner_le hv.graph a
  obtain ⟨_, h2, h3⟩ := hv.ins a ha
  have hle := hv.le
  obtain ⟨A', hG', hA', hal', _, hphi⟩ := hR.inv.scattered hv.graph hv.prep hl hn h2 (by omega) hia hD hjs hpos hin hsc
  exact ⟨A', ⟨hG', fun o ho => ⟨hA' o (by omega), hR.other o (by omega)⟩, fun o ho => hal' o (hR.alloc o ho), hphi⟩, hal' _ hR.own⟩

theorem step_div (hv : Visit h t P D A H x .div ins i0) (hl : Tangent h t u) {g : GradFn} (hgi : g.inputs = ins) (hgk : g.kind = .div) :
    Steps h t P D A H x ins (stepBack x g) := by
  have hc := hv.computed hl
  obtain ⟨a, b, rfl⟩ := two_inputs (by simp) hc
  obtain ⟨ia, hia, sa⟩ := hv.operand (a := a) (by simp)
  obtain ⟨ib, hib, sb⟩ := hv.operand (a := b) (by simp)
  obtain ⟨hB, hsb, hna, hnb, _⟩ := hc
  rw [sa, sb, hv.shape] at hB
  rw [sb, hv.shape] at hsb
  obtain ⟨fa1, fa2, fa3⟩ := hv.ins a (by simp)
  obtain ⟨fb1, fb2, fb3⟩ := hv.ins b (by simp)
  have hxf := hv.prep.float x i0 hv.needs hv.obj
  -- the numerator
  obtain ⟨D1, H1, er1, hR1⟩ := tryAcc_ok hv.graph hv.prep hv.inv hna fa2 fun hc => by have := hv.le; omega
  have hv1 := hv.readied hR1
  obtain ⟨ia1, ga, ja, f, hia1, hgr, hja, hjt, hjs, _, hDj, hrj, hpos, _⟩ := hR1.inv.gradReads hv.graph hv.prep hl hna fa2
    (fun hc => by have := hv.le; omega) hia hR1.own
  obtain ⟨og, jo, fo, e1, e2, e3, e4, e5, e6, e7, _, e8⟩ := hv1.outGrad hl (by decide)
  obtain ⟨fb, hrb, _⟩ := hl.value b ib fb1 hib
  obtain ⟨ib1, v1, v2, hasd⟩ := hv1.data (readStore_from fb1 hib) hib hrb
  have hjaf : ja.dtype.isFloat = true := by rw [hjt]; exact hv.prep.float a ia hna hia
  have hjof : jo.dtype.isFloat = true := by rw [e3]; exact hxf
  obtain ⟨H2, ek, hsc⟩ := tensorDivBackNum_exact (dst := ja) (l := jo) (r := ib1) hrj hjaf (e8 a (by simp)).reads (hasd a (by simp)).reads
    (fun e => (e8 a (by simp)).ne hna (by rw [e]; exact hDj)) (fun e => (hasd a (by simp)).ne hna (by rw [e]; exact hDj)) hjof
    (fun k hk => hB.reaches hjs (by rw [← e2]; exact hk))
    (fun k hk => hB.comm.reaches (by rw [v1]) (by rw [← e2]; exact hk))
  obtain ⟨A2, m1, o1⟩ := hv.kernel hl (by simp) hna hia hR1 hDj hjs hpos (rg := jo.view.sizes)
    (fun k hk => hB.inBox (by rw [← e2]; exact hk)) hsc
  have k1 : divBackNum ga og b H1 = .ok () H2 := by
    unfold divBackNum
    rw [M.bind_ok (getT_ok' hja), M.bind_ok (getT_ok' e4), M.bind_ok (getT_ok' (hasd a (by simp)).obj), hjaf, hjof]
    exact ek
  -- the denominator
  have hv2 := hv.next m1
  obtain ⟨D3, H3, er3, hR3⟩ := tryAcc_ok hv2.graph hv2.prep hv2.inv hnb fb2 fun hc => by have := hv.le; omega
  have hv3 := hv2.readied hR3
  obtain ⟨ib3, gb, jb, f3, hib3, hgr3, hjb, hjt3, hjs3, _, hDj3, hrj3, hpos3, _⟩ :=
    hR3.inv.gradReads hv2.graph hv2.prep hl hnb fb2 (fun hc => by have := hv.le; omega) hib hR3.own
  obtain ⟨og3, jo3, fo3, c1, c2, c3, c4, c5, c6, c7, _, c8⟩ := hv3.outGrad hl (by decide)
  obtain ⟨ib4, w1, w2, hasd3⟩ := hv3.data (readStore_from fb1 hib) hib hrb
  obtain ⟨fx, hrx, _⟩ := hl.value x i0 hv.needs.1 hv.obj
  obtain ⟨ix, y1, y2, hasdx⟩ := hv3.data (readStore_from hv.needs.1 hv.obj) hv.obj hrx
  have hbf := hv.prep.float b ib hnb hib
  obtain ⟨H4, ek4, hsc4⟩ := tensorDivBackDen_exact (dst := jb) (og := jo3) (qt := ix) (dn := ib4) (Den := ib4.dtype) (Quot := ix.dtype) hrj3
    (by rw [w2]; exact hbf) (by rw [y2]; exact hxf) (c8 b (by simp)).reads (hasdx b (by simp)).reads (hasd3 b (by simp)).reads
    (fun e => (c8 b (by simp)).ne hnb (by rw [e]; exact hDj3)) (fun e => (hasdx b (by simp)).ne hnb (by rw [e]; exact hDj3))
    (fun e => (hasd3 b (by simp)).ne hnb (by rw [e]; exact hDj3))
    (by rw [w2]; exact hjt3) rfl (by rw [y2]; exact c3) rfl (by rw [hjs3, y1]; exact hsb) (by rw [c2, y1]) (by rw [w1, y1]; exact hsb)
  obtain ⟨A4, m3, o3⟩ := hv2.kernel hl (a := b) (by simp) hnb hib hR3 hDj3 hjs3 hpos3 (rg := ix.view.sizes)
    (fun k hk => hB.comm.inBox (by rw [← y1]; exact hk)) hsc4
  have hbobj : H3.ts[b]? = some ib4 := (hasd3 b (by simp)).obj
  have hxobj : H3.ts[x]? = some ix := (hasdx b (by simp)).obj
  have k3 : divBackDen x b H3 = .ok () H4 := by
    unfold divBackDen
    rw [M.bind_ok (getT_ok' hbobj), M.bind_ok (getT_ok' hxobj), if_pos (by rw [w2, y2, hbf, hxf]; rfl),
      M.bind_ok (derefGrad_ok hib3 hgr3), M.bind_ok c1, M.bind_ok (getT_ok' hjb), M.bind_ok (getT_ok' c4)]
    exact ek4
  refine ⟨D3, A4, H4, ?_, (m1.trans m3).congr fun u hu => ?_, fun c hc _ => ?_⟩
  · unfold stepBack
    rw [hgk]
    dsimp only
    rw [M.bind_ok (inputAt_ok (by rw [hgi]; rfl)), M.bind_ok (inputAt_ok (by rw [hgi]; rfl)), M.bind_ok er1,
      M.bind_ok (derefGrad_ok hia1 hgr), M.bind_ok e1, M.bind_ok k1, M.bind_ok er3]
    exact k3
  · obtain ⟨_, _, _, _, hux⟩ := hv.computed hu
    rw [hv.shape, e2, y1, ← boxSum_add]
    refine boxSum_congr fun k hk => ?_
    obtain ⟨hne, hmul⟩ := hux k (by rw [hv.shape]; exact hk)
    have hkb : InBox ib.view.sizes k := by rw [hsb]; exact hk
    have q1 : real (fb k) = (u b k).fst := (hu.fst fb1 hib hrb hkb).symm
    have q2 : real (fx k) = (u x k).fst := (hu.fst hv.needs.1 hv.obj hrx hk).symm
    rw [sa] at hmul
    rw [e7 k hk, c7 k hk, (m1.big x (le_refl _)).1, v1, project_self hkb, q1, q2, hmul]
    field_simp
    ring
  · rcases List.mem_pair.1 hc with rfl | rfl
    · exact m3.alloc _ o1
    · exact o3

end
end INNC
