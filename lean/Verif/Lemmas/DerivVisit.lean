import Verif.Lemmas.DerivCat
/-
A visit of the main loop of back-propagation, and the whole loop.
-/
namespace INNC
open Spec Tensor
variable {F : Type}

theorem readyInputs_soft : ∀ (xs : List Nat) (H : Heap F), Exist H xs →
    ∃ new H', readyInputs xs H = .ok new H' ∧ Soft H H' ∧ H'.st = H.st
  | [], H, _ => ⟨[], H, rfl, .of_ts rfl, rfl⟩
  | x :: xs, H, he => by
    have hxl := he x (by simp)
    have hi : H.ts[x]? = some H.ts[x] := List.getElem?_eq_getElem hxl
    have he' : Exist H xs := fun y hy => he y (by simp [hy])
    unfold readyInputs
    rw [M.bind_ok (getT_ok hi)]
    rw [M.bind_ok (x := getVersion) (a := H.gver) (h' := H) rfl]
    cases hg : H.ts[x].gradFn with
    | none => exact readyInputs_soft xs H he'
    | some g =>
      simp only
      split
      · have hs : Soft H { H with ts := H.ts.set x { H.ts[x] with gradFn := some { g with backVersion := H.gver } } } :=
          soft_set hi (by simp [skel, hg]) rfl
        rw [M.bind_ok (setGF_ok hi _)]
        obtain ⟨new, H', e, h1, h2⟩ := readyInputs_soft xs
          { H with ts := H.ts.set x { H.ts[x] with gradFn := some { g with backVersion := H.gver } } } fun y hy => by
            have := he' y hy
            simpa using this
        rw [M.bind_ok e]
        exact ⟨_, H', rfl, hs.trans h1, h2⟩
      · exact readyInputs_soft xs H he'

variable [Field F] [FOps F]

/-- The list of processed tensors matters only as a set. -/
theorem GInv.perm {h : Heap F} {t : Nat} {P P' : List Nat} {D : Nat → Option Nat} {A : Nat → List Nat → F} {H : Heap F}
    (hG : GInv h t P D A H) (hP : ∀ x, x ∈ P' ↔ x ∈ P) : GInv h t P' D A H := by
  obtain ⟨a1, a2, a3, a4, a5, a6, a7, a8, a9, a10, a11, a12⟩ := hG
  refine ⟨a1, a2, ?_, ?_, ?_, ?_, ?_, ?_, ?_, ?_, a11, ?_⟩ <;> simp only [hP] <;> assumption

/-- Processing of `x` is finished: its gradient does not matter any more. -/
theorem GInv.done {h : Heap F} {t : Nat} {P : List Nat} {D : Nat → Option Nat} {A : Nat → List Nat → F} {H H' : Heap F}
    (hg : Graph h) (hp : Prepared h t) (hG : GInv h t P D A H) {x : Nat} (hu : ∀ y, From h t y → Uses h y x → y ∈ P)
    (hal : ∀ a, Uses h x a → Needs h t a → Alloc D H (owner h a)) (hst : H'.st = H.st)
    (hk : ∀ (y : Nat) (i : Impl), H.ts[y]? = some i → ∃ i', H'.ts[y]? = some i' ∧ INNC.skel i' = INNC.skel i ∧ (y ≠ x → i'.grad = i.grad)) :
    GInv h t (x :: P) D (Function.update A x fun _ => 0) H' where
  skel := fun y i hi => by
    obtain ⟨i1, h1, h2⟩ := hG.skel y i hi
    obtain ⟨i2, h3, h4, _⟩ := hk y i1 h1
    exact ⟨i2, h3, h4.trans h2⟩
  read := fun d s hd hs => by rw [hst]; exact hG.read d s hd hs
  none_ := fun y hn hP hv hD => by
    obtain ⟨hyx, hyP⟩ := not_or.1 (fun hc => hP (List.mem_cons.2 hc))
    obtain ⟨h1, h2, h3⟩ := hG.none_ y hn hyP hv hD
    refine ⟨h1, ?_, by rw [Function.update_of_ne hyx]; exact h3⟩
    obtain ⟨_, i, hi, _⟩ := hn
    obtain ⟨i', hi', _⟩ := hG.skel y i hi
    obtain ⟨i'', hi'', _, hgr⟩ := hk y i' hi'
    rw [gradAt_some hi'', hgr hyx, ← gradAt_some hi', h2]
  some_ := fun y d hn hP hv hD => by
    obtain ⟨hyx, hyP⟩ := not_or.1 (fun hc => hP (List.mem_cons.2 hc))
    obtain ⟨i, g, j, h1, h2, h3, h4, h5, h6, h7, h8, h9, h10⟩ := hG.some_ y d hn hyP hv hD
    obtain ⟨i', a1, a2, a3⟩ := hk y i h1
    obtain ⟨j', b1, b2, _⟩ := hk g j h3
    obtain ⟨s1, s2, s3, s4, _⟩ := skel_eq a2
    obtain ⟨r1, r2, r3, r4, _⟩ := skel_eq b2
    refine ⟨i', g, j', a1, (a3 hyx).trans h2, b1, ?_⟩
    rw [r1, r2, r3, r4, s1, s2]
    exact ⟨h4, h5, h6, h7, h8, h9, h10⟩
  cells := fun o i d hn hv hP hi hD => by
    obtain ⟨hyx, hyP⟩ := not_or.1 (fun hc => hP (List.mem_cons.2 hc))
    obtain ⟨s, h1, rest⟩ := hG.cells o i d hn hv hyP hi hD
    rw [Function.update_of_ne hyx]
    exact ⟨s, by rw [hst]; exact h1, rest⟩
  apart := fun o o' d h1 h2 h3 h4 h5 h6 => hG.apart o o' d h1 h2 h3 h4 (fun hc => h5 (by simp [hc])) (fun hc => h6 (by simp [hc]))
  aside := fun o d h1 h2 h3 => hG.aside o d h1 h2 (fun hc => h3 (by simp [hc]))
  zero := fun o ho idx => by
    by_cases hox : o = x
    · subst hox; rw [Function.update_self]
    · rw [Function.update_of_ne hox]
      refine hG.zero o ?_ idx
      rcases ho with ho | ho | ho
      · exact Or.inl ho
      · exact Or.inr (Or.inl ho)
      · exact Or.inr (Or.inr ((List.mem_cons.1 ho).resolve_left hox))
  root := fun hv hP idx hi => by
    obtain ⟨hyx, hyP⟩ := not_or.1 (fun hc => hP (List.mem_cons.2 hc))
    rw [Function.update_of_ne hyx]
    exact hG.root hv hyP idx hi
  closed := fun b hb y hy hub => by
    rcases List.mem_cons.1 hb with rfl | hb
    · exact List.mem_cons_of_mem _ (hu y hy hub)
    · exact List.mem_cons_of_mem _ (hG.closed b hb y hy hub)
  inH := hG.inH
  started := fun a hn hP hc => by
    obtain ⟨hyx, hyP⟩ := not_or.1 (fun hc => hP (List.mem_cons.2 hc))
    refine Alloc.mono (H := H) (fun e s he => by rw [hst]; exact he) ?_
    rcases hc with hc | ⟨y, hy, hya⟩
    · exact hG.started a hn hyP (Or.inl hc)
    · rcases List.mem_cons.1 hy with rfl | hy
      · exact hal a hya hn
      · exact hG.started a hn hyP (Or.inr ⟨y, hy, hya⟩)

variable [Exact F]

theorem visit_ok {h : Heap F} {t : Nat} {P : List Nat} {D : Nat → Option Nat} {A : Nat → List Nat → F} {H : Heap F} {x : Nat}
    {u0 : Nat → List Nat → DualNumber F} (hg : Graph h) (hp : Prepared h t) (hl : Tangent h t u0) (hG : GInv h t P D A H)
    (ht : t < h.ts.length) (hn : Needs h t x) (hin : Interior h x) (hx : x ∉ P) (hu : ∀ y, From h t y → Uses h y x → y ∈ P) :
    ∃ D' A' H' new, backVisit x H = .ok new H' ∧ GInv h t (x :: P) D' A' H' ∧
      ∀ u, Tangent h t u → pairing h u A' = pairing h u A + through h t u x := by
  obtain ⟨i0, g0, hi0, hgf0⟩ := hin.obj
  have hop : opOf h x = some g0 := by rw [opOf_some hi0, hgf0]
  have huses : ∀ a, Uses h x a ↔ a ∈ g0.inputs := fun a => by unfold Uses operands; rw [hop]
  have hv : Visit h t P D A H x g0.kind g0.inputs i0 := by
    refine ⟨hg, hp, hG, hn, hx, hi0, ⟨g0, hop, rfl, rfl⟩, Spec.From.le hg hn.1, fun hnv => ?_, fun a ha => ?_⟩
    · have := hG.started x hn hx ?_
      · rwa [owner_self hnv] at this
      · rcases hn.1 with _ | ⟨hf, hus⟩
        · exact Or.inl ⟨rfl, hnv⟩
        · exact Or.inr ⟨_, hu _ hf hus, hus⟩
    · have := (huses a).2 ha
      exact ⟨.step hn.1 this, fun hc => hx (hG.closed a hc x hn.1 this), hg.older _ _ this⟩
  obtain ⟨i, hi, _, _, _, _, _, hgf⟩ := hG.obj hi0
  rw [hgf0] at hgf
  obtain ⟨g, hgi, hgk⟩ : ∃ g, i.gradFn = some g ∧ (g.kind, g.inputs) = (g0.kind, g0.inputs) := by
    cases hc : i.gradFn with
    | none => rw [hc] at hgf; simp at hgf
    | some g => rw [hc] at hgf; exact ⟨g, rfl, by simpa using hgf⟩
  injection hgk with hgk hgin
  obtain ⟨D', A', H1, e1, hm, hal⟩ := step_all hv hl hgin hgk
  have hget : ∀ {K : Heap F} {k : Impl} {g : GradFn}, K.ts[x]? = some k → k.gradFn = some g → getGradFn x K = .ok g K := by
    intro K k g hk hkg
    unfold getGradFn
    rw [M.bind_ok (getT_ok hk), hkg]
    rfl
  obtain ⟨i1, hi1, _, _, _, _, _, hgf1⟩ := hm.inv.obj hi0
  rw [hgf0] at hgf1
  obtain ⟨g1, hg1, hg1k⟩ : ∃ g, i1.gradFn = some g ∧ (g.kind, g.inputs) = (g0.kind, g0.inputs) := by
    cases hc : i1.gradFn with
    | none => rw [hc] at hgf1; simp at hgf1
    | some g => rw [hc] at hgf1; exact ⟨g, rfl, by simpa using hgf1⟩
  injection hg1k with hg1k hg1in
  obtain ⟨H2, e2, hst2, i2, hi2, hg2, hk2⟩ : ∃ H2, (if !i1.retainGrad then setT x { i1 with grad := none } else pure ()) H1 = .ok () H2 ∧
      H2.st = H1.st ∧ ∃ i2, H2.ts[x]? = some i2 ∧ i2.gradFn = some g1 ∧
      ∀ (y : Nat) (i : Impl), H1.ts[y]? = some i → ∃ i', H2.ts[y]? = some i' ∧ skel i' = skel i ∧ (y ≠ x → i'.grad = i.grad) := by
    by_cases hr : i1.retainGrad = true
    · rw [if_neg (by rw [hr]; decide)]
      exact ⟨H1, rfl, rfl, i1, hi1, hg1, fun y i hi => ⟨i, hi, rfl, fun _ => rfl⟩⟩
    · rw [if_pos (by simpa using hr)]
      refine ⟨{ H1 with ts := H1.ts.set x { i1 with grad := none } }, rfl, rfl, _, List.getElem?_set_self (getElem?_lt hi1), hg1,
        fun y j hj => ?_⟩
      by_cases hyx : y = x
      · subst hyx
        rw [hi1] at hj; injection hj with hj; subst hj
        exact ⟨_, List.getElem?_set_self (getElem?_lt hi1), rfl, fun hc => absurd rfl hc⟩
      · exact ⟨j, (List.getElem?_set_ne (Ne.symm hyx)).trans hj, rfl, fun _ => rfl⟩
  have hG2 := hm.inv.done hg hp hu (fun a ha hna => hal a ((huses a).1 ha) hna) hst2 hk2
  obtain ⟨new, H3, e3, hs3, hst3⟩ := readyInputs_soft g0.inputs H2 fun a ha => by
    obtain ⟨ia, hia, _⟩ := hv.operand ha
    obtain ⟨ia', h1, _⟩ := hG2.skel a ia hia
    exact getElem?_lt h1
  refine ⟨D', _, H3, new, ?_, hG2.soft hs3 fun e s he => by rw [hst3]; exact he, fun u hlu => ?_⟩
  · unfold backVisit
    rw [M.bind_ok (hget hi hgi), M.bind_ok e1, M.bind_ok (getT_ok hi1)]
    have e4 : (do let g ← getGradFn x; readyInputs g.inputs) H2 = .ok new H3 := by rw [M.bind_ok (hget hi2 hg2), hg1in, e3]
    by_cases hr : i1.retainGrad = true
    · rw [if_neg (by rw [hr]; decide)] at e2 ⊢
      injection e2 with _ e2
      rw [e2]; exact e4
    · rw [if_pos (by simpa using hr)] at e2 ⊢
      rw [M.bind_ok e2]; exact e4
  · rw [pairing_update (o := x) (A := A') (δ := - boxSum (shapeOf h x) fun idx => A x idx * (u x idx).snd) (getElem?_lt hi0)
      (fun y hy => Function.update_of_ne hy _ _), hm.phi u hlu]
    · ring
    · rw [Function.update_self, (hm.big x (Nat.le_refl _)).1, add_neg_cancel]
      exact boxSum_zero fun idx _ => zero_mul _

/-- The whole main loop. -/
theorem visits_ok {h : Heap F} {t : Nat} {u0 : Nat → List Nat → DualNumber F} (hg : Graph h) (hp : Prepared h t) (hl : Tangent h t u0)
    (ht : t < h.ts.length) {l : List Nat} (hs : Schedule h t l) (hneed : ∀ x ∈ l, Needs h t x) :
    ∀ (rest P : List Nat) (D : Nat → Option Nat) (A : Nat → List Nat → F) (H : Heap F), P ++ rest = l → GInv h t P D A H →
    ∃ D' A' H', visits backVisit rest H = .ok () H' ∧ GInv h t l D' A' H' ∧ ∀ u, Tangent h t u →
      pairing h u A' = pairing h u A + (rest.map (through h t u)).sum
  | [], P, D, A, H, hPl, hG => by
    rw [List.append_nil] at hPl
    subst hPl
    exact ⟨D, A, H, rfl, hG, fun _ _ => by simp⟩
  | x :: rest, P, D, A, H, hPl, hG => by
    have hxl : x ∈ l := by rw [← hPl]; simp
    have hxP : x ∉ P := fun hc => by
      have := hs.once
      rw [← hPl, List.nodup_append] at this
      exact this.2.2 x hc x (by simp) rfl
    have hu : ∀ y, From h t y → Uses h y x → y ∈ P := fun y hy hyx => by
      have hyl := (hs.all y).2 ⟨hy, hyx.interior⟩
      rw [← hPl] at hyl
      rcases List.mem_append.1 hyl with hc | hc
      · exact hc
      · rcases List.mem_cons.1 hc with rfl | hc
        · exact absurd (hg.older _ _ hyx) (by omega)
        · have := hs.after
          rw [← hPl, List.pairwise_append] at this
          exact absurd hyx ((List.pairwise_cons.1 this.2.1).1 y hc)
    obtain ⟨D1, A1, H1, new, e1, hG1, hp1⟩ := visit_ok hg hp hl hG ht (hneed x hxl) ((hs.all x).1 hxl).2 hxP hu
    obtain ⟨D2, A2, H2, e2, hG2, hp2⟩ := visits_ok hg hp hl ht hs hneed rest (P ++ [x]) D1 A1 H1 (by rw [← hPl]; simp)
      (hG1.perm fun y => by simp [or_comm])
    refine ⟨D2, A2, H2, ?_, hG2, fun u hlu => by rw [hp2 u hlu, hp1 u hlu, List.map_cons, List.sum_cons, add_assoc]⟩
    rw [visits_cons, M.bind_ok e1, e2]

end INNC
