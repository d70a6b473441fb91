import Verif.Lemmas.Shared
import Verif.Props.Again
/-
C39, what happens instead, for two results: what a first `backward()` went through stops a second one.
-/
namespace INNC
open Spec Tensor
variable {F : Type} [FOps F]

/-- **C39** is false of every pair of results that share intermediate results. Let `backward()` have returned for `s`, whose
graph had not been back-propagated before, and let the program go on in any way. Let `B` be intermediate results of `s`
that still require grad and that `t` uses no more often than `s` did. Then `backward()` on `t` gets no further than
to the tensors of `B`: it gives no tensor a gradient, and takes none from it, unless `t` was computed from that tensor without
going through `B`; and it changes no element of any tensor, gradients included, other than of gradients of those tensors. In
particular what leaves should receive through `B` is not added. -/
theorem C39_shared {h H K K' : Heap F} (hh : History h) {s : Nat} (hu : Unused h s) (hb : backward s h = .ok () H)
    (hl : Later H K) {t : Nat} {B : Nat → Prop} (hB : ∀ y, B y → From h s y ∧ y ≠ s ∧ Interior h y ∧
      (∃ i, K.ts[y]? = some i ∧ i.requiresGrad = true) ∧ ∃ k m, UseCount h s y k ∧ UseCount K t y m ∧ m ≤ k)
    (hp : Propagates t K K') :
    (∀ x, x < K.ts.length → ¬ Around K t B x → gradientOf K' x = gradientOf K x) ∧
    ∀ (x : Nat) (dt : DType) (z : List Nat) (f : List Nat → Val F), Denotes K x dt z f →
      (∀ y i, Around K t B y → K.ts[x]? = some i → gradStore K y ≠ some i.data) → Denotes K' x dt z f := by
  have hH : History H := .returned (c := .backward s) hh (show none' (backward s) h = .ok none H by unfold none'; rw [M.bind_ok hb]; rfl)
  have hK := later_history hH hl
  have hg := graph_history hh
  obtain ⟨i0, hi0, _⟩ := backward_started hb
  have hk := (keeps_post (noOp_backward s) (h := h) : Post (NoOp h) _ _)
  rw [hb] at hk
  have hW : ∀ y, B y → Worn K t y := fun y hy => by
    obtain ⟨h1, h2, h3, ⟨i, hi, hr⟩, k, m, hk1, hm, hle⟩ := hB y hy
    have hylt : y < h.ts.length := by
      have := h1.le hg
      have := getElem?_lt hi0
      omega
    have hyH : y < H.ts.length := Nat.lt_of_lt_of_le hylt hk.1.len
    obtain ⟨_, ha⟩ := later_aged hl
    have hiH : Interior H y := ((hk.1.aged (y + 1)).interior (by omega)).2 h3
    have hiK : Interior K y := (ha.interior hyH).2 hiH
    obtain ⟨j, g, hj, hgj⟩ := hiK.obj
    rw [hi] at hj
    obtain rfl := Option.some.inj hj
    obtain ⟨jH, gH, hjH, hgH⟩ := hiH.obj
    have hoH : opOf H y = some gH := by rw [opOf_some hjH, hgH]
    have e1 := arrived_backward hg hu hb h1 h2 hk1 hoH
    have e2 := (ha y hyH).2 gH g hoH (by rw [opOf_some hi, hgj])
    exact ⟨i, g, m, hi, hgj, hr, hm, by omega⟩
  rcases backward_guards hp with rfl | ⟨i, hi, hr, hf, hn⟩
  · exact ⟨fun _ _ _ => rfl, fun _ _ _ _ hd _ => hd⟩
  obtain ⟨h1, n, v, hst, hf⟩ := worn_frame hK hi hr hf hn hW hp
  constructor
  · intro x hx hxa
    have hj := List.getElem?_eq_getElem hx
    have h2 := hf.out x _ (hst.at_ x _ hj) hxa
    unfold gradientOf
    rw [h2, hj]
    rfl
  · rintro x dt s f ⟨j, hj, e1, e2, hrd⟩ ha
    obtain ⟨j', hj', hsk⟩ := hf.skel x _ (hst.at_ x j hj)
    obtain ⟨f1, f2, f3, _⟩ := skel_eq hsk
    refine ⟨j', hj', f1.trans e1, by rw [f2]; exact e2, Reads.flags (i := j) ?_ f1 f2 f3⟩
    refine hrd.extends fun s hs => ?_
    rw [hf.store j.data, hst.st, hs]
    rintro (hw | ⟨y, hy, hgy⟩)
    · have := (valid_history hK).data x j hj
      rw [hst.st] at hw; omega
    · rw [hst.gradStore] at hgy
      exact ha y j hy hj hgy

/-- `x = [1, 2]` (0), `y = x.clone()` (1), `s = y.sum()` (2), `t = y.sum()` (3). -/
def twoSums : List (Call Int) := [.fromBlob [.f 1, .f 2] [2] .f32, .setRequiresGrad 0 true, .clone 0, .sum 1, .sum 1]

/-- `r` is computed from tensor 1, and that from the leaf 0. -/
def chained (h : Heap Int) (r : Nat) : Bool := (operands h r == [1]) && (operands h 1 == [0]) && (opOf h 0).isNone

theorem chained_use {h : Heap Int} {r : Nat} (hr : 1 < r) (hc : chained h r = true) : From h r 1 ∧ Interior h 1 ∧ UseCount h r 1 1 := by
  unfold chained at hc
  simp only [Bool.and_eq_true, beq_iff_eq, Option.isNone_iff_eq_none] at hc
  obtain ⟨⟨e1, e2⟩, e3⟩ := hc
  have hint : ∀ z, operands h z ≠ [] → Interior h z := fun z hz => by
    unfold Interior
    unfold operands at hz
    cases ho : opOf h z with
    | none => rw [ho] at hz; simp at hz
    | some g => rfl
  have h1 : From h r 1 := .step .root (by unfold Uses; rw [e1]; simp)
  have i1 := hint 1 (by rw [e2]; simp)
  refine ⟨h1, i1, [r, 1], by simp; omega, fun x => ?_, ?_⟩
  · constructor
    · intro hx
      simp only [List.mem_cons, List.not_mem_nil, or_false] at hx
      rcases hx with rfl | rfl
      · exact ⟨.root, hint _ (by rw [e1]; simp)⟩
      · exact ⟨h1, i1⟩
    · rintro ⟨hx, hi⟩
      have : x = r ∨ x = 1 ∨ x = 0 := by
        clear hi
        induction hx with
        | root => exact .inl rfl
        | step _ hu ih =>
          unfold Uses at hu
          rcases ih with rfl | rfl | rfl
          · rw [e1] at hu; simp at hu; simp [hu]
          · rw [e2] at hu; simp at hu; simp [hu]
          · unfold operands at hu; rw [e3] at hu; simp at hu
      rcases this with rfl | rfl | rfl
      · simp
      · simp
      · unfold Interior at hi; rw [e3] at hi; simp at hi
  · rw [List.map_cons, List.map_cons, e1, e2]; rfl

/-- The state after `backward()` on `s` satisfies the hypotheses of `C39_shared` for `t`. -/
def stopped (K : Heap Int) : Bool :=
  chained K 3 && ((K.ts[1]?).any fun j => j.requiresGrad) && (match backward 3 K with | .ok _ _ => true | _ => false) &&
  (gradientOf K 0).isSome

/-- Non-vacuity: `s = y.sum()` and `t = y.sum()` with `y = x.clone()`. `backward()` returns for `s`; then it returns for `t`; `x` has
a gradient and all uses of `x` are through `y`, so that `C39_shared` says that it is left as it was. -/
example : ∃ (h H K' : Heap Int), History h ∧ Unused h 2 ∧ backward 2 h = .ok () H ∧ Later H H ∧
    (∀ y, y = 1 → From h 2 y ∧ y ≠ 2 ∧ Interior h y ∧ (∃ i, H.ts[y]? = some i ∧ i.requiresGrad = true) ∧
      ∃ k m, UseCount h 2 y k ∧ UseCount H 3 y m ∧ m ≤ k) ∧ Propagates 3 H K' ∧ 0 < H.ts.length ∧ (gradientOf H 0).isSome = true ∧
    From H 3 0 ∧ ¬ Around H 3 (fun y => y = 1) 0 := by
  obtain ⟨h, hp, e⟩ := programs (P := fun h => chained h 2 && match backward 2 h with | .ok _ H => stopped H | _ => false) twoSums
    (by decide) (by decide +kernel)
  rw [Bool.and_eq_true] at e
  obtain ⟨e0, e⟩ := e
  cases hb : backward 2 h with
  | throw x H => rw [hb] at e; simp at e
  | ub u => rw [hb] at e; simp at e
  | ok a H =>
    rw [hb] at e
    simp only at e
    unfold stopped at e
    simp only [Bool.and_eq_true] at e
    obtain ⟨⟨⟨e1, e2⟩, e3⟩, e4⟩ := e
    cases hb2 : backward 3 H with
    | throw x K => rw [hb2] at e3; simp at e3
    | ub u => rw [hb2] at e3; simp at e3
    | ok a' K' =>
      obtain ⟨f1, f2, f3⟩ := chained_use (by decide) e0
      obtain ⟨g1, _, g3⟩ := chained_use (by decide) e1
      have hops := e1
      unfold chained at hops
      simp only [Bool.and_eq_true, beq_iff_eq] at hops
      refine ⟨h, H, K', program_history hp, (fresh_programs hp).unused 2, hb, .now, ?_, .inl hb2, ?_, e4, .step g1 ?_, ?_⟩
      · rintro y rfl
        refine ⟨f1, by decide, f2, ?_, 1, 1, f3, g3, Nat.le_refl _⟩
        cases h1 : H.ts[1]? with
        | none => rw [h1] at e2; simp at e2
        | some j => rw [h1] at e2; exact ⟨j, rfl, by simpa using e2⟩
      · cases h0 : H.ts with
        | nil => rw [h0] at e2; simp at e2
        | cons _ _ => simp
      · unfold Uses; rw [hops.1.2]; simp
      · intro hc
        have : ∀ x, Around H 3 (fun y => y = 1) x → x = 3 ∨ x = 1 := fun x hx => by
          induction hx with
          | root => exact .inl rfl
          | step _ hb hu ih =>
            unfold Uses at hu
            rcases ih with rfl | rfl
            · rw [hops.1.1] at hu; simp at hu; exact .inr hu
            · rcases hb with hb | hb
              · cases hb
              · exact absurd rfl hb
        rcases this 0 hc with h | h <;> cases h

end INNC
