import Verif.Lemmas.Again
import Verif.Props.BackFrame
/-
C39, what happens instead: a second `backward()` on the same result propagates from the root only, for every graph and
whatever the program does in between.
-/
namespace INNC
open Spec Tensor
variable {F : Type} [FOps F]

theorem spent_later {h H K : Heap F} (hh : History h) {t : Nat} (hu : Unused h t) (hb : backward t h = .ok () H) (hl : Later H K) :
    History K ∧ Interior K t ∧ Spent K t := by
  have hH : History H := .returned (c := .backward t) hh (show none' (backward t) h = .ok none H by unfold none'; rw [M.bind_ok hb]; rfl)
  obtain ⟨i0, hi0, _, hf0, _⟩ := backward_started hb
  have hlt := getElem?_lt hi0
  have hk := (keeps_post (noOp_backward t) (h := h) : Post (NoOp h) _ _)
  rw [hb] at hk
  have hltH : t < H.ts.length := Nat.lt_of_lt_of_le hlt hk.1.len
  obtain ⟨_, ha⟩ := later_aged hl
  have hiH : Interior H t := ((hk.1.aged (t + 1)).interior (by omega)).2 (by unfold Interior; rw [opOf_some hi0]; exact hf0)
  exact ⟨later_history hH hl, (ha.interior hltH).2 hiH, (spent_backward (graph_history hh) hu hb).aged (graph_history hH) ha hltH⟩

/-- **C39** is false of every graph with more than one operation, because arrivals are counted over all calls of `backward()`:
let `backward()` have returned for `t`, whose graph had not been back-propagated before, and let the program go on in any
way. If `t` and the results among its direct operands still require grad, then a further `backward()` on `t` is exactly
one propagation step, from `t` to its direct operands. (To add the derivative again it would have to be a run of this step
over all results in the graph, as in `C37_order`.) -/
theorem C39_again {h H K : Heap F} (hh : History h) {t : Nat} (hu : Unused h t) (hb : backward t h = .ok () H) (hl : Later H K)
    {i : Impl} (hi : K.ts[t]? = some i) (hr : i.requiresGrad = true) (hn : numel i.view.sizes = 1)
    (hreq : ∀ y j, Uses K t y → Interior K y → K.ts[y]? = some j → j.requiresGrad = true) :
    ∃ K1, SameButCounters K K1 ∧ backward t K = (do setOut t; oneByOne [t] : M F Unit) K1 := by
  obtain ⟨hK, hint, hs⟩ := spent_later hh hu hb hl
  have hf : i.gradFn.isSome = true := by unfold Interior at hint; rwa [opOf_some hi] at hint
  obtain ⟨h1, n, v, hst, e⟩ := spent_visits (graph_history hK) hi hr hf hn hs hreq
  exact ⟨h1, hst.counters, by rw [e, visits_oneByOne]; rfl⟩

/-- **C39**, consequence: a further `backward()` on `t` gives no tensor a gradient, and takes none from it, other than `t` and
its direct operands; and it changes no element of any tensor, gradients included, other than of gradients of `t` and of its
direct operands. In particular the gradients of leaves that are used only further down in the graph stay as they are,
instead of growing by the derivative. (`K'` is the state in which the call returns or throws.) -/
theorem C39_stuck {h H K K' : Heap F} (hh : History h) {t : Nat} (hu : Unused h t) (hb : backward t h = .ok () H) (hl : Later H K)
    (hreq : ∀ y j, Uses K t y → Interior K y → K.ts[y]? = some j → j.requiresGrad = true) (hp : Propagates t K K') :
    (∀ x, x < K.ts.length → x ≠ t → ¬ Uses K t x → gradientOf K' x = gradientOf K x) ∧
    ∀ (x : Nat) (dt : DType) (s : List Nat) (f : List Nat → Val F), Denotes K x dt s f →
      (∀ y i, y = t ∨ Uses K t y → K.ts[x]? = some i → gradStore K y ≠ some i.data) → Denotes K' x dt s f := by
  obtain ⟨hK, hint, hs⟩ := spent_later hh hu hb hl
  rcases backward_guards hp with rfl | ⟨i, hi, hr, hf, hn⟩
  · exact ⟨fun _ _ _ _ => rfl, fun _ _ _ _ hd _ => hd⟩
  obtain ⟨h1, n, v, hst, hf⟩ := again_frame hK hi hr hf hn hs hreq hp
  constructor
  · intro x hx hxt hxu
    have hj := List.getElem?_eq_getElem hx
    have h2 := hf.out x _ (hst.at_ x _ hj) fun hc => hc.elim hxt hxu
    unfold gradientOf
    rw [h2, hj]
    rfl
  · rintro x dt s f ⟨j, hj, e1, e2, hrd⟩ ha
    obtain ⟨j', hj', hsk⟩ := hf.skel x _ (hst.at_ x j hj)
    obtain ⟨f1, f2, f3, _⟩ := skel_eq hsk
    refine ⟨j', hj', f1.trans e1, by rw [f2]; exact e2, Reads.flags (i := j) ?_ f1 f2 f3⟩
    refine hrd.extends fun s hs => ?_
    rw [hf.store j.data, hst.st, hs]
    rintro (hw | ⟨y, hy, hgy⟩)
    · have := (valid_history hK).data x j hj
      rw [hst.st] at hw; omega
    · rw [hst.gradStore] at hgy
      exact ha y j hy hj hgy

theorem later_runs : ∀ (cs : List (Call F)) {h h' h'' : Heap F}, Later h h' → runs cs h' = some h'' → Later h h''
  | [], h, h', h'', hh, e => by
    obtain rfl : h' = h'' := by simpa [runs] using e
    exact hh
  | c :: cs, h, h', h'', hh, e => by
    unfold runs at e
    cases hr : c.run h' with
    | ok r h1 => rw [hr] at e; exact later_runs cs (hh.returned hr) e
    | throw r h1 => rw [hr] at e; exact later_runs cs (hh.threw hr) e
    | ub u => rw [hr] at e; simp at e

/-- `x = [1, 2]` (0), `y = x.clone()` (1), `s = y.sum()` (2). -/
def onceMore : List (Call Int) := [.fromBlob [.f 1, .f 2] [2] .f32, .setRequiresGrad 0 true, .clone 0, .sum 1]

/-- What the program does in between: `x + x`, a view of `x`, and `backward()` on `s` once more. -/
def between : List (Call Int) := [.add 0 0, .transpose 0 0 0, .backward 2]

/-- The state in which `backward()` is called once more satisfies the hypotheses of `C39_stuck` for the leaf `x`. -/
def stuckState (K : Heap Int) : Bool :=
  (operands K 2 == [1]) && ((K.ts[1]?).any fun j => j.requiresGrad && j.gradFn.isSome) &&
  (match backward 2 K with | .ok _ _ => true | _ => false) &&
  (match gradientOf K 0 with
    | some g => (match K.ts[g]? with | some i => gradStore K 2 != some i.data && gradStore K 1 != some i.data | none => false)
    | none => false)

/-- Non-vacuity: `s = sum(clone(x))`, of which `backward()` returns; afterwards the program adds `x` to itself, takes a
view and calls `backward()` again. `s` still requires grad, and so does its operand `y`; a further `backward()` returns; `x`
is not an operand of `s`, has a gradient, and this gradient is not stored on a gradient of `s` or `y`. -/
example : ∃ (h H K K' : Heap Int) (g : Nat) (i : Impl), History h ∧ Unused h 2 ∧ backward 2 h = .ok () H ∧ Later H K ∧
    (∀ y j, Uses K 2 y → Interior K y → K.ts[y]? = some j → j.requiresGrad = true) ∧ Propagates 2 K K' ∧
    ¬ Uses K 2 0 ∧ gradientOf K 0 = some g ∧ K.ts[g]? = some i ∧ (∀ y, y = 2 ∨ Uses K 2 y → gradStore K y ≠ some i.data) ∧
    Uses K 2 1 ∧ Interior K 1 := by
  obtain ⟨h, hp, e⟩ := programs (P := fun h => match backward 2 h with
    | .ok _ H => (match runs between H with | some K => stuckState K | none => false)
    | _ => false) onceMore (by decide) (by decide +kernel)
  cases hb : backward 2 h with
  | throw x H => rw [hb] at e; simp at e
  | ub u => rw [hb] at e; simp at e
  | ok a H =>
    rw [hb] at e
    simp only at e
    cases hr : runs between H with
    | none => rw [hr] at e; simp at e
    | some K =>
      rw [hr] at e
      simp only at e
      unfold stuckState at e
      simp only [Bool.and_eq_true, beq_iff_eq] at e
      obtain ⟨⟨⟨e1, e2⟩, e3⟩, e4⟩ := e
      have hu : ∀ y, Uses K 2 y ↔ y = 1 := fun y => by unfold Uses; rw [e1]; simp
      cases h1 : K.ts[1]? with
      | none => rw [h1] at e2; simp at e2
      | some j =>
        rw [h1] at e2
        simp only [Option.any_some, Bool.and_eq_true] at e2
        cases hg : gradientOf K 0 with
        | none => rw [hg] at e4; simp at e4
        | some g =>
          rw [hg] at e4
          simp only at e4
          cases hk : K.ts[g]? with
          | none => rw [hk] at e4; simp at e4
          | some i =>
            rw [hk] at e4
            simp only [Bool.and_eq_true, bne_iff_ne] at e4
            cases hb2 : backward 2 K with
            | throw x H => rw [hb2] at e3; simp at e3
            | ub u => rw [hb2] at e3; simp at e3
            | ok a' K' =>
              refine ⟨h, H, K, K', g, i, program_history hp, (fresh_programs hp).unused 2, hb, later_runs _ .now hr, fun y j' hy _ hj' => ?_, .inl hb2,
                fun hc => ?_, hg, hk, fun y hy => ?_, (hu 1).2 rfl, by unfold Interior; rw [opOf_some h1]; exact e2.2⟩
              · rw [(hu y).1 hy, h1] at hj'
                rw [← Option.some.inj hj']; exact e2.1
              · exact absurd ((hu 0).1 hc) (by decide)
              · rcases hy with rfl | hy
                · exact e4.1
                · rw [(hu y).1 hy]; exact e4.2

end INNC
