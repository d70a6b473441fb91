import Verif.Spec.Api
import Verif.Lemmas.Ends
import Verif.Lemmas.Fresh
import Verif.Props.Guards
/-
C37 (order of back-propagation), C40 (gradients that are kept and dropped), C51 (every call terminates); counterexamples
to C39 (repeated back-propagation).
-/
namespace INNC
open Spec Tensor
variable {F : Type} [FOps F]

/-! ### C37 -/

/-- **C37**: the graph is acyclic (operands are older than results) and well formed after every history of calls. -/
theorem C37_histories (h : Heap F) (hh : History h) : Graph h := graph_history hh

theorem visits_oneByOne : ∀ l, visits (F := F) backVisit l = oneByOne l
  | [] => rfl
  | x :: l => by rw [visits_cons, visits_oneByOne l]; rfl

omit [FOps F] in
theorem Stamped.counters {h h1 : Heap F} {n v : Nat → Nat} (hs : Stamped h h1 n v) : SameButCounters h h1 := by
  refine ⟨hs.st, List.ext_getElem? fun x => ?_⟩
  rw [List.getElem?_map, List.getElem?_map]
  cases hx : h.ts[x]? with
  | none => rw [hs.none hx]
  | some i =>
    rw [hs.at_ x i hx]
    obtain ⟨a, b, c, d, e, f, g⟩ := i
    cases g <;> rfl

/-- **C37**: `backward()`, in any state reached by API calls, propagates from tensors of the graph of `t` only, from each
at most once: it is exactly a run of the propagation step over a list without repetitions, started in a state that
differs from the current one in counters only. -/
theorem C37_once (h : Heap F) (hh : History h) (t : Nat) (i : Impl) (hi : h.ts[t]? = some i) (hr : i.requiresGrad = true)
    (hf : Interior h t) (hn : numel i.view.sizes = 1) :
    ∃ (l : List Nat) (h1 : Heap F), l.Nodup ∧ (∀ x ∈ l, From h t x ∧ Interior h x) ∧ SameButCounters h h1 ∧
      backward t h = (do setOut t; oneByOne l : M F Unit) h1 := by
  have hf' : i.gradFn.isSome = true := by unfold Interior at hf; rwa [opOf_some hi] at hf
  obtain ⟨h1, n, v, _, hs, l, hl, hmem, _, e, _⟩ := backward_order (graph_history hh) hi hr hf' hn
  exact ⟨l, h1, hl, hmem, hs.counters, by rw [e, visits_oneByOne]; rfl⟩

/-- **C37**: if no part of the graph has been back-propagated before, and its interior tensors require grad, then
`backward()` propagates from every interior tensor of the graph exactly once, and only after every tensor of the graph
computed from it. -/
theorem C37_order (h : Heap F) (hh : History h) (t : Nat) (i : Impl) (hi : h.ts[t]? = some i) (hr : i.requiresGrad = true)
    (hf : Interior h t) (hn : numel i.view.sizes = 1) (hu : Unused h t) :
    ∃ (l : List Nat) (h1 : Heap F), Schedule h t l ∧ SameButCounters h h1 ∧
      backward t h = (do setOut t; oneByOne l : M F Unit) h1 := by
  have hf' : i.gradFn.isSome = true := by unfold Interior at hf; rwa [opOf_some hi] at hf
  obtain ⟨h1, n, v, _, hs, l, _, _, hsch, e, _⟩ := backward_order (graph_history hh) hi hr hf' hn
  exact ⟨l, h1, hsch hu, hs.counters, by rw [e, visits_oneByOne]; rfl⟩

/-- **C37**: in particular in a program that has not called `backward()` or `requires_grad(false)` yet. -/
theorem C37_program (h : Heap F) (hp : Program h) (t : Nat) (i : Impl) (hi : h.ts[t]? = some i) (hr : i.requiresGrad = true)
    (hf : Interior h t) (hn : numel i.view.sizes = 1) :
    ∃ (l : List Nat) (h1 : Heap F), Schedule h t l ∧ SameButCounters h h1 ∧
      backward t h = (do setOut t; oneByOne l : M F Unit) h1 :=
  C37_order h (program_history hp) t i hi hr hf hn ((fresh_programs hp).unused t)

/-- **C37**: `backward()` terminates in every state reached by API calls: none of its loops runs out of fuel. (The fuel
is the number of existing tensors plus one.) -/
theorem C37_terminates (h : Heap F) (hh : History h) (t : Nat) : backward t h ≠ .ub .fuel := backward_ends (graph_history hh) t

theorem program_runs : ∀ (cs : List (Call F)) {h h' : Heap F}, Program h → cs.all Builds = true → runs cs h = some h' → Program h'
  | [], h, h', hh, _, e => by
    obtain rfl : h = h' := by simpa [runs] using e
    exact hh
  | c :: cs, h, h', hh, hb, e => by
    rw [List.all_cons, Bool.and_eq_true] at hb
    unfold runs at e
    cases hr : c.run h with
    | ok r h1 => rw [hr] at e; exact program_runs cs (hh.returned hb.1 hr) hb.2 e
    | throw r h1 => rw [hr] at e; exact program_runs cs (hh.threw hb.1 hr) hb.2 e
    | ub u => rw [hr] at e; simp at e

theorem programs {P : Heap F → Bool} (cs : List (Call F)) (hb : cs.all Builds = true)
    (hp : (runs cs Heap.empty).any P = true) : ∃ h, Program h ∧ P h = true := by
  cases hr : runs cs Heap.empty with
  | none => rw [hr] at hp; simp at hp
  | some h => exact ⟨h, program_runs cs .start hb hr, by rw [hr] at hp; simpa using hp⟩

/-- A program with shared subexpressions: `x = [1, 2]` (0), `y = x + x` (1), `z = y * x` (2), `w = z * y` (3), `s = w.sum()` (4). -/
def sharing : List (Call Int) := 
  [.fromBlob [.f 1, .f 2] [2] .f32, .setRequiresGrad 0 true, .add 0 0, .mul 1 0, .mul 2 1, .sum 3]

/-- Non-vacuity: the hypotheses of `C37_program` (and those of `C37_order` and `C37_once`) hold for the sum. -/
example : ∃ h : Heap Int, Program h ∧ ∃ (t : Nat) (i : Impl), h.ts[t]? = some i ∧ i.requiresGrad = true ∧ Interior h t ∧
    numel i.view.sizes = 1 := by
  obtain ⟨h, hp, e⟩ := programs (P := fun h => (h.ts.drop 1).any fun i => i.requiresGrad && i.gradFn.isSome &&
    numel i.view.sizes == 1) sharing (by decide) (by decide +kernel)
  obtain ⟨i, hi, e⟩ := List.any_eq_true.1 e
  obtain ⟨k, hk⟩ := List.mem_iff_getElem?.1 hi
  rw [List.getElem?_drop] at hk
  simp only [Bool.and_eq_true, beq_iff_eq] at e
  exact ⟨h, hp, _, i, hk, e.1.1, by unfold Interior; rw [opOf_some hk]; exact e.1.2, e.2⟩

/-! ### C39 -/

/-- **C39** is false: a second `backward()` on the same tensor does not add the derivative again once the graph has an
interior tensor between the root and the leaf, because the count of arrivals is not reset. (Here the gradient stays 1
instead of becoming 2.) -/
theorem C39_second_backward_partial :
    result ((do
      let x ← ones [2] .f32
      setRequiresGrad x true
      let y ← Tensor.clone x
      let s ← sumT y
      backward s
      let before ← showGrad x
      backward s
      return (before, ← showGrad x) : M Int _) Heap.empty) =
    some (some "[1, 1]".toList, some "[1, 1]".toList) := by decide +kernel

/-- **C39**, sharing interior tensors with an earlier `backward()`: `y` was counted once by the first call, so that the
second propagates from `y` before its other use has contributed. The derivative of `(y + 3 y)` with respect to `x` should
be added to 1, giving 5; 2 is found. -/
theorem C39_shared_partial :
    result ((do
      let x ← ones [] .f32
      setRequiresGrad x true
      let y ← Tensor.clone x
      let three ← createScalar .f32 (.f 3)
      let a ← Tensor.clone y
      backward a
      let before ← showGrad x
      let b ← mulT y three
      let b ← Tensor.clone b
      let c ← addT a b
      backward c
      return (before, ← showGrad x) : M Int _) Heap.empty) =
    some (some "1".toList, some "2".toList) := by decide +kernel

/-! ### C40 -/

omit [FOps F] in
theorem gradOf_gradient {h : Heap F} {x : Nat} {i : Impl} (hi : h.ts[x]? = some i) : gradOf x h = .ok (gradientOf h x) h := by
  unfold gradOf gradientOf
  rw [M.bind_ok (getT_ok hi), hi]
  rfl

theorem backward_started {h H : Heap F} {t : Nat} (hb : backward t h = .ok () H) :
    ∃ i, h.ts[t]? = some i ∧ i.requiresGrad = true ∧ i.gradFn.isSome = true ∧ numel i.view.sizes = 1 := by
  unfold backward at hb
  cases hi : h.ts[t]? with
  | none =>
    have e : (getT t : M F Impl) h = .ub .nullptr := by unfold getT; rw [hi]
    rw [M.bind_ub e] at hb; cases hb
  | some i =>
    rw [M.bind_ok (getT_ok hi)] at hb
    refine ⟨i, rfl, ?_⟩
    cases hr : i.requiresGrad
    · rw [hr] at hb; cases hb
    cases hg : i.gradFn with
    | none => rw [hr, hg] at hb; cases hb
    | some g =>
      refine ⟨rfl, rfl, ?_⟩
      by_contra hc
      rw [hr, hg, decide_eq_false hc] at hb
      cases hb

/-- **C40**, for graphs no part of which has been back-propagated before: after `backward()`, the root and every interior
tensor of the graph for which `retain_grad` is not set have no gradient. (Missing: graphs that were partly
back-propagated before, see `C40_not_after_earlier_backward`.) -/
theorem C40_dropped_partial (h H : Heap F) (hh : History h) (t : Nat) (hu : Unused h t) (hb : backward t h = .ok () H)
    (x : Nat) (i : Impl) (hx : From h t x) (hin : Interior h x) (hi : h.ts[x]? = some i) (hret : i.retainGrad = false) :
    gradientOf H x = none := by
  obtain ⟨it, ht, h1, h2, h3⟩ := backward_started hb
  obtain ⟨_, n, v, _, _, l, _, _, hsch, _, hpass⟩ := backward_order (graph_history hh) ht h1 h2 h3
  obtain ⟨R, _, _, hp⟩ := hpass H hb
  exact hp.dropped hu x ((hsch hu).all x |>.2 ⟨hx, hin⟩) i hi hret

/-- **C40**, with the same restriction: if `retain_grad` is set they have one, the root included. -/
theorem C40_retained_partial (h H : Heap F) (hh : History h) (t : Nat) (hu : Unused h t) (hb : backward t h = .ok () H)
    (x : Nat) (i : Impl) (hx : From h t x) (hin : Interior h x) (hi : h.ts[x]? = some i) (hret : i.retainGrad = true) :
    (gradientOf H x).isSome := by
  obtain ⟨it, ht, h1, h2, h3⟩ := backward_started hb
  obtain ⟨_, n, v, _, _, l, _, _, hsch, _, hpass⟩ := backward_order (graph_history hh) ht h1 h2 h3
  obtain ⟨R, _, _, hp⟩ := hpass H hb
  cases hx with
  | root => exact hp.rooted i hi (.inr hret)
  | @step p _ hp1 hpx =>
    have hpi : Interior h p := by
      unfold Interior; unfold Uses operands at hpx
      cases ho : opOf h p with
      | none => rw [ho] at hpx; simp at hpx
      | some g => rfl
    have hxt : x ≠ t := by
      rintro rfl
      have : ∀ y, From h x y → y ≤ x := fun y hy => by
        induction hy with
        | root => exact Nat.le_refl _
        | step _ hu ih => exact Nat.le_trans (Nat.le_of_lt ((graph_history hh).older _ _ hu)) ih
      have := this p hp1
      have := (graph_history hh).older _ _ hpx
      omega
    obtain ⟨g, hg⟩ := Option.isSome_iff_exists.1 hin
    exact hp.made p ((hsch hu).all p |>.2 ⟨hp1, hpi⟩) x i hpx hi ((hu x g (.step hp1 hpx) hxt hg).2 i hi) (.inr hret)

/-- **C40**, with the same restriction: every leaf of the graph that requires grad has a gradient afterwards. -/
theorem C40_leaf_partial (h H : Heap F) (hh : History h) (t : Nat) (hu : Unused h t) (hb : backward t h = .ok () H)
    (x : Nat) (i : Impl) (hx : From h t x) (hleaf : ¬ Interior h x) (hi : h.ts[x]? = some i) (hr : i.requiresGrad = true) :
    (gradientOf H x).isSome := by
  obtain ⟨it, ht, h1, h2, h3⟩ := backward_started hb
  obtain ⟨_, n, v, _, _, l, _, hmem, hsch, _, hpass⟩ := backward_order (graph_history hh) ht h1 h2 h3
  obtain ⟨R, _, _, hp⟩ := hpass H hb
  cases hx with
  | root => exact absurd (by unfold Interior; rw [opOf_some ht]; exact h2) hleaf
  | @step p _ hp1 hpx =>
    have hpi : Interior h p := by
      unfold Interior; unfold Uses operands at hpx
      cases ho : opOf h p with
      | none => rw [ho] at hpx; simp at hpx
      | some g => rfl
    exact hp.made p ((hsch hu).all p |>.2 ⟨hp1, hpi⟩) x i hpx hi hr (.inl fun hc => hleaf (hmem x hc).2)

/-- **C40**: in every state reached by API calls, `backward()` keeps the gradient object of every leaf, and of every
tensor outside the graph, that has one. (What it adds to its elements is the subject of C38.) -/
theorem C40_kept (h H : Heap F) (hh : History h) (t : Nat) (hb : backward t h = .ok () H) (x : Nat) (g : Nat)
    (hx : ¬ (From h t x ∧ Interior h x)) (hg : gradientOf h x = some g) : gradientOf H x = some g := by
  obtain ⟨it, ht, h1, h2, h3⟩ := backward_started hb
  obtain ⟨_, n, v, _, _, l, _, hmem, hsch, _, hpass⟩ := backward_order (graph_history hh) ht h1 h2 h3
  obtain ⟨R, _, hall, hp⟩ := hpass H hb
  have hlt : x < h.ts.length := by
    unfold gradientOf at hg
    obtain ⟨i, hi, _⟩ := Option.bind_eq_some_iff.1 hg
    exact getElem?_lt hi
  have := hp.kept x hlt (fun hc => hx ((hall x).1 hc)) (show (gradientOf h x).isSome = true by rw [hg]; rfl)
  exact this.trans hg

/-- **C40** is false for graphs that were partly back-propagated before: in the program of `C39_shared_partial` the second
call propagates from `y`, drops its gradient, and then creates it again. -/
theorem C40_not_after_earlier_backward :
    result ((do
      let x ← ones [] .f32
      setRequiresGrad x true
      let y ← Tensor.clone x
      let three ← createScalar .f32 (.f 3)
      let a ← Tensor.clone y
      backward a
      let before ← showGrad y
      let b ← mulT y three
      let b ← Tensor.clone b
      let c ← addT a b
      backward c
      return (before, ← showGrad y) : M Int _) Heap.empty) =
    some (none, some "3".toList) := by decide +kernel

/-- Non-vacuity: `backward()` succeeds on the sum of `sharing` with `retain_grad` set on `z`. The gradients that exist
afterwards are those of `x` (12 x², the derivative of the sum of 4 x³) and `z`. -/
example : (runs (F := Int) (sharing ++ [.setRetainGrad 2 true]) Heap.empty).map (fun h => result ((do
      backward 4
      return [← showGrad 0, ← showGrad 1, ← showGrad 2, ← showGrad 3, ← showGrad 4] : M Int _) h)) =
    some (some [some "[12, 48]".toList, none, some "[2, 4]".toList, none, none]) := by decide +kernel

/-! ### C51 -/

/-- **C51**: every API call terminates, in every state reached by API calls: no loop of the model runs out of fuel. -/
theorem C51_terminates (h : Heap F) (hh : History h) (c : Call F) : c.run h ≠ .ub .fuel := run_ends (graph_history hh) c

/-- Non-vacuity: running out of fuel is an outcome a loop of the model can have. -/
example : queueLoop (F := Int) (fun x => pure [x]) 5 [0] Heap.empty = .ub .fuel := rfl

end INNC
