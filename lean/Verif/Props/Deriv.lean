import Verif.Lemmas.DerivSeed
import Verif.Lemmas.ForwardRuns
import Verif.Props.Backward
/-
C38 (gradients are derivatives). The derivative is defined in `Spec/Deriv.lean` by dual numbers, without reference to
back-propagation.
-/
namespace INNC
open Spec Tensor
variable {F : Type} [Field F] [FOps F] [Exact F]

/-- **C38**, the transposed Jacobian: `t.backward()` returns, every leaf that requires grad then has a gradient of its type
and shape, and for every direction of differentiation the increments of the gradients of the leaves, paired with the
direction, give the derivative of `t` in that direction.
Missing for the whole of C38: the cases in which it is false (C39, C42, C43, C45; excluded by `Unused`, `Computed` and
`¬ IsView`). Rounding is the subject of C67. -/
theorem C38_directional_partial (h : Heap F) (hh : History h) (t : Nat) (i : Impl) (hi : h.ts[t]? = some i)
    (hr : i.requiresGrad = true) (ht : Interior h t) (hn : numel i.view.sizes = 1) (hU : Unused h t) (hp : Prepared h t) (hv : ¬ IsView h t)
    (u₀ : Nat → List Nat → DualNumber F) (hl : Lift h t u₀) :
    ∃ (H : Heap F) (G₀ G₁ : Nat → List Nat → F), backward t h = .ok () H ∧
      (∀ x, Leaf h t x → GradOrZero h x (G₀ x) ∧ GradIs H x (G₁ x)) ∧
      ∀ u, Lift h t u → ∀ ls : List Nat, ls.Nodup → (∀ x, x ∈ ls ↔ Leaf h t x) →
        (ls.map fun x => boxSum (shapeOf h x) fun idx => (G₁ x idx - G₀ x idx) * (u x idx).snd).sum =
          boxSum (shapeOf h t) fun idx => (u t idx).snd := by
  unfold Interior at ht
  rw [opOf_some hi] at ht
  obtain ⟨H, G₀, G₁, h1, h2, h3⟩ := backward_deriv (graph_history hh) hU hp hl hi hr ht hn
  exact ⟨H, G₀, G₁, h1, h2, fun u hu ls hnd hm => (h3 u hu ls hnd hm).trans (if_neg hv)⟩

open Classical in
/-- **C38**, partial derivatives: `t.backward()` adds to the gradient of every leaf that requires grad, at every index, the
partial derivative of the element of `t` with respect to that element of the leaf. -/
theorem C38_gradient_partial (h : Heap F) (hh : History h) (t : Nat) (i : Impl) (hi : h.ts[t]? = some i)
    (hr : i.requiresGrad = true) (ht : Interior h t) (hn : numel i.view.sizes = 1) (hU : Unused h t) (hp : Prepared h t) (hv : ¬ IsView h t)
    (u₀ : Nat → List Nat → DualNumber F) (hl : Lift h t u₀) :
    ∃ H, backward t h = .ok () H ∧ ∀ x, Leaf h t x → ∃ G₀ G₁, GradOrZero h x G₀ ∧ GradIs H x G₁ ∧
      ∀ idx, InBox (shapeOf h x) idx → ∀ u, Lift h t u → Direction h t u x idx →
        ∀ r, InBox (shapeOf h t) r → G₁ idx = G₀ idx + (u t r).snd := by
  obtain ⟨H, G₀, G₁, hb, hleaf, hdir⟩ := C38_directional_partial h hh t i hi hr ht hn hU hp hv u₀ hl
  refine ⟨H, hb, fun x hx => ⟨G₀ x, G₁ x, (hleaf x hx).1, (hleaf x hx).2, fun idx hidx u hu hd r hr => ?_⟩⟩
  let ls := (List.range h.ts.length).filter fun x => decide (Leaf h t x)
  have hmem : ∀ y, y ∈ ls ↔ Leaf h t y := fun y => by
    simp only [ls, List.mem_filter, List.mem_range, decide_eq_true_eq]
    refine ⟨fun hy => hy.2, fun hy => ⟨?_, hy⟩⟩
    have := Spec.From.le (graph_history hh) hy.1.1
    have := getElem?_lt hi
    omega
  have hnd : ls.Nodup := List.nodup_range.filter _
  have key := hdir u hu ls hnd hmem
  rw [list_sum_single hnd ((hmem x).2 hx) _ fun y hy hne => boxSum_zero fun k hk => ?_, boxSum_single hidx _ fun k hk hne => ?_,
    boxSum_single hr _ fun k hk hne => ?_, (hd x hx idx hidx).1 rfl rfl, mul_one] at key
  · rw [← key]; ring
  · exfalso
    apply hne
    rw [shapeOf_some hi] at hr hk
    have hv : vol i.view.sizes = 1 := by
      rw [← numel_eq_vol (by have := vol_lt_of_bytes (hp.bytes t i .root hi); omega)]; exact hn
    have h1 := rank_lt hr
    have h2 := rank_lt hk
    exact rank_inj hk hr (by omega)
  · rw [(hd x hx k hk).2 (fun hc => hne hc.2), mul_zero]
  · rw [(hd y ((hmem y).1 hy) k hk).2 (fun hc => hne hc.1), mul_zero]

/-- **C38**, programs: let a program compute with variables, call `backward()`, `zero_grad()`, `grad()` and `+=` in between
as a training loop does (`Spec/Forward.lean`), and let `t` be a variable with one element that requires grad and
is the result of an operation (and not of a kind for which the library is wrong, see `Smooth`). Then `t.backward()` returns, and
the gradient of every leaf that requires grad has grown, at every index, by the partial derivative of `t` with respect to
that element of the leaf: the computation can be carried out in the dual numbers with `ε` added to that element, and whenever
it is, the increment is the coefficient of `ε` in the result.
Missing for the whole of C38: programs that go on computing with results that were back-propagated before (C39) or with results
of elements changed since. For changes at the end of the program, before `backward()`, `C38_changed_partial` covers elements that
`backward()` does not read and `C38_current_partial` the others. Rounding is the subject of C67. -/
theorem C38_program_partial (h : Heap F) (vs : List Nat) (hf : Forward h vs) (t : Nat) (ht : t ∈ vs)
    (hr : requiresGrad h t = true) (ho : Interior h t) (hn : vol (shapeOf h t) = 1) (hS : Smooth h t) :
    ∃ H, backward t h = .ok () H ∧ ∀ x, Leaf h t x → ∃ G₀ G₁, GradOrZero h x G₀ ∧ GradIs H x G₁ ∧
      ∀ idx, InBox (shapeOf h x) idx → (∃ u, Lift h t u ∧ Direction h t u x idx) ∧
        ∀ u, Lift h t u → Direction h t u x idx → ∀ r, InBox (shapeOf h t) r → G₁ idx = G₀ idx + (u t r).snd := by
  obtain ⟨V, hV, hI⟩ := forward_inv hf
  obtain ⟨u₀, hl, _⟩ := exists_lift hI (hV t ht) hS fun _ _ => 0
  obtain ⟨i, f, hi, _⟩ := hI.reads t (hV t ht)
  rw [requiresGrad_eq hi] at hr
  have hn' : numel i.view.sizes = 1 := by
    rw [shapeOf_eq hi] at hn
    rw [numel_eq_vol (by omega)]; exact hn
  obtain ⟨H, hb, hg⟩ := C38_gradient_partial h (forward_history hf) t i hi hr ho hn' (hI.unused (hV t ht))
    (hI.prepared (hV t ht) hS) hS.root u₀ hl
  refine ⟨H, hb, fun x hx => ?_⟩
  obtain ⟨G₀, G₁, h1, h2, h3⟩ := hg x hx
  exact ⟨G₀, G₁, h1, h2, fun idx hidx => ⟨exists_direction hI (hV t ht) hS x idx, h3 idx hidx⟩⟩

/-- The premises hold for `x = [2, 3]`, `s = (x * x).sum()`, of which `x` is a leaf... -/
example : Forward squares [2, 1, 0] ∧ requiresGrad squares 2 = true ∧ Interior squares 2 ∧ vol (shapeOf squares 2) = 1 ∧
    Smooth squares 2 ∧ Leaf squares 2 0 :=
  ⟨squares_forward, by decide +kernel, by unfold Interior; decide +kernel, by decide +kernel, smooth_of_check [2, 1, 0] (by decide +kernel),
    ⟨.step (.step .root (y := 1) (by unfold Uses; decide +kernel)) (by unfold Uses; decide +kernel), by
      have : (squares.ts[0]?).map (·.requiresGrad) = some true := by decide +kernel
      cases hi : squares.ts[0]? with
      | none => rw [hi] at this; simp at this
      | some i => rw [hi] at this; exact ⟨i, rfl, Option.some.inj this⟩⟩,
    by unfold Interior; decide +kernel⟩

/-- ... and its gradient is `[4, 6]`. -/
example : ((after squares (.backward 2)).ts[0]?.bind (·.grad)).map (fun g =>
    (valOf (after squares (.backward 2)) g [0], valOf (after squares (.backward 2)) g [1])) = some (4, 6) := by
  decide +kernel

/-- They hold again after a step of gradient descent, `x.detach() += x.grad() * (-1/4)` and `x.zero_grad()`, when
`s = (x * x).sum()` is computed anew... -/
example : Forward loop [14, 13, 0] ∧ Starts loop 14 ∧ Leaf loop 14 0 :=
  ⟨loop_forward, ⟨by decide +kernel, by unfold Interior; decide +kernel, by decide +kernel,
    smooth_of_check [14, 13, 0] (by decide +kernel)⟩,
    ⟨.step (.step .root (y := 13) (by unfold Uses; decide +kernel)) (by unfold Uses; decide +kernel), by
      have : (loop.ts[0]?).map (·.requiresGrad) = some true := by decide +kernel
      cases hi : loop.ts[0]? with
      | none => rw [hi] at this; simp at this
      | some i => rw [hi] at this; exact ⟨i, rfl, Option.some.inj this⟩⟩,
    by unfold Interior; decide +kernel⟩

/-- ... where `x` is now `[1, 3/2]` and gets the gradient `[2, 3]`. -/
example : (valOf loop 0 [0], valOf loop 0 [1]) = (1, 3/2) ∧ ((after loop (.backward 14)).ts[0]?.bind (·.grad)).map (fun g =>
    (valOf (after loop (.backward 14)) g [0], valOf (after loop (.backward 14)) g [1])) = some (2, 3) := by
  decide +kernel

end INNC
