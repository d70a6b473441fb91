import Verif.Props.Deriv
/-
C45 (`backward()` on a view), for all programs.
-/
namespace INNC
open Spec Tensor
variable {F : Type} [Field F] [FOps F] [Exact F]

open Classical in
/-- **C45** is false for every view: let a program compute with variables as for C38, and let `t` be a variable with one
element that requires grad and is a view: a slice, a transposed or a reshaped tensor. Then `t.backward()` returns, and the gradient of
every leaf that requires grad is what it was before (0 if there was none), whatever the derivatives of `t` are. -/
theorem C45_never (h : Heap F) (vs : List Nat) (hf : Forward h vs) (t : Nat) (ht : t ∈ vs) (hr : requiresGrad h t = true)
    (hv : IsView h t) (hn : vol (shapeOf h t) = 1) (hS : Inner h [t]) :
    ∃ H, backward t h = .ok () H ∧ ∀ x, Leaf h t x → ∃ G, GradOrZero h x G ∧ GradIs H x G := by
  obtain ⟨V, hV, hI⟩ := forward_inv hf
  have hc : Calm h t := hS.calm (by simp)
  obtain ⟨u₀, hl, _⟩ := hc.lift hI (hV t ht) (fun x g hx hg hk => absurd hk (hS.mean t (by simp) x g hx hg)) fun _ _ => 0
  obtain ⟨i, f, hi, _⟩ := hI.reads t (hV t ht)
  rw [requiresGrad_eq hi] at hr
  have hn' : numel i.view.sizes = 1 := by
    rw [shapeOf_eq hi] at hn
    rw [numel_eq_vol (by omega)]; exact hn
  have ho : i.gradFn.isSome = true := by
    obtain ⟨g, hg, _⟩ := hv
    rw [opOf_some hi] at hg
    rw [hg]; rfl
  have hgr := graph_history (forward_history hf)
  obtain ⟨H, G₀, G₁, hb, hleaf, hdir⟩ := backward_deriv hgr (hI.unused (hV t ht)) (hc.prepared hI (hV t ht)) hl hi hr ho hn'
  have hmem : ∀ y, y ∈ (List.range h.ts.length).filter (fun x => decide (Leaf h t x)) ↔ Leaf h t y := fun y => by
    simp only [List.mem_filter, List.mem_range, decide_eq_true_eq]
    refine ⟨fun hy => hy.2, fun hy => ⟨?_, hy⟩⟩
    have := Spec.From.le hgr hy.1.1
    have := getElem?_lt hi
    omega
  refine ⟨H, hb, fun x hx => ⟨G₁ x, ?_, (hleaf x hx).2⟩⟩
  have heq : ∀ idx, InBox (shapeOf h x) idx → G₁ x idx = G₀ x idx := fun idx hidx => by
    obtain ⟨u, hu, hd⟩ := hc.direction hI (hV t ht) (fun x g hx hg hk => absurd hk (hS.mean t (by simp) x g hx hg)) x idx
    have key := hdir u hu _ (List.nodup_range.filter _) hmem
    rw [if_pos hv, list_sum_single (List.nodup_range.filter _) ((hmem x).2 hx) _ fun y hy hne => boxSum_zero fun k hk => ?_,
      boxSum_single hidx _ fun k hk hne => ?_, (hd x hx idx hidx).1 rfl rfl, mul_one] at key
    · exact sub_eq_zero.1 key
    · rw [(hd x hx k hk).2 (fun hc => hne hc.2), mul_zero]
    · rw [(hd y ((hmem y).1 hy) k hk).2 (fun hc => hne hc.1), mul_zero]
  rcases (hleaf x hx).1 with hg | ⟨h1, h2⟩
  · obtain ⟨j, g, f, hj, h1, h2, h3⟩ := hg
    exact .inl ⟨j, g, f, hj, h1, h2, fun idx hi => by rw [heq idx (by rw [shapeOf_eq hj]; exact hi)]; exact h3 idx hi⟩
  · exact .inr ⟨h1, fun idx hi => by rw [heq idx hi, h2 idx hi]⟩

/-- `x = [2, 3]`, `y = x * x`, `s = y.sum()`, `t = y["1"]`. -/
def peeked : Heap ℚ := after squares (.slice 1 ['1'])

theorem peeked_forward : Forward peeked [3, 2, 1, 0] := by
  have hview : (squares.ts[1]?).map (fun i => (i.view, i.grad)) = some (Layout.contig [2], none) := by decide +kernel
  have h1 : ∀ i, squares.ts[1]? = some i → i.view = Layout.contig [2] ∧ i.grad = none := fun i hi => by
    rw [hi] at hview; simpa using hview
  refine forward_returns squares_forward _ 3 ⟨?_, [.index 1], ?_, ?_, ?_, ?_⟩ (by decide) (by decide +kernel)
  · obtain ⟨i, hi⟩ : ∃ i, squares.ts[1]? = some i := ⟨_, List.getElem?_eq_getElem (by decide +kernel)⟩
    refine ⟨i, hi, ?_, fun g hg => ?_⟩
    · rw [(h1 i hi).1]
      simp [Layout.contig, Tame, IsI64, contigStrides]
    · rw [(h1 i hi).2] at hg; cases hg
  · exact .one (.index ⟨[], ['1'], [], by simp [Blank], ⟨['1'], by simp, by simp, .inl ⟨rfl, rfl⟩⟩, by simp [Blank], rfl⟩)
  · have : shapeOf squares 1 = [2] := by decide +kernel
    rw [this]; simp [Selects]
  · simp [AxisSpec.Is64, IsI64]
  · intro i hi
    rw [(h1 i hi).1]
    simp [Layout.contig, contigStrides, StepsFit]

/-- The premises hold for `t`, of which `x` is a leaf... -/
example : Forward peeked [3, 2, 1, 0] ∧ requiresGrad peeked 3 = true ∧ IsView peeked 3 ∧ vol (shapeOf peeked 3) = 1 ∧
    Inner peeked [3] ∧ Leaf peeked 3 0 :=
  ⟨peeked_forward, by decide +kernel, by
      have : (opOf peeked 3).map (·.kind) = some .noBack := by decide +kernel
      cases hg : opOf peeked 3 with
      | none => rw [hg] at this; simp at this
      | some g => rw [hg] at this; exact ⟨g, hg, Option.some.inj this⟩,
    by decide +kernel, inner_of_check [3, 1, 0] (by decide +kernel),
    ⟨.step (.step .root (y := 1) (by unfold Uses; decide +kernel)) (by unfold Uses; decide +kernel), by
      have : (peeked.ts[0]?).map (·.requiresGrad) = some true := by decide +kernel
      cases hi : peeked.ts[0]? with
      | none => rw [hi] at this; simp at this
      | some i => rw [hi] at this; exact ⟨i, rfl, Option.some.inj this⟩⟩,
    by unfold Interior; decide +kernel⟩

/-- ... and its gradient, which should be `[0, 6]`, is `[0, 0]`. -/
example : ((after peeked (.backward 3)).ts[0]?.bind (·.grad)).map (fun g =>
    (valOf (after peeked (.backward 3)) g [0], valOf (after peeked (.backward 3)) g [1])) = some (0, 0) := by
  decide +kernel

end INNC
