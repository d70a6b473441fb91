import Verif.Lemmas.Tangent
import Verif.Props.Consult
/-
C38 (gradients after the elements were changed).
-/
namespace INNC
open Spec Tensor
variable {F : Type} [Field F] [FOps F] [Exact F]

open Classical in
/-- **C38**, any elements changed since: let a program as in `C38_program_partial` have reached `h`, and let elements have been changed
since, in whatever way, but not those of gradients, which gives `k`. Then `backward()` on `t` returns, and the gradients of the leaves
have grown by the derivatives of the computation at the elements that the tensors have in `k`: every operation is differentiated by
its rule, applied to the elements that its operands, and for a quotient its result, have when `backward()` is called. -/
theorem C38_current_partial (h : Heap F) (vs : List Nat) (hf : Forward h vs) (t : Nat) (ht : t ∈ vs)
    (hr : requiresGrad h t = true) (ho : Interior h t) (hn : vol (shapeOf h t) = 1)
    (k : Heap F) (hR : Revalued h t k) (hS : Smooth k t) :
    ∃ K, backward t k = .ok () K ∧ ∀ x, Leaf k t x → ∃ G₀ G₁, GradOrZero k x G₀ ∧ GradIs K x G₁ ∧
      ∀ idx, InBox (shapeOf k x) idx → (∃ u, Tangent k t u ∧ Direction k t u x idx) ∧
        ∀ u, Tangent k t u → Direction k t u x idx → ∀ r, InBox (shapeOf k t) r → G₁ idx = G₀ idx + (u t r).snd := by
  obtain ⟨V, hV, hI⟩ := forward_inv hf
  have hM : Mild k t := ⟨hS.quotient, fun x g a h1 h2 h3 h4 => (hS.mean x g a h1 h2 h3 h4).2⟩
  obtain ⟨u₀, hl, _⟩ := exists_tangent hI (hV t ht) hR hM fun _ _ => 0
  obtain ⟨i, f, hi, _⟩ := hI.reads t (hV t ht)
  have hgr := hR.graph (graph_history (forward_history hf))
  have hp : Prepared h t := hI.prepared' (hV t ht)
    (fun x i hx hi => hS.small x i (from_same hR.tensors hx) (by rw [hR.tensors]; exact hi))
    (fun x d hx hd hc => by
      refine hS.alone x d (from_same hR.tensors hx) (by unfold gradStore at hd ⊢; rwa [hR.tensors]) ?_
      rcases hc with ⟨y, i, hy, hi⟩ | ⟨y, g, a, i, hy, hg, hk, hi⟩
      · exact Or.inl ⟨y, i, from_same hR.tensors hy, by rw [hR.tensors]; exact hi⟩
      · exact Or.inr ⟨y, g, a, i, from_same hR.tensors hy, by unfold opOf at hg ⊢; rwa [hR.tensors], hk, by rw [hR.tensors]; exact hi⟩)
  have hn1 : vol (shapeOf h t) = vol i.view.sizes := by rw [shapeOf_eq hi]
  rw [requiresGrad_eq hi] at hr
  have hn' : numel i.view.sizes = 1 := by
    rw [numel_eq_vol (by omega)]; omega
  have ho' : i.gradFn.isSome = true := by unfold Interior at ho; rwa [opOf_some hi] at ho
  have hi : k.ts[t]? = some i := by rw [hR.tensors]; exact hi
  obtain ⟨K, G₀, G₁, hb, hleaf, hdir⟩ := backward_tangent hgr (hR.unused (hI.unused (hV t ht))) (hR.prepared hp) hl hi hr ho' hn'
  have hv : vol (shapeOf k t) = 1 := by rw [shapeOf_eq hi, ← numel_eq_vol (by rw [← hn1]; omega)]; exact hn'
  have hmem : ∀ y, y ∈ (List.range k.ts.length).filter (fun x => decide (Leaf k t x)) ↔ Leaf k t y := fun y => by
    simp only [List.mem_filter, List.mem_range, decide_eq_true_eq]
    refine ⟨fun hy => hy.2, fun hy => ⟨?_, hy⟩⟩
    have := Spec.From.le hgr hy.1.1
    have := getElem?_lt hi
    omega
  have hms : ∀ m, m ∈ ([] : List Nat) ↔ From k t m ∧ ∃ a, InnerMean k t m a := fun m => by
    refine ⟨fun hm => by simp at hm, fun ⟨hx, a, hne, g, hg, hk, hi⟩ => absurd (hS.mean m g a hx hg hk hi).1 hne⟩
  refine ⟨K, hb, fun x hx => ⟨G₀ x, G₁ x, (hleaf x hx).1, (hleaf x hx).2, fun idx hidx =>
    ⟨tangent_direction hI (hV t ht) hR hM x idx, fun u hu hd r hr => ?_⟩⟩⟩
  have key := hdir u hu _ [] (List.nodup_range.filter _) hmem List.nodup_nil hms
  rw [if_neg hS.root, list_sum_single (List.nodup_range.filter _) ((hmem x).2 hx) _ fun y hy hne => boxSum_zero fun k hk => ?_,
    boxSum_single hidx _ fun k hk hne => ?_, boxSum_single hr _ fun k hk hne => ?_, (hd x hx idx hidx).1 rfl rfl, mul_one] at key
  · simp only [List.map_nil, List.sum_nil, add_zero] at key
    rw [← key]; ring
  · exfalso
    apply hne
    have h1 := rank_lt hr
    have h2 := rank_lt hk
    exact rank_inj hk hr (by omega)
  · rw [(hd x hx k hk).2 (fun hc => hne hc.2), mul_zero]
  · rw [(hd y ((hmem y).1 hy) k hk).2 (fun hc => hne hc.1), mul_zero]

/-- **C38**, in-place additions since: the changes may be any number of `+=`, as `Addable` describes them, on variables of the program that
do not lie on the storage of a gradient of the computation. -/
theorem C38_added_partial (h : Heap F) (vs : List Nat) (hf : Forward h vs) (t : Nat) (ht : t ∈ vs)
    (hr : requiresGrad h t = true) (ho : Interior h t) (hn : vol (shapeOf h t) = 1)
    (k : Heap F) (hA : Advanced h vs t k) (hS : Smooth k t) :
    ∃ K, backward t k = .ok () K ∧ ∀ x, Leaf k t x → ∃ G₀ G₁, GradOrZero k x G₀ ∧ GradIs K x G₁ ∧
      ∀ idx, InBox (shapeOf k x) idx → (∃ u, Tangent k t u ∧ Direction k t u x idx) ∧
        ∀ u, Tangent k t u → Direction k t u x idx → ∀ r, InBox (shapeOf k t) r → G₁ idx = G₀ idx + (u t r).snd := by
  obtain ⟨V, hV, hI⟩ := forward_inv hf
  exact C38_current_partial h vs hf t ht hr ho hn k ((added_steady hI hV hA).revalued hI (hV t ht)) hS

/-- Without changes `Tangent` says what `Lift` says: the derivative at the elements the tensors have now is the derivative of the
computation. -/
theorem C38_unchanged {h : Heap F} {t : Nat} {u : Nat → List Nat → DualNumber F} (hl : Lift h t u) : Tangent h t u :=
  hl.detached.tangent

/-! ### Example -/

/-- `x = [2, 3]` (0), `y = [1, 5]` (1), `r = [1, 1]` (2), `p = x * y` (3), `s = p.sum()` (4); `x` requires grad. -/
def stale0 : Heap ℚ := after Heap.empty (.fromBlob [.f 2, .f 3] [2] .f64)
def stale1 : Heap ℚ := after stale0 (.fromBlob [.f 1, .f 5] [2] .f64)
def stale2 : Heap ℚ := after stale1 (.fromBlob [.f 1, .f 1] [2] .f64)
def stale3 : Heap ℚ := after stale2 (.setRequiresGrad 0 true)
def stale4 : Heap ℚ := after stale3 (.mul 0 1)
def stale : Heap ℚ := after stale4 (.sum 3)

theorem stale_forward : Forward stale [4, 3, 2, 1, 0] := by
  have f0 : Forward stale0 [0] := forward_returns .start _ 0
    ⟨by unfold Spec.Small; decide +kernel, by decide, fun v hv => by fin_cases hv <;> exact hasType_f.2 rfl⟩ (by decide) (by decide +kernel)
  have f1 : Forward stale1 [1, 0] := forward_returns f0 _ 1
    ⟨by unfold Spec.Small; decide +kernel, by decide, fun v hv => by fin_cases hv <;> exact hasType_f.2 rfl⟩ (by decide) (by decide +kernel)
  have f2 : Forward stale2 [2, 1, 0] := forward_returns f1 _ 2
    ⟨by unfold Spec.Small; decide +kernel, by decide, fun v hv => by fin_cases hv <;> exact hasType_f.2 rfl⟩ (by decide) (by decide +kernel)
  have f3 : Forward stale3 [2, 1, 0] := forward_changes f2 _ ⟨rfl, fun i hi => .inr ?_, not_isGrad (by decide +kernel)⟩ (by decide)
    (by decide +kernel)
  have f4 : Forward stale4 [3, 2, 1, 0] := forward_returns f3 _ 3 ⟨[2], ?_, by unfold Spec.Small; decide +kernel⟩ (by decide)
    (by decide +kernel)
  · exact forward_returns f4 _ 4 (by show vol (shapeOf stale4 3) < _; decide +kernel) (by decide) (by decide +kernel)
  · rw [show shapeOf stale3 0 = [2] by decide +kernel, show shapeOf stale3 1 = [2] by decide +kernel]
    exact broadcasts_self [2]
  · have hv : (stale2.ts[0]?).map (·.view) = some (Layout.contig [2]) := by decide +kernel
    rw [hi] at hv
    rw [show i.view = Layout.contig [2] from Option.some.inj hv]
    exact dense_contig (by decide)

/-- `y += r` after the product was computed. -/
def staler : Heap ℚ := after stale (.addAssign 1 2)

theorem staler_added : Advanced stale [4, 3, 2, 1, 0] 4 staler := by
  have hv : (stale.ts[1]?).map (fun i => (i.view, i.dtype)) = some (Layout.contig [2], .f64) := by decide +kernel
  have hd : (stale.ts[1]?).map (·.data) = some 1 ∧ (stale.ts[2]?).map (·.data) ≠ some 1 := by decide +kernel
  have hrun : result (addAssign 1 2 stale) = some () := by decide +kernel
  have hst : staler = (match addAssign 1 2 stale with | .ok _ k => k | _ => staler) := by
    show (match (addAssign 1 2 >>= fun _ => pure none : M ℚ (Option Nat)) stale with | .ok _ k => k | _ => stale) = _
    cases e : addAssign 1 2 stale with
    | ok _ k => rw [M.bind_ok e]; rfl
    | throw _ _ => rw [e] at hrun; simp [result] at hrun
    | ub _ => rw [e] at hrun; simp [result] at hrun
  cases e : addAssign 1 2 stale with
  | throw _ _ => rw [e] at hrun; simp [result] at hrun
  | ub _ => rw [e] at hrun; simp [result] at hrun
  | ok a k =>
    rw [e] at hst
    rw [hst]
    refine .more .none (c := 1) (r := 2) (by simp) (by simp) ⟨by decide +kernel, fun i hi => ?_, fun i hi x y hx hy he => ?_, ?_, [2], ?_⟩
      (fun x d _ hxd => ?_) e
    · rw [hi] at hv
      have := congrArg Prod.snd (Option.some.inj hv)
      simp only at this
      rw [this]; rfl
    · rw [hi] at hv
      have := congrArg Prod.fst (Option.some.inj hv)
      simp only at this
      rw [this] at hx hy he
      exact (dense_contig (by decide)).inj x y hx hy he
    · rintro ⟨i, j, hi, hj, e⟩
      rw [hi, hj] at hd
      exact hd.2 (by rw [← hd.1, Option.map_some, Option.map_some, e])
    · rw [show shapeOf stale 1 = [2] by decide +kernel, show shapeOf stale 2 = [2] by decide +kernel]
      exact broadcasts_self [2]
    · have hall : ∀ (x : Nat) (i : Impl), stale.ts[x]? = some i → i.grad = none := fun x i hi => by
        have := List.all_eq_true.1 (show stale.ts.all (fun i => i.grad.isNone) = true by decide +kernel) i (List.mem_of_getElem? hi)
        simpa using this
      unfold gradStore at hxd
      cases hi : stale.ts[x]? with
      | none => rw [hi] at hxd; cases hxd
      | some i => rw [hi] at hxd; simp [hall x i hi] at hxd

/-- Non-vacuity of `C38_current_partial` and `C38_added_partial`... -/
example : Forward stale [4, 3, 2, 1, 0] ∧ requiresGrad stale 4 = true ∧ Interior stale 4 ∧ vol (shapeOf stale 4) = 1 ∧
    Advanced stale [4, 3, 2, 1, 0] 4 staler ∧ Smooth staler 4 ∧ Revalued stale 4 staler :=
  ⟨stale_forward, by decide +kernel, by unfold Interior; decide +kernel, by decide +kernel, staler_added,
    smooth_of_check [4, 3, 2, 1, 0] (by decide +kernel), by
      obtain ⟨V, hV, hI⟩ := forward_inv stale_forward
      exact (added_steady hI hV staler_added).revalued hI (hV 4 (by simp))⟩

/-- ... and the gradient of `x` is `[2, 6]`: the product was computed with `y = [1, 5]` and is differentiated with `y = [2, 6]`. -/
example : ((after staler (.backward 4)).ts[0]?.bind (·.grad)).map (fun g =>
    (valOf (after staler (.backward 4)) 3 [0], valOf (after staler (.backward 4)) 3 [1],
      valOf (after staler (.backward 4)) g [0], valOf (after staler (.backward 4)) g [1])) = some (2, 15, 2, 6) := by
  decide +kernel

end INNC
