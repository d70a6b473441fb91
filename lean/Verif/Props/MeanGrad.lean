import Verif.Lemmas.MeanGrad
import Verif.Props.Deriv
/-
C42 (the gradient of a mean), for all programs.
-/
namespace INNC
open Spec Tensor
variable {F : Type} [Field F] [FOps F] [Exact F]

open Classical in
/-- **C42**, what the library computes instead: let a program compute with variables as for C38, with means anywhere in the
computation of `t`. Then `t.backward()` returns, and the gradient of every leaf has grown by the partial derivative of `t` with
the means inside held constant, plus, for each of these means, the partial derivative of that mean (with the means inside it held
constant). So every mean counts once with the factor 1, whatever is computed from it. -/
theorem C42_inside (h : Heap F) (vs : List Nat) (hf : Forward h vs) (t : Nat) (ht : t ∈ vs) (hr : requiresGrad h t = true)
    (ho : Interior h t) (hn : vol (shapeOf h t) = 1) (hS : MeansInside h t) :
    ∃ H, backward t h = .ok () H ∧ ∀ x, Leaf h t x → ∃ G₀ G₁, GradOrZero h x G₀ ∧ GradIs H x G₁ ∧
      ∀ idx, InBox (shapeOf h x) idx → (∃ u, Detached h t u ∧ Direction h t u x idx) ∧
        ∀ u, Detached h t u → Direction h t u x idx → ∀ r, InBox (shapeOf h t) r →
          ∀ ms : List Nat, ms.Nodup → (∀ m, m ∈ ms ↔ From h t m ∧ ∃ a, InnerMean h t m a) →
            G₁ idx = G₀ idx + (u t r).snd + (ms.map (meanSlope h u)).sum := by
  obtain ⟨V, hV, hI⟩ := forward_inv hf
  have hc : Calm h t := hS.calm
  obtain ⟨u₀, hl, _⟩ := hc.detached hI (hV t ht) fun _ _ => 0
  obtain ⟨i, f, hi, _⟩ := hI.reads t (hV t ht)
  rw [requiresGrad_eq hi] at hr
  have hn' : numel i.view.sizes = 1 := by
    rw [shapeOf_eq hi] at hn
    rw [numel_eq_vol (by omega)]; exact hn
  have ho' : i.gradFn.isSome = true := by unfold Interior at ho; rwa [opOf_some hi] at ho
  have hgr := graph_history (forward_history hf)
  obtain ⟨H, G₀, G₁, hb, hleaf, hdir⟩ := backward_tangent hgr (hI.unused (hV t ht)) (hc.prepared hI (hV t ht)) hl.tangent hi hr ho' hn'
  have hmem : ∀ y, y ∈ (List.range h.ts.length).filter (fun x => decide (Leaf h t x)) ↔ Leaf h t y := fun y => by
    simp only [List.mem_filter, List.mem_range, decide_eq_true_eq]
    refine ⟨fun hy => hy.2, fun hy => ⟨?_, hy⟩⟩
    have := Spec.From.le hgr hy.1.1
    have := getElem?_lt hi
    omega
  refine ⟨H, hb, fun x hx => ⟨G₀ x, G₁ x, (hleaf x hx).1, (hleaf x hx).2, fun idx hidx =>
    ⟨hc.detached_direction hI (hV t ht) x idx, fun u hu hd r hr ms hms hm => ?_⟩⟩⟩
  have key := hdir u hu.tangent _ ms (List.nodup_range.filter _) hmem hms hm
  rw [if_neg hS.root, list_sum_single (List.nodup_range.filter _) ((hmem x).2 hx) _ fun y hy hne => boxSum_zero fun k hk => ?_,
    boxSum_single hidx _ fun k hk hne => ?_, boxSum_single hr _ fun k hk hne => ?_, (hd x hx idx hidx).1 rfl rfl, mul_one] at key
  · rw [add_assoc, ← key]; ring
  · exfalso
    apply hne
    have h1 := rank_lt hr
    have h2 := rank_lt hk
    exact rank_inj hk hr (by omega)
  · rw [(hd x hx k hk).2 (fun hc => hne hc.2), mul_zero]
  · rw [(hd y ((hmem y).1 hy) k hk).2 (fun hc => hne hc.1), mul_zero]

open Classical in
/-- **C42** is false for every use of a mean: let `m` be the mean of a leaf `x` that is used for nothing else, and let `t` be
computed from `m` in any way. Then `t.backward()` adds 1 / numel to every element of the gradient of `x`, whatever `t` is:
`c * x.mean()`, with the derivative `c` / numel, is differentiated as if `c` were 1. -/
theorem C42_any_use (h : Heap F) (vs : List Nat) (hf : Forward h vs) (t : Nat) (ht : t ∈ vs) (hr : requiresGrad h t = true)
    (ho : Interior h t) (hn : vol (shapeOf h t) = 1) (hS : MeansInside h t) (m x : Nat) (hx : Leaf h t x)
    (hm : From h t m ∧ InnerMean h t m x) (hl : ∀ y, From h t y → Uses h y x → y = m) :
    ∃ H, backward t h = .ok () H ∧ ∃ G₀ G₁, GradOrZero h x G₀ ∧ GradIs H x G₁ ∧
      ∀ idx, InBox (shapeOf h x) idx → G₁ idx = G₀ idx + 1 / (vol (shapeOf h x) : F) := by
  obtain ⟨H, hb, hg⟩ := C42_inside h vs hf t ht hr ho hn hS
  obtain ⟨G₀, G₁, g0, g1, g2⟩ := hg x hx
  obtain ⟨V, hV, hI⟩ := forward_inv hf
  have hgr := graph_history (forward_history hf)
  refine ⟨H, hb, G₀, G₁, g0, g1, fun idx hidx => ?_⟩
  obtain ⟨⟨u, hu, hd⟩, g3⟩ := g2 idx hidx
  have hex : ∀ y, From h t y → ∃ i, h.ts[y]? = some i := fun y hy => by
    obtain ⟨i, _, hi, _⟩ := hI.reads y (hI.from (hV t ht) hy).1
    exact ⟨i, hi⟩
  have hst := hu.still hgr hd hm.2 hex hl
  let ms := (List.range (t + 1)).filter fun y => decide (From h t y ∧ ∃ a, InnerMean h t y a)
  have hms : ∀ y, y ∈ ms ↔ From h t y ∧ ∃ a, InnerMean h t y a := fun y => by
    simp only [ms, List.mem_filter, List.mem_range, decide_eq_true_eq]
    refine ⟨fun hy => hy.2, fun hy => ⟨?_, hy⟩⟩
    have := Spec.From.le hgr hy.1
    omega
  have hnd : ms.Nodup := List.nodup_range.filter _
  obtain ⟨r, hr⟩ : ∃ r, InBox (shapeOf h t) r := by
    have : (rowMajor (shapeOf h t)).length = 1 := by rw [length_rowMajor, hn]
    obtain ⟨r, hr⟩ := List.length_eq_one_iff.1 this
    exact ⟨r, mem_rowMajor.1 (by rw [hr]; simp)⟩
  rw [g3 u hu hd r hr ms hnd hms, hst t .root (fun hc => hx.2 (hc ▸ ho)) r hr, add_zero]
  congr 1
  have hslope : ∀ y a, From h t y → InnerMean h t y a → meanSlope h u y = (boxSum (shapeOf h a) fun k => (u a k).snd) / (vol (shapeOf h a) : F) := by
    rintro y a _ ⟨_, g, q1, _, q2⟩
    unfold meanSlope operands
    rw [q1]
    simp only [q2]
  rw [list_sum_single hnd ((hms m).2 ⟨hm.1, x, hm.2⟩) _ fun y hy hne => ?_, hslope m x hm.1 hm.2,
    boxSum_single hidx _ fun k hk hne => (hd x hx k hk).2 fun hc => hne hc.2, (hd x hx idx hidx).1 rfl rfl]
  obtain ⟨hfy, a, ha⟩ := (hms y).1 hy
  have hus : Uses h y a := by
    obtain ⟨_, g, q1, _, q2⟩ := ha
    unfold Uses operands; rw [q1]; simp [q2]
  rw [hslope y a hfy ha, boxSum_zero fun k hk => hst a (.step hfy hus) (fun hax => hne (hl y hfy (hax ▸ hus))) k hk, zero_div]

/-! ### `x = [2, 3]`, `m = x.mean()`, `t = m * m` -/

def meanSq2 : Heap ℚ := after squares1 (.mean 0)
def meanSq : Heap ℚ := after meanSq2 (.mul 1 1)

theorem meanSq_forward : Forward meanSq [2, 1, 0] := by
  have f0 : Forward squares0 [0] := forward_returns .start _ 0
    ⟨by unfold Spec.Small; decide +kernel, by decide, fun v hv => by fin_cases hv <;> exact hasType_f.2 rfl⟩ (by decide) (by decide +kernel)
  have f1 : Forward squares1 [0] := forward_changes f0 _ ⟨rfl, fun i hi => .inr (by
    have hv : (squares0.ts[0]?).map (·.view) = some (Layout.contig [2]) := by decide +kernel
    rw [hi] at hv
    rw [show i.view = Layout.contig [2] from Option.some.inj hv]
    exact dense_contig (by decide)), not_isGrad (by decide +kernel)⟩ (by decide) (by decide +kernel)
  have f2 : Forward meanSq2 [1, 0] := forward_returns f1 _ 1 (by show vol (shapeOf squares1 0) < _; decide +kernel) (by decide) (by decide +kernel)
  exact forward_returns f2 _ 2 ⟨[], by
    rw [show shapeOf meanSq2 1 = [] by decide +kernel]
    exact broadcasts_self [], by unfold Spec.Small; decide⟩ (by decide) (by decide +kernel)

/-- The premises of both theorems hold for `t`, with the leaf `x` and the mean `m`... -/
example : Forward meanSq [2, 1, 0] ∧ requiresGrad meanSq 2 = true ∧ Interior meanSq 2 ∧ vol (shapeOf meanSq 2) = 1 ∧
    MeansInside meanSq 2 ∧ Leaf meanSq 2 0 ∧ (From meanSq 2 1 ∧ InnerMean meanSq 2 1 0) ∧
    ∀ y, From meanSq 2 y → Uses meanSq y 0 → y = 1 := by
  have f1 : From meanSq 2 1 := .step .root (by unfold Uses; decide +kernel)
  refine ⟨meanSq_forward, by decide +kernel, by unfold Interior; decide +kernel, by decide +kernel,
    means_of_check [2, 1, 0] (by decide +kernel), ⟨⟨.step f1 (by unfold Uses; decide +kernel), ?_⟩, by unfold Interior; decide +kernel⟩,
    ⟨f1, by decide, ?_⟩, fun y hy hu => ?_⟩
  · have : (meanSq.ts[0]?).map (·.requiresGrad) = some true := by decide +kernel
    cases hi : meanSq.ts[0]? with
    | none => rw [hi] at this; simp at this
    | some i => rw [hi] at this; exact ⟨i, rfl, Option.some.inj this⟩
  · have : (opOf meanSq 1).map (fun g => (g.kind, g.inputs)) = some (.mean, [0]) := by decide +kernel
    cases hi : opOf meanSq 1 with
    | none => rw [hi] at this; simp at this
    | some g => rw [hi] at this; simp at this; exact ⟨g, rfl, this⟩
  · have hm := from_covers (h := meanSq) (l := [2, 1, 0]) (by decide +kernel) hy
    fin_cases hm
    · exact absurd hu (by unfold Uses; decide +kernel)
    · rfl
    · exact absurd hu (by unfold Uses; decide +kernel)

/-- ... and the gradient of `x` is `[1/2, 1/2]`; the derivative of `t` is `[5/2, 5/2]`. -/
example : ((after meanSq (.backward 2)).ts[0]?.bind (·.grad)).map (fun g =>
    (valOf (after meanSq (.backward 2)) g [0], valOf (after meanSq (.backward 2)) g [1])) = some (1/2, 1/2) := by
  decide +kernel

end INNC
