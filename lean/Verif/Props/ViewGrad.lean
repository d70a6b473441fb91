import Verif.Lemmas.ViewGrad
import Verif.Props.Deriv
/-
C46, what happens instead: the retained gradient of a view is the gradient of the tensor it is a view of, at the elements of
the view.
-/
namespace INNC
open Spec Tensor
variable {F : Type} [Field F] [FOps F] [Exact F]

/-- **C46** is false of every program in which the elements of a view are also used otherwise, because the gradient of a view
lies on the storage of the gradient of the tensor it is a view of: let a program compute with variables (as in C38), let `t` be a
variable that can be back-propagated, and let a view `v` of a leaf `x` take part in the computation of `t` and be told to
keep its gradient. After `t.backward()` the gradient of `v` at every index is the gradient of `x` at the same element: what
it was before, plus the partial derivative of `t` with respect to that element of `x`, over all its uses (instead of the
derivative with respect to `v` alone). -/
theorem C46_shared (h : Heap F) (vs : List Nat) (hf : Forward h vs) (t : Nat) (ht : t ∈ vs) (hs : Starts h t) :
    ∃ H, backward t h = .ok () H ∧ ∀ v x i, From h t v → ViewOn h v x → ¬ Interior h x → h.ts[v]? = some i → i.retainGrad = true →
      ∃ G₀ G₁ G, GradOrZero h x G₀ ∧ GradIs H x G₁ ∧ GradIs H v G ∧
        ∀ idx, InBox (shapeOf h v) idx → (∃ k, SamePlace h v idx x k) ∧ ∀ k, SamePlace h v idx x k →
          G idx = G₁ k ∧ (∃ u, Lift h t u ∧ Direction h t u x k) ∧
          ∀ u, Lift h t u → Direction h t u x k → ∀ r, InBox (shapeOf h t) r → G idx = G₀ k + (u t r).snd := by
  obtain ⟨hr, ho, hn, hS⟩ := hs
  obtain ⟨H, e, hg⟩ := C38_program_partial h vs hf t ht hr ho hn hS
  refine ⟨H, e, fun v x i hv hon hl hi hret => ?_⟩
  obtain ⟨V, hV, hI⟩ := forward_inv hf
  have hh := forward_history hf
  have hVv := (hI.from (hV t ht) hv).1
  obtain ⟨hVx, o⟩ := hI.onBase hVv hon
  have hvt : v ≠ t := by
    rintro rfl
    cases hon with
    | base h1 => exact hS.root h1
    | step h1 => exact hS.root h1
  obtain ⟨it, _, hit, _⟩ := hI.reads t (hV t ht)
  rw [requiresGrad_eq hit] at hr
  rw [shapeOf_eq hit] at hn
  unfold Interior at ho
  rw [opOf_eq hit] at ho
  obtain ⟨d, hd⟩ := Option.isSome_iff_exists.1 o.some_
  obtain ⟨i', g, j, hi', hgi, hj, _⟩ := gradStore_some hd
  rw [hi] at hi'
  obtain rfl := Option.some.inj hi'
  have hst := back_stays (graph_history hh) hit hr ho (by rw [numel_eq_vol (by omega)]; exact hn) e hi hvt hret hgi
  obtain ⟨ix, _, hix, _⟩ := hI.reads x hVx
  have hreq := o.req
  rw [requiresGrad_eq hix] at hreq
  obtain ⟨G₀, G₁, h0, h1, h2⟩ := hg x ⟨⟨hv.trans o.from_, ix, hix, hreq⟩, hl⟩
  obtain ⟨G, k1, k2⟩ := hI.view_grad hh e hVv hon hl hi hgi hst h1
  refine ⟨G₀, G₁, G, h0, h1, k1, fun idx hidx => ⟨o.place idx hidx, fun k hk => ?_⟩⟩
  have hkb : InBox (shapeOf h x) k := by
    obtain ⟨_, b, _, hb, _, _, hkb, _⟩ := hk
    rw [shapeOf_eq hb]; exact hkb
  obtain ⟨h3, h4⟩ := h2 k hkb
  exact ⟨k2 idx k hk, h3, fun u q1 q2 r q3 => by rw [k2 idx k hk]; exact h4 u q1 q2 r q3⟩

/-! ### `x = [[2, 3]]`, `v = x.transpose(0, 1)` (kept), `s = v.sum() + x.sum()` -/

def flipped0 : Heap ℚ := after Heap.empty (.fromBlob [.f 2, .f 3] [1, 2] .f64)
def flipped1 : Heap ℚ := after flipped0 (.setRequiresGrad 0 true)
def flipped2 : Heap ℚ := after flipped1 (.transpose 0 0 1)
def flipped3 : Heap ℚ := after flipped2 (.setRetainGrad 1 true)
def flipped4 : Heap ℚ := after flipped3 (.sum 1)
def flipped5 : Heap ℚ := after flipped4 (.sum 0)
def flipped : Heap ℚ := after flipped5 (.add 4 5)

theorem flipped_forward : Forward flipped [6, 5, 4, 1, 0] := by
  have f0 : Forward flipped0 [0] := forward_returns .start _ 0
    ⟨by unfold Spec.Small; decide +kernel, by decide, fun v hv => by fin_cases hv <;> exact hasType_f.2 rfl⟩ (by decide) (by decide +kernel)
  have hview : ∀ (h : Heap ℚ) (i : Impl), (h.ts[0]?).map (·.view) = some (Layout.contig [1, 2]) → h.ts[0]? = some i →
      i.view = Layout.contig [1, 2] := fun h i hv hi => by rw [hi] at hv; exact Option.some.inj hv
  have f1 : Forward flipped1 [0] := forward_changes f0 _
    ⟨rfl, fun i hi => .inr (by rw [hview flipped0 i (by decide +kernel) hi]; exact dense_contig (by decide)), not_isGrad (by decide +kernel)⟩
    (by decide) (by decide +kernel)
  have f2 : Forward flipped2 [1, 0] := forward_returns f1 _ 1 ⟨by
    cases hi : flipped1.ts[0]? with
    | none => exact absurd hi (by decide +kernel)
    | some i =>
      refine ⟨i, hi, ?_, ?_⟩
      · rw [hview flipped1 i (by decide +kernel) hi]; exact ⟨by decide, by unfold IsI64; decide, by decide, by decide, by unfold IsI64; decide, by decide, trivial⟩
      · have : (flipped1.ts[0]?).map (·.grad) = some none := by decide +kernel
        rw [hi] at this
        intro g hg
        rw [Option.map_some, hg] at this
        simp at this, by decide +kernel, by decide +kernel, by decide⟩ (by decide) (by decide +kernel)
  have f3 : Forward flipped3 [1, 0] := forward_changes f2 _ trivial (by decide) (by decide +kernel)
  have f4 : Forward flipped4 [4, 1, 0] := forward_returns f3 _ 4 (by show vol (shapeOf flipped3 1) < _; decide +kernel) (by decide) (by decide +kernel)
  have f5 : Forward flipped5 [5, 4, 1, 0] := forward_returns f4 _ 5 (by show vol (shapeOf flipped4 0) < _; decide +kernel) (by decide) (by decide +kernel)
  exact forward_returns f5 _ 6 ⟨[], by
    rw [show shapeOf flipped5 4 = [] by decide +kernel, show shapeOf flipped5 5 = [] by decide +kernel]
    exact broadcasts_self [], by unfold Spec.Small; decide⟩ (by decide) (by decide +kernel)

/-- The premises hold for the transposition `v`... -/
example : Forward flipped [6, 5, 4, 1, 0] ∧ Starts flipped 6 ∧ From flipped 6 1 ∧ ViewOn flipped 1 0 ∧ ¬ Interior flipped 0 ∧
    ∃ i, flipped.ts[1]? = some i ∧ i.retainGrad = true := by
  refine ⟨flipped_forward, ⟨by decide +kernel, by unfold Interior; decide +kernel, by decide +kernel,
    smooth_of_check [6, 5, 4, 1, 0] (by decide +kernel)⟩,
    .step (.step .root (y := 4) (by unfold Uses; decide +kernel)) (by unfold Uses; decide +kernel),
    .base ?_ (by unfold Uses; decide +kernel) ?_, by unfold Interior; decide +kernel, ?_⟩
  · have : (opOf flipped 1).map (·.kind) = some .noBack := by decide +kernel
    cases ho : opOf flipped 1 with
    | none => rw [ho] at this; simp at this
    | some g => rw [ho] at this; exact ⟨g, ho, Option.some.inj this⟩
  · rintro ⟨g, hg, _⟩
    have : (opOf flipped 0).isSome = false := by decide +kernel
    rw [hg] at this
    simp at this
  · have : (flipped.ts[1]?).map (·.retainGrad) = some true := by decide +kernel
    cases ho : flipped.ts[1]? with
    | none => rw [ho] at this; simp at this
    | some g => rw [ho] at this; exact ⟨g, rfl, Option.some.inj this⟩

/-- ... and its gradient is `[[2], [2]]`, although the derivative with respect to `v` alone is 1. -/
example : let h := after flipped (.backward 6)
    (h.ts[1]?.bind (·.grad)).map (fun g => (valOf h g [0, 0], valOf h g [1, 0])) = some (2, 2) := by decide +kernel

end INNC
