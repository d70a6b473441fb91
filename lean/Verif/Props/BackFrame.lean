import Verif.Lemmas.ForwardBack
import Verif.Lemmas.Valid
import Verif.Lemmas.Runs
import Verif.Props.Backward
/-
C52: what back-propagation leaves unchanged.
-/
namespace INNC
open Spec Tensor
variable {F : Type} [FOps F]

/-- **C52**: `backward()` changes no element of any tensor, except where the tensor shares its storage with the gradient
of a tensor of the graph: after every history of calls, whether `backward()` returns or throws. -/
theorem C52_elements {h h' : Heap F} (hh : History h) {t : Nat} (hp : Propagates t h h') {x : Nat} {dt : DType} {s : List Nat}
    {f : List Nat → Val F} (hd : Denotes h x dt s f)
    (ha : ∀ y i, From h t y → h.ts[x]? = some i → gradStore h y ≠ some i.data) : Denotes h' x dt s f := by
  obtain ⟨i, hi, h1, h2, hr⟩ := hd
  have hb := backward_frame hh hp
  obtain ⟨i', hi', hs⟩ := hb.skel x i hi
  obtain ⟨e1, e2, e3, _⟩ := skel_eq hs
  refine ⟨i', hi', e1.trans h1, by rw [e2]; exact h2, (Reads.flags ?_ e1 e2 e3)⟩
  refine hr.extends fun s hs => ?_
  rw [hb.store i.data, hs]
  rintro (hw | ⟨y, hy, hg⟩)
  · have := (valid_history hh).data x i hi; omega
  · exact ha y i hy hi hg

/-- **C52**: tensors that the root was not computed from are not changed in any way: their gradients, in particular, are
the same objects. -/
theorem C52_outside {h h' : Heap F} (hh : History h) {t : Nat} (hp : Propagates t h h') {x : Nat} {i : Impl}
    (hi : h.ts[x]? = some i) (hx : ¬ From h t x) : h'.ts[x]? = some i :=
  (backward_frame hh hp).out x i hi hx

/-- **C52**: tensors of the graph keep type, layout, storage, both flags, and the operation they were computed by. -/
theorem C52_inside {h h' : Heap F} (hh : History h) {t : Nat} (hp : Propagates t h h') {x : Nat} {i : Impl}
    (hi : h.ts[x]? = some i) : ∃ i', h'.ts[x]? = some i' ∧ i'.dtype = i.dtype ∧ i'.view = i.view ∧ i'.data = i.data ∧
      i'.requiresGrad = i.requiresGrad ∧ i'.retainGrad = i.retainGrad ∧
      i'.gradFn.map (fun g => (g.kind, g.inputs)) = i.gradFn.map fun g => (g.kind, g.inputs) := by
  obtain ⟨i', hi', hs⟩ := (backward_frame hh hp).skel x i hi
  obtain ⟨e1, e2, e3, e4, e5⟩ := skel_eq hs
  exact ⟨i', hi', e1, e2, e3, e4, e5, skel_gradFn hs⟩

/-- **C52**: a leaf that has a gradient keeps the same gradient tensor, and a leaf that does not require grad gets none. -/
theorem C52_leaf {h h' : Heap F} (hh : History h) {t : Nat} (hp : Propagates t h h') {x : Nat} {i i' : Impl}
    (hi : h.ts[x]? = some i) (hl : ¬ Interior h x) (hi' : h'.ts[x]? = some i')
    (hg : i.grad.isSome = true ∨ i.requiresGrad = false) : i'.grad = i.grad := by
  refine (backward_frame hh hp).leaf x i i' hi hi' ?_ hg
  unfold Interior at hl
  rw [opOf_some hi] at hl
  simpa using hl

/-- Non-vacuity: a reachable state in which `backward()` returns, with a leaf in the graph, a tensor outside the graph, and
no gradient that shares a storage with anything. -/
example : ∃ (h h' : Heap Int), History h ∧ Propagates 4 h h' ∧ From h 4 0 ∧ (h.ts[0]?).isSome = true ∧
    (h.ts[5]?).isSome = true ∧ ¬ From h 4 5 ∧ ∀ y, gradStore h y = none := by
  obtain ⟨h, hh, e⟩ := reachable (F := Int) (P := fun h => (match backward 4 h with | .ok _ _ => true | _ => false) &&
    (operands h 4 == [3]) && (operands h 3 == [2, 1]) && (operands h 2 == [1, 0]) && (h.ts[0]?).isSome && (h.ts[5]?).isSome && h.ts.all fun i => i.grad.isNone)
    (sharing ++ [.clone 0]) (by decide +kernel)
  simp only [Bool.and_eq_true, beq_iff_eq] at e
  obtain ⟨⟨⟨⟨⟨⟨e1, e2⟩, e3⟩, e4⟩, e5⟩, e6⟩, e7⟩ := e
  have hle : ∀ x, From h 4 x → x ≤ 4 := fun x hx => by
    induction hx with
    | root => exact Nat.le_refl _
    | @step x y _ hu ih => have := (graph_history hh).older x y hu; omega
  cases hb : backward 4 h with
  | ok a h' =>
    refine ⟨h, h', hh, .inl hb, ?_, e5, e6, fun h5 => absurd (hle 5 h5) (by decide), fun y => ?_⟩
    · exact .step (.step (.step .root (show (3 : Nat) ∈ operands h 4 by rw [e2]; simp)) (show (2 : Nat) ∈ operands h 3 by rw [e3]; simp))
        (show (0 : Nat) ∈ operands h 2 by rw [e4]; simp)
    · unfold gradStore
      cases hy : h.ts[y]? with
      | none => rfl
      | some i =>
        have := List.all_eq_true.1 e7 i (List.mem_of_getElem? hy)
        rw [Option.bind_some, Option.isNone_iff_eq_none.1 this]
        rfl
  | throw e h' => rw [hb] at e1; simp at e1
  | ub u => rw [hb] at e1; simp at e1

end INNC
