import Verif.Lemmas.TrainedRuns
import Verif.Spec.Api
/-
C59: programs that compute gradients are memory safe.
-/
namespace INNC
open Spec Tensor
variable {F : Type} [FOps F]

/-- **C59**: along every program of permitted calls on tensors that earlier calls returned, among them `backward()`, `grad()`,
`zero_grad()` and views of tensors that require grad, a call never accesses memory outside an allocation, through a null
pointer, outside a vector, uninitialised or at another type. Its undefined behaviour, if any, is that of an arithmetic operation
on the given values. -/
theorem C59_trained {h : Heap F} {vs : List Nat} {c : Call F} {u : UB} (ht : Trained h vs) (hp : Permitted h c)
    (hin : ∀ a ∈ args c, a ∈ vs) (hu : undefinedBy (c.run h) = some u) : ByValue u := by
  have := (learns_call (trained_learns ht) hp hin).1
  cases hr : c.run h with
  | ok => rw [hr] at hu; cases hu
  | throw => rw [hr] at hu; cases hu
  | ub v =>
    rw [hr] at hu this
    cases hu
    exact this

/-- **C59**, for back-propagation. -/
theorem C59_backward {h : Heap F} {vs : List Nat} {t : Nat} {u : UB} (ht : Trained h vs) (hv : t ∈ vs) (hp : Propagable h t)
    (hu : undefinedBy (backward t h) = some u) : ByValue u := by
  refine C59_trained ht (c := .backward t) hp (by simpa [args] using hv) ?_
  show undefinedBy (none' (backward t) h) = some u
  unfold none'
  rw [M.bind_def]
  cases hr : backward t h with
  | ok => rw [hr] at hu; cases hu
  | throw => rw [hr] at hu; cases hu
  | ub v => rw [hr] at hu; exact hu

/-- **C59**: every tensor of such a program is in good order at every moment, also after calls that threw; in particular the
gradients that `grad()` returned, however often they have been added to since. -/
theorem C59_sound {h : Heap F} {vs : List Nat} (ht : Trained h vs) : ∀ t ∈ vs, Sound h t :=
  fun t hm => var_sound.1 ((trained_learns ht).vars t hm)

/-- **C59**: the gradient of a tensor, if it has one that is allocated, is in good order and has the type and shape of the tensor. -/
theorem C59_gradient {h : Heap F} {vs : List Nat} (ht : Trained h vs) {t g : Nat} {i : Impl} (hi : h.ts[t]? = some i)
    (hg : i.grad = some g) (hr : GradReady h t) : Sound h g ∧ ∃ j, h.ts[g]? = some j ∧ j.dtype = i.dtype ∧ j.view.sizes = i.view.sizes := by
  have hl := trained_learns ht
  obtain ⟨j, hj, _⟩ := hl.ordered.seated t g i hi hg
  obtain ⟨s, c, h1, h2⟩ := hr i g j hi hg hj
  have hf : Fed h t := ⟨i, g, j, s, c, hi, hg, hj, h1, h2⟩
  obtain ⟨g', j', e1, e2, e3, e4, _, _, e5⟩ := hf.sits hl.ordered.seated hi
  rw [hg] at e1
  obtain rfl := Option.some.inj e1
  exact ⟨var_sound.1 e5, j', e2, e3, e4⟩

/-! ### A program that computes gradients -/

/-- `x = ones({2, 3}); x.requires_grad(true); q = x.transpose(0, 1); p = q["::-1"]; s = ((p / q) * q).sum(); s.backward();
g = x.grad(); x.zero_grad(); r = x["0"]; s2 = (r * r).sum(); s2.backward();`
The numbers are those of the tensors, temporary ones included. -/
def exTrained : List (Call Int) :=
  [.ones [2, 3] .f32, .setRequiresGrad 1 true, .transpose 1 0 1, .slice 2 "::-1".toList, .div 5 2, .mul 7 2, .sum 8, .backward 9,
    .grad 1, .zeroGrad 1, .slice 1 "0".toList, .mul 16 16, .sum 18, .backward 19]

/-- Non-vacuity: the program keeps to the rules, and what `grad()` returned is in good order after the second back-propagation,
and then is the derivative of the second sum. -/
example : ∃ (h : Heap Int) (vs : List Nat), Trained h vs ∧ Sound h 3 ∧ result (Tensor.toString 3 h) = some "[[2, 2, 2], [0, 0, 0]]".toList := by
  obtain ⟨h, vs, ht, e⟩ := training (P := fun h vs => decide (vs = [19, 18, 16, 3, 9, 8, 7, 5, 2, 1]) &&
    decide (result (Tensor.toString 3 h) = some "[[2, 2, 2], [0, 0, 0]]".toList)) exTrained (by decide +kernel)
  rw [Bool.and_eq_true, decide_eq_true_eq, decide_eq_true_eq] at e
  exact ⟨h, vs, ht, C59_sound ht 3 (by rw [e.1]; decide), e.2⟩

/-- Non-vacuity of `C59_backward`: the state before the first back-propagation. -/
example : ∃ (h : Heap Int) (vs : List Nat), Trained h vs ∧ 9 ∈ vs ∧ Propagable h 9 := by
  obtain ⟨h, vs, ht, e⟩ := training (P := fun h vs => decide (9 ∈ vs) && propagates h 9) (exTrained.take 7) (by decide +kernel)
  rw [Bool.and_eq_true, decide_eq_true_eq] at e
  exact ⟨h, vs, ht, e.1, propagates_ok e.2⟩

/-! ### Why the rules are needed -/

/-- A view of a tensor that requires grad and is a strided view itself, but was not computed, gives it a gradient that is too
small: the next back-propagation writes outside of it. -/
theorem C59_view_of_strided :
    undefinedBy ((do
      let x ← zeros [4] .f32
      let y ← slice x "::2".toList
      setRequiresGrad y true
      let z ← slice y "0:2".toList
      let w ← sumT z
      backward w : M Int _) Heap.empty) = some .oob := by decide +kernel

/-- `grad()` of a tensor of which a view was taken returns a tensor without memory before the first back-propagation: printing
it reads through a null pointer. -/
theorem C59_unallocated_gradient :
    undefinedBy ((do
      let x ← zeros [4] .f32
      setRequiresGrad x true
      let _ ← slice x "::2".toList
      let g ← gradOf x
      Tensor.toString (g.getD 0) : M Int _) Heap.empty) = some .nullptr := by decide +kernel

end INNC
