import Verif.Lemmas.Valid
import Verif.Lemmas.Runs
import Verif.Props.Layout
import Verif.Lemmas.Examples
import Verif.Spec.Deriv
/-
C56: the functions declared `noexcept` (include/INNC/tensor.hpp:80-105) return.
-/
namespace INNC
open Spec Tensor
variable {F : Type} [FOps F]

/-- **C56**, questions: after every history of calls, `numel`, `is_contiguous`, `requires_grad()`, `retain_grad()` and `grad` of
every tensor return and change nothing; the gradient, if there is one, is a tensor. -/
theorem C56_questions {h : Heap F} (hh : History h) {t : Nat} (ht : t < h.ts.length) :
    (∃ n, numelOf t h = .ok n h) ∧ (∃ b, isContiguousOf t h = .ok b h) ∧ (∃ i, getT t h = .ok i h) ∧
      ∃ g, gradOf t h = .ok g h ∧ ∀ x, g = some x → x < h.ts.length := by
  have e : getT t h = .ok h.ts[t] h := by simp [getT, List.getElem?_eq_getElem ht]
  refine ⟨⟨numel h.ts[t].view.sizes, ?_⟩, ⟨isContiguous h.ts[t].view, ?_⟩, ⟨_, e⟩, h.ts[t].grad, ?_, fun x hx => ?_⟩
  · simp [numelOf, bind, M.bind, e, pure, M.pure]
  · simp [isContiguousOf, bind, M.bind, e, pure, M.pure]
  · simp [gradOf, bind, M.bind, e, pure, M.pure]
  · exact (valid_history hh).grad t x _ (List.getElem?_eq_getElem ht) hx

/-- **C56**, answers: of a tensor of type `dt` and shape `s`, `size` returns `s`, `type` returns `dt`, `numel` the number of its
elements (as a `size_t`) and `grad` its gradient. -/
theorem C56_answers {h : Heap F} {t : Nat} {dt : DType} {s : List Nat} {f : List Nat → Val F} (hd : Denotes h t dt s f) :
    sizeT t h = .ok s h ∧ typeOf t h = .ok dt h ∧ numelOf t h = .ok (vol s % 18446744073709551616) h ∧
      gradOf t h = .ok (gradientOf h t) h := by
  obtain ⟨i, hi, rfl, rfl, _⟩ := hd
  refine ⟨?_, ?_, C04_numel_mod hi, ?_⟩
  · unfold sizeT; rw [M.bind_ok (getT_ok hi)]; rfl
  · unfold typeOf; rw [M.bind_ok (getT_ok hi)]; rfl
  · unfold gradOf; rw [M.bind_ok (getT_ok hi)]; simp [gradientOf, hi]

example : sizeT 1 exHeap = .ok [3] exHeap ∧ typeOf 1 exHeap = .ok .i32 exHeap :=
  ⟨(C56_answers exHeap_b).1, (C56_answers exHeap_b).2.1⟩

/-- **C56**, `retain_grad(b)`: it returns, the tensor has the flag, and nothing else changes. -/
theorem C56_retain_grad {h : Heap F} {t : Nat} {i : Impl} (ht : h.ts[t]? = some i) (b : Bool) :
    ∃ h', setRetainGrad t b h = .ok () h' ∧ h'.ts[t]? = some { i with retainGrad := b } ∧ (∀ x, x ≠ t → h'.ts[x]? = h.ts[x]?) ∧
      h'.st = h.st := by
  refine ⟨{ h with ts := h.ts.set t { i with retainGrad := b } }, ?_, ?_, fun x hx => ?_, rfl⟩
  · simp [setRetainGrad, bind, M.bind, getT, ht, setT]
  · exact List.getElem?_set_self (getElem?_lt ht)
  · exact List.getElem?_set_ne (fun e => hx e.symm)

/-- **C56**, `zero_grad()`: after every history of calls it returns, and changes no tensor and no storage but that of the gradient
of the tensor. -/
theorem C56_zero_grad {h : Heap F} (hh : History h) {t : Nat} (ht : t < h.ts.length) :
    ∃ h', zeroGrad t h = .ok () h' ∧ h'.ts = h.ts ∧ ∀ d, gradStore h t ≠ some d → h'.st[d]? = h.st[d]? := by
  have hi := List.getElem?_eq_getElem ht
  have e : getT t h = .ok h.ts[t] h := by simp [getT, hi]
  cases hg : h.ts[t].grad with
  | none => exact ⟨h, by simp [zeroGrad, bind, M.bind, e, hg, pure, M.pure], rfl, fun _ _ => rfl⟩
  | some g =>
    obtain ⟨gi, hgi⟩ : ∃ gi, h.ts[g]? = some gi := ⟨_, List.getElem?_eq_getElem ((valid_history hh).grad t g _ hi hg)⟩
    obtain ⟨s, hd⟩ : ∃ s, h.st[gi.data]? = some s := ⟨_, List.getElem?_eq_getElem ((valid_history hh).data g _ hgi)⟩
    have es : gradStore h t = some gi.data := by
      simp only [gradStore, hi, Option.bind_some, hg, hgi, Option.map_some]
    cases hb : s.blob with
    | none => exact ⟨h, by simp [zeroGrad, bind, M.bind, getT, hi, hg, hgi, zeroS, getS, hd, hb, pure, M.pure], rfl, fun _ _ => rfl⟩
    | some cells =>
      refine ⟨{ h with st := h.st.set gi.data { s with blob := some (cells.map fun _ => some (zeroVal s.dt)) } },
        by simp [zeroGrad, bind, M.bind, getT, hi, hg, hgi, zeroS, getS, hd, hb, setS], rfl, fun d hne => ?_⟩
      rw [es] at hne
      exact List.getElem?_set_ne fun h' => hne (by rw [h'])

/-- **C56**, `release()`: after every history of calls it returns, the storage of the tensor is empty, and nothing else changes. -/
theorem C56_release {h : Heap F} (hh : History h) {t : Nat} {i : Impl} (ht : h.ts[t]? = some i) :
    ∃ h' s, release t h = .ok () h' ∧ h'.ts = h.ts ∧ h'.st[i.data]? = some s ∧ s.blob = none ∧ ∀ d, d ≠ i.data → h'.st[d]? = h.st[d]? := by
  have hd := List.getElem?_eq_getElem ((valid_history hh).data t i ht)
  refine ⟨{ h with st := h.st.set i.data { (h.st[i.data]'((valid_history hh).data t i ht)) with blob := none } }, _,
    by simp [release, bind, M.bind, getT, ht, releaseS, getS, hd, setS], rfl, List.getElem?_set_self ((valid_history hh).data t i ht), rfl,
    fun d hne => ?_⟩
  exact List.getElem?_set_ne fun h' => hne h'.symm

/-- Non-vacuity: a reachable state with a tensor that has a gradient, after a call that threw. -/
example : ∃ (h : Heap Int), History h ∧ 0 < h.ts.length ∧ gradStore h 0 ≠ none := by
  obtain ⟨h, hh, e⟩ := reachable (F := Int) (P := fun h => decide (0 < h.ts.length) && (gradStore h 0).isSome)
    [.scalar .f32 (.f 3), .setRequiresGrad 0 true, .mul 0 0, .stride 0, .backward 1] (by decide +kernel)
  simp only [Bool.and_eq_true, decide_eq_true_eq] at e
  exact ⟨h, hh, e.1, fun h' => by rw [h'] at e; simp at e⟩

end INNC
