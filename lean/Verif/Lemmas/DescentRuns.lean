import Verif.Lemmas.ForwardRuns
import Verif.Lemmas.Regression
/-
A concrete training state, and checks that the premises of C69 hold in concrete states.
-/
namespace INNC
open Spec Tensor

/-! ### `y = [1, 2]`, `x = [3, 4]`, `rate = -1/100`, `w = [5, 6]` (requires grad) -/

def fit0 : Heap ℚ := after Heap.empty (.fromBlob [.f 1, .f 2] [2] .f64)
def fit1 : Heap ℚ := after fit0 (.fromBlob [.f 3, .f 4] [2] .f64)
def fit2 : Heap ℚ := after fit1 (.scalar .f64 (.f (-1/100)))
def fit3 : Heap ℚ := after fit2 (.fromBlob [.f 5, .f 6] [2] .f64)
def fit : Heap ℚ := after fit3 (.setRequiresGrad 3 true)

theorem fit_forward : Forward fit [3, 2, 1, 0] := by
  have f0 : Forward fit0 [0] := forward_returns .start _ 0
    ⟨by unfold Spec.Small; decide +kernel, by decide, fun v hv => by fin_cases hv <;> exact hasType_f.2 rfl⟩ (by decide) (by decide +kernel)
  have f1 : Forward fit1 [1, 0] := forward_returns f0 _ 1
    ⟨by unfold Spec.Small; decide +kernel, by decide, fun v hv => by fin_cases hv <;> exact hasType_f.2 rfl⟩ (by decide) (by decide +kernel)
  have f2 : Forward fit2 [2, 1, 0] := forward_returns f1 _ 2 (show Val.HasType .f64 (.f (-1/100 : ℚ)) from hasType_f.2 rfl) (by decide) (by decide +kernel)
  have f3 : Forward fit3 [3, 2, 1, 0] := forward_returns f2 _ 3
    ⟨by unfold Spec.Small; decide +kernel, by decide, fun v hv => by fin_cases hv <;> exact hasType_f.2 rfl⟩ (by decide) (by decide +kernel)
  exact forward_changes f3 _ ⟨rfl, fun i hi => .inr (by
    have hv : (fit3.ts[3]?).map (·.view) = some (Layout.contig [2]) := by decide +kernel
    rw [hi] at hv
    rw [show i.view = Layout.contig [2] from Option.some.inj hv]
    exact dense_contig (by decide)), not_isGrad (by decide +kernel)⟩ (by decide) (by decide +kernel)


theorem forward_values {F : Type} [Field F] [FOps F] [Exact F] {h : Heap F} {vs : List Nat} (hf : Forward h vs) {x : Nat} (hx : x ∈ vs) :
    Values h x (shapeOf h x) (valOf h x) := by
  obtain ⟨V, hV, hI⟩ := forward_inv hf
  obtain ⟨i, f, hi, hr⟩ := hI.reads x (hV x hx)
  exact ⟨i.dtype, f, ⟨i, hi, rfl, (shapeOf_eq hi).symm, hr⟩, fun idx hb => (valOf_reads hi hr (by rw [shapeOf_eq hi] at hb; exact hb)).symm⟩

theorem fit_base : TrainBase fit [3] 2 (-1/100) [1, 0] := by
  have hg : ∀ y, gradStore fit y = none := fun y => by
    rcases Nat.lt_or_ge y 4 with h | h
    · have : ∀ y < 4, gradStore fit y = none := by decide +kernel
      exact this y h
    · have h4 : fit.ts.length = 4 := by decide +kernel
      unfold gradStore
      rw [List.getElem?_eq_none (by omega)]; rfl
  have hd : ∀ x ∈ [0, 1, 2, 3], (fit.ts[x]?).map (·.data) = some x := by decide +kernel
  have hns : ∀ x ∈ [0, 1, 2, 3], ∀ y ∈ [0, 1, 2, 3], x ≠ y → ¬ SameStorage fit x y := fun x hx y hy hne ⟨i, j, hi, hj, e⟩ => by
    have h1 := hd x hx
    have h2 := hd y hy
    rw [hi] at h1
    rw [hj] at h2
    exact hne ((Option.some.inj h1).symm.trans (e.trans (Option.some.inj h2)))
  refine ⟨fun x hx => ⟨?_, fun i _ y => by rw [hg y]; simp⟩, fun w hw => ?_, by simp, fun x hx w hw => ?_, by decide +kernel, ?_⟩
  · have : ∀ x ∈ [3] ++ 2 :: [1, 0], (opOf fit x).isSome = false := by decide +kernel
    unfold Interior
    rw [this x hx]; simp
  · obtain rfl : w = 3 := by simpa using hw
    exact ⟨by decide +kernel, by unfold Spec.Small; decide +kernel⟩
  · obtain rfl : w = 3 := by simpa using hw
    simp only [List.mem_cons, List.not_mem_nil, or_false] at hx
    exact hns x (by simp only [List.mem_cons, List.not_mem_nil, or_false]; omega) 3 (by simp) (by omega)
  · obtain ⟨dt, f, hd, hv⟩ := forward_values fit_forward (x := 2) (by simp)
    have h1 : shapeOf fit 2 = [] := by decide +kernel
    have h2 : valOf fit 2 [] = -1/100 := by decide +kernel
    rw [h1] at hd hv
    refine ⟨dt, f, hd, fun idx hb => ?_⟩
    cases idx with
    | nil => rw [hv [] hb, h2]
    | cons _ _ => exact absurd hb (by simp [InBox])

end INNC
