import Verif.Lemmas.Monad
import Verif.Lemmas.Layout
import Verif.Model.Tensor
import Verif.Spec.Toy
/-
C01: whole-tensor operations visit every element exactly once, in row-major order, and terminate.
-/
namespace INNC
open Spec

theorem runAll_eq_forM {m : Type → Type} [Monad m] {α : Type} (op : α → m Unit) (l : List α) :
    runAll op l = l.forM op := by
  induction l with
  | nil => rfl
  | cons a l ih => rw [runAll, ih]; rfl

/-- **C01.** The traversal of a tensor of shape `range` is: do `op` for each element of the list `rowMajor range`, one
after the other. That list has no repetitions, its elements are exactly the multi-indices of the shape, and they are in
increasing lexicographic order (last axis fastest). Holds for every shape, so also with no axis (one call) and with
empty axes (no call); in particular the loop always ends by itself. -/
theorem C01_traversal {F : Type} (range : List Nat) (op : List Nat → M F Unit) :
    forEach range op = (rowMajor range).forM op ∧
    (rowMajor range).Nodup ∧ (∀ idx, idx ∈ rowMajor range ↔ InBox range idx) ∧
    (rowMajor range).Pairwise (· < ·) :=
  ⟨by rw [forEach_eq, runAll_eq_forM], nodup_rowMajor range, fun _ => mem_rowMajor, pairwise_rowMajor range⟩

/-- No multi-index if an axis is empty, one if there is no axis. -/
theorem C01_degenerate : (∀ range : List Nat, 0 ∈ range → rowMajor range = []) ∧ rowMajor [] = [[]] :=
  ⟨fun _ h => rowMajor_of_zero_mem h, rfl⟩

/-- **C01** for the loops written out in `sum` and `mean`. -/
theorem C01_sum_traversal {F : Type} [FOps F] (To From : DType) (dst frm : Impl) (h0 : 0 ∉ frm.view.sizes)
    (hne : frm.view.sizes ≠ []) :
    sumBody To From dst frm = (rowMajor frm.view.sizes).forM (accInto (F := F) To From dst frm) := by
  have hlen : frm.view.sizes.length ≠ 0 := by simpa using hne
  have h := forEachWith_eq (m := M F) (M.undef .fuel) frm.view.sizes (accInto To From dst frm)
  unfold forEachWith at h
  have hany : ¬ (frm.view.sizes.any fun r => r == 0) = true := by
    simp only [List.any_eq_true, not_exists, not_and]
    intro x hx hx0
    simp only [beq_iff_eq] at hx0
    exact h0 (hx0 ▸ hx)
  rw [if_neg hany, if_pos hlen] at h
  unfold sumBody
  rw [if_pos hlen, h, runAll_eq_forM]

example : rowMajor [2, 3] = [[0,0],[0,1],[0,2],[1,0],[1,1],[1,2]] := by decide
example : (0 : Nat) ∉ [2, 3] ∧ [2, 3] ≠ ([] : List Nat) := by decide
/-- The model's own loop, run on a 2x3 shape by the kernel. -/
example : ((forEachWith (m := StateM (List (List Nat))) (pure ()) [2, 3] fun sv => modify (· ++ [sv])).run []).2 =
    [[0,0],[0,1],[0,2],[1,0],[1,1],[1,2]] := by decide

end INNC
