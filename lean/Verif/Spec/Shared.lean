import Verif.Spec.Again
/-
Specification: results shared by two computations (C39).
-/
namespace INNC.Spec
variable {F : Type}

/-- In the computation of `t`, `y` is used `k` times as an operand (twice by `y * y`). -/
def UseCount (h : Heap F) (t y k : Nat) : Prop :=
  ∃ R : List Nat, R.Nodup ∧ (∀ x, x ∈ R ↔ From h t x ∧ Interior h x) ∧ (R.map fun x => (operands h x).count y).sum = k

/-- `t` was computed from `x` without going through a tensor of `B` (`x` itself may be one). -/
inductive Around (h : Heap F) (t : Nat) (B : Nat → Prop) : Nat → Prop
  | root : Around h t B t
  | step {x y : Nat} : Around h t B x → x = t ∨ ¬ B x → Uses h x y → Around h t B y

end INNC.Spec
