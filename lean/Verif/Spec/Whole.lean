import Verif.Spec.Ring
import Verif.Spec.Ieee
/-
Specification: floats that hold whole numbers.
-/
namespace INNC.Spec

/-- The float `x` is the whole number `n` (0 has two floats, `0.0` and `-0.0`). -/
def Ieee.IsWhole (x : Ieee) (n : Int) : Prop := ∃ s k, x = .fin s k ∧ Ieee.signed s k = n * (Ieee.one : Nat)

/-- Whole numbers of absolute value below `2^24` (`f32`) or `2^53` (`f64`). -/
def Ieee.Small (t : DType) (n : Int) : Prop := n.natAbs < 2 ^ Ieee.digits t

/-- The element `v`, an integer or a float, is the whole number `n`. -/
def IsNumber (v : Val Ieee) (n : Int) : Prop :=
  match v with
  | .i m => m = n
  | .f x => x.IsWhole n

/-- At every index of every part of the expression its exact value is small. -/
def Formula.StaysSmall (t : DType) (sh : Nat → List Nat) (f : Nat → List Nat → Int) : Formula → Prop
  | .var _ => True
  | .bin op a b => a.StaysSmall t sh f ∧ b.StaysSmall t sh f ∧
    ∀ idx, InBox ((Formula.bin op a b).shape sh) idx → Ieee.Small t ((Formula.bin op a b).value (readAt sh f idx))

end INNC.Spec
