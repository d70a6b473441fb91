import Verif.Spec.Deriv
import Mathlib.Algebra.Field.Rat
/-
An exact float arithmetic for the worked examples about derivatives: the rational numbers.
-/
namespace INNC.Spec

/-- Rational numbers as floats without rounding. -/
instance exactFloat : FOps ℚ where
  zero := 0
  ofInt _ n := n
  toInt x := some (x.num.tdiv x.den)
  cvt _ x := x
  add _ a b := a + b
  sub _ a b := a - b
  mul _ a b := a * b
  div _ a b := a / b
  neg a := -a
  lt a b := decide (a < b)
  le a b := decide (a ≤ b)
  eq a b := decide (a = b)
  toStr x := (toString x).toList
  byte _ _ _ := 0

instance : Exact ℚ := ⟨rfl, fun _ _ => rfl, fun _ _ => rfl, fun _ _ _ => rfl, fun _ _ _ => rfl, fun _ _ _ => rfl, fun _ _ _ => rfl, fun _ => rfl⟩

end INNC.Spec
