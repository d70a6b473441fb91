import Verif.Spec.Scalar
/-
A concrete float arithmetic for the worked examples beside the theorems and for the counterexamples: the integers.
-/
namespace INNC.Spec

/-- Integers as a stand-in for floats. Division truncates; every conversion is the identity. -/
instance toyFloat : FOps Int where
  zero := 0
  ofInt _ n := n
  toInt x := some x
  cvt _ x := x
  add _ a b := a + b
  sub _ a b := a - b
  mul _ a b := a * b
  div _ a b := Int.tdiv a b
  neg a := -a
  lt a b := decide (a < b)
  le a b := decide (a ≤ b)
  eq a b := decide (a = b)
  toStr x := (toString x).toList
  byte _ x k := ((x % (256 ^ 8)) / (256 ^ k) % 256).toNat

instance : FComm Int := ⟨fun _ a b => Int.add_comm a b, fun _ a b => Int.mul_comm a b⟩

end INNC.Spec
