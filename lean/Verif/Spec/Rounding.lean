import Verif.Spec.Linked
import Verif.Spec.Deriv
import Mathlib.Algebra.Order.Field.Basic
import Mathlib.Algebra.Order.AbsoluteValue.Basic
/-
Specification of rounded arithmetic: the standard model of floating-point arithmetic over an ordered field `K` (the real
or the rational numbers), and arithmetic on balls, which keeps track of the exact result and of a bound on the distance
between the rounded and the exact result.
-/
namespace INNC.Spec
open Tensor
variable {F K : Type}

/-- The standard model of floating-point arithmetic, with formats `f32` and `f64`: finite floats stand for numbers; the
result of an operation whose exact value is not larger than `top` is finite and differs from the exact value by at most the
fraction `u` of it, plus `tiny` where the result may underflow (`*`, `/`, conversion; `+` and `-` only in `f32`, should their
operands have more digits); it is the exact value if the format can represent that. -/
structure Rounding (F K : Type) [FOps F] [Field K] [LinearOrder K] where
  /-- the number a finite float stands for -/
  val : F → K
  finite : F → Prop
  /-- relative error of an operation -/
  u : DType → K
  /-- absolute error of an operation that underflows -/
  tiny : DType → K
  /-- absolute error of an addition that underflows -/
  slack : DType → K
  /-- largest number that does not overflow -/
  top : DType → K
  /-- numbers the format represents -/
  repr : DType → K → Bool
  u_nonneg : ∀ t, 0 ≤ u t
  tiny_nonneg : ∀ t, 0 ≤ tiny t
  slack_nonneg : ∀ t, 0 ≤ slack t
  slack_f64 : slack .f64 = 0
  zero : finite FOps.zero ∧ val FOps.zero = 0
  ofInt : ∀ t (n : Int), |(n : K)| ≤ top t → finite (FOps.ofInt t n) ∧ |val (FOps.ofInt t n) - n| ≤ u t * |(n : K)| ∧
    (repr t n = true → val (FOps.ofInt t n) = n)
  cvt : ∀ t x, finite x → |val x| ≤ top t → finite (FOps.cvt t x) ∧ |val (FOps.cvt t x) - val x| ≤ u t * |val x| + tiny t ∧
    (repr t (val x) = true → val (FOps.cvt t x) = val x)
  neg : ∀ x, finite x → finite (FOps.neg x) ∧ val (FOps.neg x) = -val x
  add : ∀ t x y, finite x → finite y → |val x + val y| ≤ top t → finite (FOps.add t x y) ∧
    |val (FOps.add t x y) - (val x + val y)| ≤ u t * |val x + val y| + slack t ∧
    (repr t (val x + val y) = true → val (FOps.add t x y) = val x + val y)
  sub : ∀ t x y, finite x → finite y → |val x - val y| ≤ top t → finite (FOps.sub t x y) ∧
    |val (FOps.sub t x y) - (val x - val y)| ≤ u t * |val x - val y| + slack t ∧
    (repr t (val x - val y) = true → val (FOps.sub t x y) = val x - val y)
  mul : ∀ t x y, finite x → finite y → |val x * val y| ≤ top t → finite (FOps.mul t x y) ∧
    |val (FOps.mul t x y) - val x * val y| ≤ u t * |val x * val y| + tiny t ∧
    (repr t (val x * val y) = true → val (FOps.mul t x y) = val x * val y)
  div : ∀ t x y, finite x → finite y → val y ≠ 0 → |val x / val y| ≤ top t → finite (FOps.div t x y) ∧
    |val (FOps.div t x y) - val x / val y| ≤ u t * |val x / val y| + tiny t ∧
    (repr t (val x / val y) = true → val (FOps.div t x y) = val x / val y)

section
variable [FOps F] [Field K] [LinearOrder K]

/-- A ball: an exact value and a bound on the distance of the rounded value from it, or `unknown`. -/
inductive Ball (r : Rounding F K) where
  | around (c e : K)
  | unknown

/-- Rounding an intermediate result in format `t`: `c` is the exact value, the operands make the result of the operation
differ from it by at most `e` before rounding. -/
def Ball.round (r : Rounding F K) (t : DType) (tiny c e : K) : Ball r :=
  if |c| + e ≤ r.top t then
    if e = 0 ∧ r.repr t c = true then .around c 0 else .around c (e + (r.u t * (|c| + e) + tiny))
  else .unknown

/-- Arithmetic on balls: centres are computed exactly; radii bound the propagated error plus the rounding error. Balls
cannot be converted to integers, and comparisons of balls say nothing. -/
instance ballArithmetic (r : Rounding F K) : FOps (Ball r) where
  zero := .around 0 0
  ofInt t n := Ball.round r t 0 n 0
  toInt _ := none
  cvt t a :=
    match a with
    | .around c e => Ball.round r t (r.tiny t) c e
    | .unknown => .unknown
  add t a b :=
    match a, b with
    | .around c e, .around c' e' => Ball.round r t (r.slack t) (c + c') (e + e')
    | _, _ => .unknown
  sub t a b :=
    match a, b with
    | .around c e, .around c' e' => Ball.round r t (r.slack t) (c - c') (e + e')
    | _, _ => .unknown
  mul t a b :=
    match a, b with
    | .around c e, .around c' e' => Ball.round r t (r.tiny t) (c * c') (|c| * e' + |c'| * e + e * e')
    | _, _ => .unknown
  div t a b :=
    match a, b with
    | .around c e, .around c' e' =>
      if e' < |c'| then Ball.round r t (r.tiny t) (c / c') ((|c| * e' + |c'| * e) / (|c'| * (|c'| - e'))) else .unknown
    | _, _ => .unknown
  neg a :=
    match a with
    | .around c e => .around (-c) e
    | .unknown => .unknown
  lt _ _ := false
  le _ _ := false
  eq _ _ := false
  toStr _ := []
  byte _ _ _ := 0

/-- The float lies in the ball. -/
def InBall (r : Rounding F K) (x : F) (b : Ball r) : Prop :=
  ∀ c e, b = .around c e → r.finite x ∧ |r.val x - c| ≤ e

/-- The number is the centre of the ball. -/
def Centre (r : Rounding F K) (y : K) (b : Ball r) : Prop :=
  ∀ c e, b = .around c e → y = c

/-- The ball that holds one float. -/
def Ball.point {r : Rounding F K} (x : F) : Ball r := .around (r.val x) 0

/-- The float element `v` lies within the radius of the ball element `b` of the exact element `w`; integer elements are equal. -/
def Close (r : Rounding F K) (v : Val F) (w : Val K) (b : Val (Ball r)) : Prop :=
  (∀ n, b = .i n → v = .i n ∧ w = .i n) ∧
  ∀ c e, b = .f (.around c e) → ∃ x y, v = .f x ∧ w = .f y ∧ r.finite x ∧ |r.val x - y| ≤ e

end
end INNC.Spec
