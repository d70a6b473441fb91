import Verif.Spec.Scalar
/-
IEEE 754 arithmetic: binary32 (`f32`) and binary64 (`f64`) with signed zeros, subnormal numbers, infinities and NaN, rounded to
nearest, ties to even. One instance of the float arithmetic the model leaves open, and the one that C++ has on common platforms.
-/
namespace INNC.Spec

/-- A float: a finite number `±k · 2^-1074` (all finite numbers of both formats are of this form), an infinity, or NaN. -/
inductive Ieee where
  | fin (neg : Bool) (k : Nat)
  | inf (neg : Bool)
  | nan
  deriving DecidableEq, Repr

namespace Ieee

/-- The number 1 in units of `2^-1074`. -/
def one : Nat := 2 ^ 1074

/-- Significant bits. -/
def digits (t : DType) : Nat := if t = .f32 then 24 else 53

/-- The smallest positive number is `2^low · 2^-1074`. -/
def low (t : DType) : Nat := if t = .f32 then 925 else 0

/-- Numbers from `2^high · 2^-1074` on do not fit. -/
def high (t : DType) : Nat := if t = .f32 then 1202 else 2098

/-- `a / b` rounded to an integer: to nearest, ties to even. -/
def nearest (a b : Nat) : Nat :=
  if 2 * (a % b) < b then a / b
  else if b < 2 * (a % b) then a / b + 1
  else if a / b % 2 = 0 then a / b else a / b + 1

/-- Exponent of the last place of `a / b` (in units of `2^-1074`) in format `t`. -/
def place (t : DType) (a b : Nat) : Nat := max ((a / b).log2 + 1 - digits t) (low t)

/-- `a / b` (in units of `2^-1074`) rounded to format `t`, without limit on the size. -/
def roundUnits (t : DType) (a b : Nat) : Nat := nearest a (b * 2 ^ place t a b) * 2 ^ place t a b

/-- The float nearest to `± a / b · 2^-1074`. -/
def pack (t : DType) (neg : Bool) (a b : Nat) : Ieee :=
  if roundUnits t a b < 2 ^ high t then .fin neg (roundUnits t a b) else .inf neg

/-- The integer `±k`. -/
def signed (neg : Bool) (k : Nat) : Int := if neg then -(k : Int) else k

def opposite : Ieee → Ieee
  | .fin s k => .fin (!s) k
  | .inf s => .inf (!s)
  | .nan => .nan

def plus (t : DType) : Ieee → Ieee → Ieee
  | .fin s k, .fin s' k' =>
    if signed s k + signed s' k' = 0 then .fin (s && s') 0
    else pack t (decide (signed s k + signed s' k' < 0)) (signed s k + signed s' k').natAbs 1
  | .inf s, .inf s' => if s = s' then .inf s else .nan
  | .inf s, .fin _ _ => .inf s
  | .fin _ _, .inf s => .inf s
  | .nan, _ => .nan
  | _, .nan => .nan

def times (t : DType) : Ieee → Ieee → Ieee
  | .fin s k, .fin s' k' => pack t (s != s') (k * k') (one)
  | .inf s, .inf s' => .inf (s != s')
  | .inf s, .fin s' k => if k = 0 then .nan else .inf (s != s')
  | .fin s k, .inf s' => if k = 0 then .nan else .inf (s != s')
  | .nan, _ => .nan
  | _, .nan => .nan

def over (t : DType) : Ieee → Ieee → Ieee
  | .fin s k, .fin s' k' =>
    if k' = 0 then (if k = 0 then .nan else .inf (s != s'))
    else pack t (s != s') (k * one) k'
  | .inf _, .inf _ => .nan
  | .inf s, .fin s' _ => .inf (s != s')
  | .fin s _, .inf s' => .fin (s != s') 0
  | .nan, _ => .nan
  | _, .nan => .nan

/-- Order of the numbers and infinities; `none` if one of them is NaN. -/
def compare : Ieee → Ieee → Option Ordering
  | .fin s k, .fin s' k' => some (Ord.compare (signed s k) (signed s' k'))
  | .inf s, .inf s' => some (if s = s' then .eq else if s then .lt else .gt)
  | .inf s, .fin _ _ => some (if s then .lt else .gt)
  | .fin _ _, .inf s => some (if s then .gt else .lt)
  | .nan, _ => none
  | _, .nan => none

/-- `n` with at least `w` digits. -/
def padded (w n : Nat) : List Char :=
  List.replicate (w - (Nat.toDigits 10 n).length) '0' ++ Nat.toDigits 10 n

/-- `std::to_string`: six decimals. -/
def text : Ieee → List Char
  | .fin s k =>
    (if s then ['-'] else []) ++ Nat.toDigits 10 (nearest (k * 10 ^ 6) (one) / 10 ^ 6) ++ '.' :: padded 6 (nearest (k * 10 ^ 6) (one) % 10 ^ 6)
  | .inf s => (if s then ['-'] else []) ++ ['i', 'n', 'f']
  | .nan => ['n', 'a', 'n']

/-- The bits of the number `k` (in units of the smallest positive number) with `p` significant bits, without the sign. -/
def magnitude (p k : Nat) : Nat :=
  if k < 2 ^ (p - 1) then k else (k.log2 + 2 - p) * 2 ^ (p - 1) + (k / 2 ^ (k.log2 + 1 - p) - 2 ^ (p - 1))

/-- The object representation as an integer. -/
def bits (t : DType) : Ieee → Nat
  | .fin s k => (if s then 2 ^ (8 * t.size - 1) else 0) + magnitude (digits t) (k / 2 ^ low t)
  | .inf s => (if s then 2 ^ (8 * t.size - 1) else 0) + (2 ^ (8 * t.size - digits t) - 1) * 2 ^ (digits t - 1)
  | .nan => (2 ^ (8 * t.size - digits t) - 1) * 2 ^ (digits t - 1) + 2 ^ (digits t - 2)

end Ieee

open Ieee in
instance ieeeFloat : FOps Ieee where
  zero := .fin false 0
  ofInt t n := pack t (decide (n < 0)) (n.natAbs * one) 1
  toInt
    | .fin s k => some (signed s (k / one))
    | _ => none
  cvt t
    | .fin s k => pack t s k 1
    | x => x
  add := plus
  sub t x y := plus t x (opposite y)
  mul := times
  div := over
  neg := opposite
  lt x y := compare x y == some .lt
  le x y := compare x y == some .lt || compare x y == some .eq
  eq x y := compare x y == some .eq
  toStr := text
  byte t x i := bits t x / 256 ^ i % 256

/-- The float nearest to a decimal fraction. -/
def Ieee.decimal (t : DType) (neg : Bool) (a b : Nat) : Ieee := pack t neg (a * one) b

example : Ieee.bits .f64 (Ieee.decimal .f64 false 1 10) = 0x3FB999999999999A := by decide +kernel
example : Ieee.bits .f32 (Ieee.decimal .f32 false 1 10) = 0x3DCCCCCD := by decide +kernel
example : Ieee.bits .f64 (FOps.ofInt .f64 (-2)) = 0xC000000000000000 := by decide +kernel
example : Ieee.bits .f32 (FOps.ofInt .f32 16777217) = 0x4B800000 := by decide +kernel
/-- `0.1 + 0.2` is not `0.3`. -/
example : Ieee.bits .f64 (FOps.add .f64 (Ieee.decimal .f64 false 1 10) (Ieee.decimal .f64 false 2 10)) = 0x3FD3333333333334 ∧
    Ieee.bits .f64 (Ieee.decimal .f64 false 3 10) = 0x3FD3333333333333 := by decide +kernel
/-- The largest `f32`, doubled, is infinite; the smallest `f64`, halved, is 0 (a tie). -/
example : FOps.add .f32 (Ieee.fin false (2 ^ 1202 - 2 ^ 1178)) (.fin false (2 ^ 1202 - 2 ^ 1178)) = Ieee.inf false ∧
    FOps.div .f64 (Ieee.fin false 1) (FOps.ofInt .f64 2) = Ieee.fin false 0 := by decide +kernel
example : Ieee.bits .f32 (FOps.div .f32 (FOps.ofInt .f32 1) (FOps.zero : Ieee)) = 0x7F800000 := by decide +kernel
example : FOps.toStr (Ieee.decimal .f64 true 31415926 10000000) = "-3.141593".toList := by decide +kernel

end INNC.Spec
