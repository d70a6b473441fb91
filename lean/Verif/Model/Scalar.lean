import Verif.Model.Basic
/-
Element types, element values and the C++ operations on single elements.
-/
namespace INNC

/-- `enum types` (include/INNC/types.hpp:27), without the sentinel `Count`. -/
inductive DType where
  | i8 | i16 | i32 | i64 | f32 | f64
  deriving DecidableEq, Repr

namespace DType

/-- Underlying value of the enumerator (include/INNC/types.hpp:27). -/
def idx : DType → Nat
  | i8 => 0 | i16 => 1 | i32 => 2 | i64 => 3 | f32 => 4 | f64 => 5

/-- `size_of` (include/INNC/types.hpp:51-58): bytes per element. -/
def size : DType → Nat
  | i8 => 1 | i16 => 2 | i32 => 4 | i64 => 8 | f32 => 4 | f64 => 8

/-- `float_type_idx_start_` (include/INNC/types.hpp:28). -/
def floatStart : Nat := 4

/-- `is_int` (include/INNC/types.hpp:113). -/
def isInt (t : DType) : Bool := decide (t.idx < floatStart)

/-- `is_float` (include/INNC/types.hpp:114). -/
def isFloat (t : DType) : Bool := decide (t.idx ≥ floatStart)

/-- `larger_type` (include/INNC/types.hpp:112). -/
def larger (a b : DType) : DType := if a.idx ≥ b.idx then a else b

/-- Width in bits of an integer type. -/
def bits (t : DType) : Nat := 8 * t.size

/-- Type of `l + r`, `l - r`, `l * r`, `l / r` for operands of these element types: C++ usual
arithmetic conversions ([expr.arith.conv]); integers below `int` are promoted to `int` (= i32).
This is the `decltype(L{} + R{})` of include/INNC/types.hpp:127. -/
def arith : DType → DType → DType
  | f64, _ => f64
  | _, f64 => f64
  | f32, _ => f32
  | _, f32 => f32
  | i64, _ => i64
  | _, i64 => i64
  | _, _ => i32

/-- `innc_common_t` (include/INNC/types.hpp:121-131): the wider one of two integer types, else the
type of the sum. `std::is_integral_v` holds for exactly the four integer types. -/
def common (l r : DType) : DType :=
  if l.isInt && r.isInt then (if l.size ≥ r.size then l else r) else arith l r

end DType

/-- Value of one element: an integer or a floating-point number of the parameter type `F`. -/
inductive Val (F : Type) where
  | i (n : Int)
  | f (x : F)
  deriving DecidableEq, Repr

/-- Floating-point arithmetic, left abstract: no laws are assumed. `DType` arguments say in which of
the two formats (f32, f64) the operation is carried out; values of both formats live in `F`. -/
class FOps (F : Type) where
  /-- all-zero bit pattern (`std::memset(.., 0, ..)`) -/
  zero : F
  /-- integer to float conversion -/
  ofInt : DType → Int → F
  /-- truncation towards zero; `none` for NaN and infinities -/
  toInt : F → Option Int
  /-- conversion between the float formats -/
  cvt : DType → F → F
  add : DType → F → F → F
  sub : DType → F → F → F
  mul : DType → F → F → F
  div : DType → F → F → F
  neg : F → F
  lt : F → F → Bool
  le : F → F → Bool
  eq : F → F → Bool
  /-- `std::to_string(float)` / `std::to_string(double)` -/
  toStr : F → List Char
  /-- k-th byte of the object representation -/
  byte : DType → F → Nat → Nat

/-- Conversion of an integer to a signed integer type of `b` bits (C++20: modular). -/
def wrapBits (b : Nat) (n : Int) : Int := Int.bmod n (2 ^ b)

/-- Can an integer type represent `n`? -/
def fitsInt (t : DType) (n : Int) : Bool := decide (-(2 ^ (t.bits - 1)) ≤ n ∧ n < 2 ^ (t.bits - 1))

section
variable {F : Type} [FOps F]

/-- C++ conversion of a value of some other arithmetic type to element type `t` ([conv.integral], [conv.double],
[conv.fpint]). -/
def convTo (t : DType) (v : Val F) : Res (Val F) :=
  match t.isInt, v with
  | true, .i n => .ok (.i (wrapBits t.bits n))
  | true, .f x =>
    match FOps.toInt x with
    | some n => if fitsInt t n then .ok (.i n) else .ub .floatToInt
    | none => .ub .floatToInt
  | false, .i n => .ok (.f (FOps.ofInt t n))
  | false, .f x => .ok (.f (FOps.cvt t x))

/-- Implicit C++ conversion from element type `s` to element type `t`; nothing happens if they are the same. Used by
every assignment to a typed element. -/
def cConv (s t : DType) (v : Val F) : Res (Val F) := if s = t then .ok v else convTo t v

/-- The four element operators. -/
inductive AOp where
  | add | sub | mul | div
  deriving DecidableEq, Repr

/-- Integer operation in type `t` (after promotion): overflow and division by zero are undefined;
division truncates towards zero. -/
def iArith (op : AOp) (t : DType) (a b : Int) : Res Int :=
  match op with
  | .add => if fitsInt t (a + b) then .ok (a + b) else .ub .overflow
  | .sub => if fitsInt t (a - b) then .ok (a - b) else .ub .overflow
  | .mul => if fitsInt t (a * b) then .ok (a * b) else .ub .overflow
  | .div =>
    if b = 0 then .ub .divZero
    else if fitsInt t (Int.tdiv a b) then .ok (Int.tdiv a b) else .ub .overflow

/-- Float operation in format `t`. -/
def fArith (op : AOp) (t : DType) (a b : F) : F :=
  match op with
  | .add => FOps.add t a b
  | .sub => FOps.sub t a b
  | .mul => FOps.mul t a b
  | .div => FOps.div t a b

/-- `x op y` for operands of element types `l` and `r`; the result has type `arith l r`. -/
def cArith (op : AOp) (l r : DType) (x y : Val F) : Res (Val F) := do
  let t := DType.arith l r
  let x' ← cConv l t x
  let y' ← cConv r t y
  match x', y' with
  | .i a, .i b =>
    let n ← iArith op t a b
    return .i n
  | .f a, .f b => return .f (fArith op t a b)
  | _, _ => .ub .typePun

/-- The six comparison operators. -/
inductive COp where
  | lt | gt | le | ge | eq | ne
  deriving DecidableEq, Repr

def iCmp (op : COp) (a b : Int) : Bool :=
  match op with
  | .lt => decide (a < b)
  | .gt => decide (a > b)
  | .le => decide (a ≤ b)
  | .ge => decide (a ≥ b)
  | .eq => decide (a = b)
  | .ne => decide (a ≠ b)

def fCmp (op : COp) (a b : F) : Bool :=
  match op with
  | .lt => FOps.lt a b
  | .gt => FOps.lt b a
  | .le => FOps.le a b
  | .ge => FOps.le b a
  | .eq => FOps.eq a b
  | .ne => !FOps.eq a b

/-- `x op y` for operands of element types `l` and `r`. -/
def cCmp (op : COp) (l r : DType) (x y : Val F) : Res Bool := do
  let t := DType.arith l r
  let x' ← cConv l t x
  let y' ← cConv r t y
  match x', y' with
  | .i a, .i b => return iCmp op a b
  | .f a, .f b => return fCmp op a b
  | _, _ => .ub .typePun

/-- Unary minus on an element of type `t`: the result has the promoted type `arith t t`. -/
def cNeg (t : DType) (x : Val F) : Res (Val F) :=
  match x with
  | .i n => if fitsInt (DType.arith t t) (-n) then .ok (.i (-n)) else .ub .overflow
  | .f a => .ok (.f (FOps.neg a))

/-- All-zero element of type `t`. -/
def zeroVal (t : DType) : Val F := if t.isInt then .i 0 else .f FOps.zero

/-- k-th byte (little endian) of the object representation of an element of type `t`. -/
def byteOf (t : DType) (v : Val F) (k : Nat) : Nat :=
  match v with
  | .i n => ((n % (2 ^ t.bits)) / (256 ^ k) % 256).toNat
  | .f x => FOps.byte t x k

/-- `INNC::innc_type_to_string(void*, types)` (src/INNC/types.cpp:29-47): `std::to_string` of the element. -/
def valToString (v : Val F) : List Char :=
  match v with
  | .i n => (toString n).toList
  | .f x => FOps.toStr x

end

/-- A value of element type `t`: integers in range, floats for the float types. -/
def Val.HasType {F : Type} (t : DType) : Val F → Prop
  | .i n => t.isInt = true ∧ fitsInt t n = true
  | .f _ => t.isFloat = true

end INNC
