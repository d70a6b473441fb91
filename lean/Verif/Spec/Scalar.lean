import Verif.Model.Scalar
/-
Specification of the arithmetic on single elements. From the model only the element types (`DType`), the values
(`Val`) and the abstract float operations (`FOps`) are used.
-/
namespace INNC.Spec
variable {F : Type} [FOps F]

/-- Number of bits of an element type. -/
def width : DType → Nat
  | .i8 => 8 | .i16 => 16 | .i32 => 32 | .i64 => 64 | .f32 => 32 | .f64 => 64

/-- Is it one of the integer types? -/
def isInteger : DType → Bool
  | .i8 => true | .i16 => true | .i32 => true | .i64 => true | .f32 => false | .f64 => false

/-- Position in the order i8 < i16 < i32 < i64 < f32 < f64. -/
def order : DType → Nat
  | .i8 => 0 | .i16 => 1 | .i32 => 2 | .i64 => 3 | .f32 => 4 | .f64 => 5

/-- The later of two types in that order. -/
def later (a b : DType) : DType := if order b ≤ order a then a else b

/-- Range of a two's complement integer of `b` bits. -/
def InRange (b : Nat) (n : Int) : Prop := -(2 ^ (b - 1)) ≤ n ∧ n < 2 ^ (b - 1)

instance (b : Nat) (n : Int) : Decidable (InRange b n) := by unfold InRange; infer_instance

/-- The value in the range of `b` bits congruent to `n` modulo `2^b`. -/
def reduce (b : Nat) (n : Int) : Int := (n + 2 ^ (b - 1)) % 2 ^ b - 2 ^ (b - 1)

/-- Conversion of an element of type `s` to type `t`: integers are reduced modulo the width, integers become the
corresponding float, floats are truncated if the result is representable (`none` otherwise), floats change format. -/
def convert (s t : DType) (v : Val F) : Option (Val F) :=
  if isInteger t then
    match v with
    | .i n => some (.i (reduce (width t) n))
    | .f x =>
      match FOps.toInt x with
      | some n => if InRange (width t) n then some (.i n) else none
      | none => none
  else
    match v with
    | .i n => some (.f (FOps.ofInt t n))
    | .f x => some (.f (if s = t then x else FOps.cvt t x))

/-- The element 0. -/
def zeroElem (t : DType) : Val F := if isInteger t then .i 0 else .f FOps.zero

/-- The element 1. -/
def oneElem (t : DType) : Val F := if isInteger t then .i 1 else .f (FOps.ofInt t 1)

/-- Exact integer arithmetic; `none` for a division by zero. -/
def exact (op : AOp) (a b : Int) : Option Int :=
  match op with
  | .add => some (a + b)
  | .sub => some (a - b)
  | .mul => some (a * b)
  | .div => if b = 0 then none else some (a.tdiv b)

/-- The float operation in format `t`. -/
def fop (op : AOp) (t : DType) (a b : F) : F :=
  match op with
  | .add => FOps.add t a b
  | .sub => FOps.sub t a b
  | .mul => FOps.mul t a b
  | .div => FOps.div t a b

/-- An element as a float of format `t`. -/
def asFloat (s t : DType) (v : Val F) : F :=
  match v with
  | .i n => FOps.ofInt t n
  | .f x => if s = t then x else FOps.cvt t x

/-- The element `x op y` of an arithmetic operation on elements of types `s` and `t`, as an element of the later type.
For two integer types: the exact value, which must be representable in 64 bits if one of the types has 64 bits and in
32 bits otherwise, reduced to the width of the later type; `none` is undefined behaviour. With a float type: the float
operation in the format of the later type. -/
def elemArith (op : AOp) (s t : DType) (x y : Val F) : Option (Val F) :=
  if isInteger s ∧ isInteger t then
    match x, y with
    | .i a, .i b =>
      match exact op a b with
      | some n => if InRange (max 32 (max (width s) (width t))) n then some (.i (reduce (width (later s t)) n)) else none
      | none => none
    | _, _ => none
  else some (.f (fop op (later s t) (asFloat s (later s t) x) (asFloat t (later s t) y)))

/-- The element of a binary operation of the library on elements of types `s` and `t`. In `+` and `*` the operand of
the later type is put first; this only matters for a float arithmetic whose `+` or `*` is not commutative. -/
def elemBinary (op : AOp) (s t : DType) (x y : Val F) : Option (Val F) :=
  if (op = .add ∨ op = .mul) ∧ order s < order t then elemArith op t s y x else elemArith op s t x y

/-- A float arithmetic whose `+` and `*` are commutative (IEEE arithmetic, up to the payload of NaNs). -/
class FComm (F : Type) [FOps F] : Prop where
  add_comm : ∀ (t : DType) (a b : F), FOps.add t a b = FOps.add t b a
  mul_comm : ∀ (t : DType) (a b : F), FOps.mul t a b = FOps.mul t b a

/-- The comparison of two integers. -/
def icompare (op : COp) (a b : Int) : Prop :=
  match op with
  | .lt => a < b
  | .gt => b < a
  | .le => a ≤ b
  | .ge => b ≤ a
  | .eq => a = b
  | .ne => a ≠ b

/-- The comparison of two floats. -/
def fcompare (op : COp) (a b : F) : Bool :=
  match op with
  | .lt => FOps.lt a b
  | .gt => FOps.lt b a
  | .le => FOps.le a b
  | .ge => FOps.le b a
  | .eq => FOps.eq a b
  | .ne => !FOps.eq a b

instance (op : COp) (a b : Int) : Decidable (icompare op a b) := by
  cases op <;> unfold icompare <;> infer_instance

/-- The comparison of two elements of types `s` and `t`: of the integers, or of the floats in the format of the later
type. -/
def elemCompare (op : COp) (s t : DType) (x y : Val F) : Bool :=
  match x, y with
  | .i a, .i b => decide (icompare op a b)
  | _, _ => fcompare op (asFloat s (later s t) x) (asFloat t (later s t) y)

end INNC.Spec
