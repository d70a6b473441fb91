import Verif.Spec.Scalar
import Verif.Spec.Index
/-
Specification of the reductions.
-/
namespace INNC.Spec
variable {F : Type} [FOps F]

/-- Element type of sums: `i64` for integers, `f64` for floats. -/
def accType (t : DType) : DType := if isInteger t then .i64 else .f64

/-- The elements of a tensor of shape `s` in row-major order. -/
def elems (s : List Nat) (f : List Nat → Val F) : List (Val F) := (rowMajor s).map f

/-- Adding up elements of type `t` from left to right, starting at 0, in the accumulator type; `none` if a partial
integer sum does not fit in 64 bits. -/
def total (t : DType) (xs : List (Val F)) : Option (Val F) :=
  xs.foldlM (elemArith .add (accType t) t) (zeroElem (accType t))

/-- The sum of a tensor's elements; for a tensor without axes its only element, converted. -/
def sumOf (t : DType) (s : List Nat) (f : List Nat → Val F) : Option (Val F) :=
  match s with
  | [] => convert t (accType t) (f [])
  | _ => total t (elems s f)

/-- The sum divided by the number of elements (truncating for integers); 0 if there are none. -/
def meanOf (t : DType) (s : List Nat) (f : List Nat → Val F) : Option (Val F) :=
  if vol s = 0 then some (zeroElem (accType t))
  else
    match sumOf t s f with
    | some v =>
      elemArith .div (accType t) (accType t) v (if isInteger t then .i (vol s) else .f (FOps.ofInt .f64 (vol s)))
    | none => none

/-- The integer in an element. -/
def intOf : Val F → Int
  | .i n => n
  | .f _ => 0

/-- Is the element not negative? -/
def nonneg (t : DType) : Val F → Bool
  | .i n => decide (0 ≤ n)
  | .f x => FOps.le (FOps.ofInt t 0) x

/-- Absolute value of an element of type `t`: a negative integer is negated in 32 bits (64 bits for `i64`), `none` if
that overflows, and reduced to the width of `t`. -/
def elemAbs (t : DType) (v : Val F) : Option (Val F) :=
  if nonneg t v then some v
  else
    match v with
    | .i n => if InRange (max 32 (width t)) (-n) then some (.i (reduce (width t) (-n))) else none
    | .f x => some (.f (FOps.neg x))

/-- 1 or -1 as an element of type `t`. -/
def elemSign (t : DType) (v : Val F) : Val F :=
  if isInteger t then .i (if nonneg t v then 1 else -1) else .f (FOps.ofInt t (if nonneg t v then 1 else -1))

/-- The relation `x >= y` (for `max`) or `x <= y` (for `min`) is total and transitive on the elements of the tensor: true
for every integer tensor (`C24_integer_order`) and for float tensors without NaN. -/
structure Ordered (keep : COp) (dt : DType) (s : List Nat) (f : List Nat → Val F) : Prop where
  total : ∀ a b, InBox s a → InBox s b →
    elemCompare keep dt dt (f a) (f b) = true ∨ elemCompare keep dt dt (f b) (f a) = true
  trans : ∀ a b c, InBox s a → InBox s b → InBox s c → elemCompare keep dt dt (f a) (f b) = true →
    elemCompare keep dt dt (f b) (f c) = true → elemCompare keep dt dt (f a) (f c) = true

/-- What `all` reports for bytes in this order: it stops at the first byte other than 1, and reading a byte other than 0
and 1 as a truth value is undefined (`none`). -/
def scanAll : List Int → Option Bool
  | [] => some true
  | n :: l => if n = 1 then scanAll l else if n = 0 then some false else none

end INNC.Spec
