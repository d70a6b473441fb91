import Verif.Spec.Scalar
import Verif.Spec.Index
/-
Specification: concatenation.
-/
namespace INNC.Spec
variable {F : Type} [FOps F]

/-- One of the tensors to concatenate: its type, its size on the concatenation axis and its elements. -/
structure Block (F : Type) where
  dt : DType
  n : Nat
  f : List Nat → Val F

/-- The latest of several types in the order i8 < i16 < i32 < i64 < f32 < f64. -/
def latest : List DType → DType
  | [] => .i8
  | t :: ts => later t (latest ts)

/-- An element converted to another type. (Between the types for which it is used below the conversion always exists, see
`C29_converts`.) -/
def converted (s t : DType) (v : Val F) : Val F := (convert s t v).getD v

/-- The element at `idx` of the concatenation along axis `d`: the axis is divided into consecutive segments, one for each
block. -/
def catAt (d : Nat) (dt : DType) : List (Block F) → List Nat → Val F
  | [], _ => zeroElem dt
  | b :: rest, idx =>
    if idx.getD d 0 < b.n then converted b.dt dt (b.f idx) else catAt d dt rest (idx.set d (idx.getD d 0 - b.n))

/-- The total size on the concatenation axis. -/
def axisTotal : List (Block F) → Nat
  | [] => 0
  | b :: rest => b.n + axisTotal rest

end INNC.Spec
