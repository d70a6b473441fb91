/-
Specification: multi-indices, row-major order, strided positions, broadcasting of shapes.
Nothing here refers to the model.
-/
namespace INNC.Spec

/-- `idx` is a multi-index of the shape `sizes`: same length, each entry below the size of its axis. -/
def InBox : List Nat → List Nat → Prop
  | [], [] => True
  | n :: ns, i :: is => i < n ∧ InBox ns is
  | _, _ => False

/-- All multi-indices of a shape, last axis fastest. -/
def rowMajor : List Nat → List (List Nat)
  | [] => [[]]
  | n :: ns => (List.range n).flatMap fun i => (rowMajor ns).map (i :: ·)

/-- Number of elements of a shape, as a mathematical integer. -/
def vol : List Nat → Nat
  | [] => 1
  | n :: ns => n * vol ns

/-- Position of a multi-index in the row-major listing of the shape. -/
def rank : List Nat → List Nat → Nat
  | _ :: ns, i :: is => i * vol ns + rank ns is
  | _, _ => 0

/-- Inner product of strides and index. -/
def dot : List Int → List Nat → Int
  | st :: sts, i :: is => st * i + dot sts is
  | _, _ => 0

/-- Row-major strides of a shape. -/
def rmStrides : List Nat → List Int
  | [] => []
  | _ :: ns => (vol ns : Int) :: rmStrides ns

/-- Broadcast of two axis sizes (NumPy): equal, or one of them is 1. -/
def bdim (a b : Nat) : Option Nat :=
  if a = b then some a else if a = 1 then some b else if b = 1 then some a else none

/-- Broadcast of two shapes listed from the last axis to the first; missing axes count as 1. -/
def bshapeRev : List Nat → List Nat → Option (List Nat)
  | [], v => some v
  | u, [] => some u
  | a :: u, b :: v =>
    match bdim a b, bshapeRev u v with
    | some d, some r => some (d :: r)
    | _, _ => none

/-- NumPy broadcast of two shapes; `none` if they are incompatible. -/
def bshape (u v : List Nat) : Option (List Nat) := (bshapeRev u.reverse v.reverse).map List.reverse

/-- The index into an operand of shape `sizes` that the index `idx` of a broadcast result selects: leading axes the
operand does not have are dropped, axes of size 1 are read at 0. -/
def project (sizes idx : List Nat) : List Nat :=
  List.zipWith (fun n i => if n = 1 then 0 else i) sizes (idx.drop (idx.length - sizes.length))

/-- Some pair of aligned axes (listed from the last axis to the first) has sizes 0 and 1. -/
def stretchRev : List Nat → List Nat → Prop
  | a :: u, b :: v => (a = 0 ∧ b = 1) ∨ (a = 1 ∧ b = 0) ∨ stretchRev u v
  | _, _ => False

/-- Broadcasting would shrink an axis of size 1 of one operand to the empty axis of the other. -/
def stretched (u v : List Nat) : Prop := stretchRev u.reverse v.reverse

end INNC.Spec
