import Verif.Spec.Cat
import Verif.Spec.Heap
/-
Specification: what the laws of `cat` and `reshape` need.
-/
namespace INNC.Spec
variable {F : Type}

/-- The storage of the tensor `t` has fewer than 2^62 bytes. -/
def Moderate (h : Heap F) (t : Nat) : Prop :=
  ∃ i s cells, h.ts[t]? = some i ∧ h.st[i.data]? = some s ∧ s.blob = some cells ∧ cells.length * i.dtype.size < 4611686018427387904

/-- Converting the elements of `blocks` first to the latest of their own types and then to `dt` is converting them to `dt`: the latest
type is `dt`, or it is an integer type, or all have it already. -/
def OneStep (blocks : List (Block F)) (dt : DType) : Prop :=
  latest (blocks.map (·.dt)) = dt ∨ isInteger (latest (blocks.map (·.dt))) = true ∨ ∀ b ∈ blocks, b.dt = latest (blocks.map (·.dt))

/-- Two tensors to combine, both of size `n` on the concatenation axis: their elements and the elements of the result. -/
structure Pair (F : Type) where
  n : Nat
  left : List Nat → Val F
  right : List Nat → Val F
  both : List Nat → Val F

/-- The blocks of the left operands, of type `dt`. -/
def lefts (dt : DType) (ps : List (Pair F)) : List (Block F) := ps.map fun p => ⟨dt, p.n, p.left⟩
/-- The blocks of the right operands, of type `dt`. -/
def rights (dt : DType) (ps : List (Pair F)) : List (Block F) := ps.map fun p => ⟨dt, p.n, p.right⟩
/-- The blocks of the results, of type `dt`. -/
def boths (dt : DType) (ps : List (Pair F)) : List (Block F) := ps.map fun p => ⟨dt, p.n, p.both⟩

end INNC.Spec
