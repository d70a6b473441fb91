import Verif.Spec.Scalar
import Verif.Spec.Index
import Verif.Spec.Heap
/-
Specification: in-place addition.
-/
namespace INNC.Spec
variable {F : Type} [FOps F]

/-- One step of `a += b` on elements of types `s` and `t`: their sum, converted to `s`. -/
def elemAccum (s t : DType) (x y : Val F) : Option (Val F) := (elemArith .add s t x y).bind (convert (later s t) s)

/-- The element at `idx` of `a` after `a += b`: the elements of `b` that broadcasting pairs with it are added in row-major
order. `sa`, `sb` are the shapes and `s` their broadcast. -/
def accumAt (da db : DType) (sa sb s : List Nat) (fa fb : List Nat → Val F) (idx : List Nat) : Option (Val F) :=
  ((rowMajor s).filter fun k => project sa k = idx).foldlM (fun x k => elemAccum da db x (fb (project sb k))) (fa idx)

/-- The elements of a view lie at different places. -/
def Distinct (h : Heap F) (t : Nat) : Prop :=
  ∀ i, h.ts[t]? = some i → ∀ a b, InBox i.view.sizes a → InBox i.view.sizes b →
    position i.view a = position i.view b → a = b

end INNC.Spec
