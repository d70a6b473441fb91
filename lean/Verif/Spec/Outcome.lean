import Verif.Spec.Memory
/-
Specification: what a binary operation does for any two shapes.
-/
namespace INNC.Spec
variable {F : Type}

/-- Both operands, of shapes `sl` and `sr`, have an element for the index `idx` of the result. -/
def Meets (sl sr idx : List Nat) : Prop := InBox sl (project sl idx) ∧ InBox sr (project sr idx)

/-- In the order in which the elements of a tensor of shape `s` are listed (the last axis fastest), `idx` is the first index of
which `P` does not hold. -/
def FirstNot (s : List Nat) (P : List Nat → Prop) (idx : List Nat) : Prop :=
  InBox s idx ∧ ¬ P idx ∧ ∀ idx', InBox s idx' → rank s idx' < rank s idx → P idx'

/-- Byte `p` of a storage that holds the integers `ns`, each in `size` bytes (two's complement, least significant byte first). -/
def byteIn (size : Nat) (ns : List Int) (p : Nat) : Int := ns.getD (p / size) 0 / 256 ^ (p % size) % 256

end INNC.Spec
