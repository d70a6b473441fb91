import Verif.Spec.Heap
/-
Specification: the text of a tensor.
-/
namespace INNC.Spec
variable {F : Type} [FOps F]

/-- The text of an element: decimal for integers. -/
def elemText : Val F → List Char
  | .i n => (toString n).toList
  | .f x => FOps.toStr x

/-- Several texts separated by `", "`. -/
def commas : List (List Char) → List Char
  | [] => []
  | [a] => a
  | a :: b :: l => a ++ [',', ' '] ++ commas (b :: l)

/-- The nested listing of a tensor of shape `sizes` with elements `f`. -/
def listing : List Nat → (List Nat → Val F) → List Char
  | [], f => elemText (f [])
  | n :: ns, f => ['['] ++ commas ((List.range n).map fun k => listing ns fun idx => f (k :: idx)) ++ [']']

/-- The byte offset of every element is less than 2^63, the largest size an object can have. -/
def Addressable (h : Heap F) (t : Nat) : Prop :=
  ∀ i, h.ts[t]? = some i → ∀ idx, InBox i.view.sizes idx → position i.view idx * i.dtype.size < 9223372036854775808

end INNC.Spec
