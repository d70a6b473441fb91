import Verif.Model.Tensor
/-
The text of shapes: `SizeVec::to_string`, `SignedVec::to_string` and the stream operators (src/INNC/types.cpp:49-76).
-/
namespace INNC

/-- The loop of `iter_to_string` (src/INNC/types.cpp:52-59), with the flag `begin` and the text so far. -/
def iterLoop : Bool → Str → List Int → Str
  | _, s, [] => s
  | true, s, i :: l => iterLoop false (s ++ (toString i).toList) l
  | false, s, i :: l => iterLoop false (s ++ ([',', ' '] ++ (toString i).toList)) l

/-- `iter_to_string` (src/INNC/types.cpp:49-61). -/
def iterToString (l : List Int) : Str := iterLoop true ['['] l ++ [']']

/-- `SizeVec::to_string` (src/INNC/types.cpp:63-65), which `operator<<` (lines 71-73) sends to the stream. -/
def sizeVecToString (s : List Nat) : Str := iterToString (s.map fun (n : Nat) => (n : Int))

/-- `SignedVec::to_string` (src/INNC/types.cpp:67-69), which `operator<<` (lines 75-77) sends to the stream. -/
def signedVecToString (l : List Int) : Str := iterToString l

namespace Tensor
variable {F : Type} [FOps F]

/-- `t.size().to_string()`. -/
def sizeToString (t : Nat) : M F Str := do return sizeVecToString (← sizeT t)

end Tensor
end INNC
