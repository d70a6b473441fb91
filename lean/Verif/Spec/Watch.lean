import Verif.Spec.Interleave
/-
Specification: a program and an observer that looks at its tensors - prints them, compares them, computes with them, keeps statistics - but
changes nothing except tensors of its own.
-/
namespace INNC.Spec
open Tensor
section
variable {F : Type}

/-- The objects that the observer has created. -/
structure Created where
  ts : Nat → Prop
  st : Nat → Prop

/-- The observer has run from `h` to `h'`. -/
def Created.during (m : Created) (h h' : Heap F) : Created where
  ts t := m.ts t ∨ h.ts.length ≤ t ∧ t < h'.ts.length
  st d := m.st d ∨ h.st.length ≤ d ∧ d < h'.st.length

/-- The calls of an observer. It may compute, convert, compare, print, detach and ask. It may add in place to its own memory. It may take
views, and set flags, of its own tensors; views also of all tensors that do not require grad or have a gradient already (a view of another
tensor gives that tensor a gradient). It calls none of `backward()`, `zero_grad()` and `release()`. -/
def Looks (h : Heap F) (m : Created) (us : List (Option Nat)) : Call F → Prop
  | .addAssign u _ => ∀ t i, ptr us u = some t → h.ts[t]? = some i → m.st i.data
  | .slice u _ | .transpose u _ _ | .reshape u _ | .reshapeAs u _ =>
    ∀ t i, ptr us u = some t → h.ts[t]? = some i → i.requiresGrad = false ∨ i.grad ≠ none ∨ m.ts t
  | .setRequiresGrad u _ | .setRetainGrad u _ => ∀ t, ptr us u = some t → m.ts t
  | .backward _ | .zeroGrad _ | .release _ => False
  | _ => True

def LooksOnly (h : Heap F) (m : Created) (us : List (Option Nat)) : HStmt F → Prop
  | .call c | .attempt c => Looks h m us c
  | _ => True

/-- A program has executed the statements `p`, and an observer has done what it liked in between. `vs` are the variables of the program, `us`
those of the observer. The observer may copy variables of the program (`look`). -/
inductive Watched [FOps F] : List (HStmt F) → Heap F → List (Option Nat) → List (Option Nat) → Created → Prop
  | start : Watched [] Heap.empty [] [] ⟨fun _ => False, fun _ => False⟩
  | main {p h vs us m} (s : HStmt F) {vs' h'} : Watched p h vs us m → s.exec vs h = .ok vs' h' → Watched (p ++ [s]) h' vs' us m
  | look {p h vs us m} (a : Nat) : Watched p h vs us m → Watched p h vs (us ++ [ptr vs a]) m
  | side {p h vs us m} (s : HStmt F) {us' h'} : Watched p h vs us m → LooksOnly h m us s → s.exec us h = .ok us' h' →
      Watched p h' vs us' (m.during h h')

/-- The variables after a run that returned. -/
def outVars : Out (Heap F) (List (Option Nat)) → Option (List (Option Nat))
  | .ok vs _ => some vs
  | _ => none

end
end INNC.Spec
