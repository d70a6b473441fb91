import Verif.Model.Handle
import Verif.Spec.Program
/-
Specification: programs with variables of type `Tensor`, some of which may be empty, and with moves.
-/
namespace INNC.Spec
open Tensor
section
variable {F : Type}

/-- The variable holds a tensor. -/
def Full (vs : List (Option Nat)) (v : Nat) : Prop := ∃ t, vs[v]? = some (some t)

/-- The statement with copies instead of moves. -/
def copying : HStmt F → HStmt F
  | .take a => .copy a
  | .give b a => .assign b a
  | s => s

/-- The variables that the statement uses, other than to assign them or from them. -/
def used : HStmt F → List Nat
  | .call c | .attempt c => args c
  | _ => []

/-- The variables that the statement names. -/
def named : HStmt F → List Nat
  | .declare => []
  | .copy a | .take a => [a]
  | .assign b a | .give b a => [b, a]
  | .call c | .attempt c => args c

/-- Every variable that holds a tensor in `vs` holds the same one in `us`. -/
def Subvars (vs us : List (Option Nat)) : Prop := vs.length = us.length ∧ ∀ (v t : Nat), vs[v]? = some (some t) → us[v]? = some (some t)

/-- The outcomes are the same, except that variables may be empty in the first that hold a tensor in the second. -/
def SameOut (o o' : Out (Heap F) (List (Option Nat))) : Prop :=
  match o, o' with
  | .ok vs h, .ok us h' => h' = h ∧ Subvars vs us
  | .throw e h, .throw e' h' => e' = e ∧ h' = h
  | .ub u, .ub u' => u' = u
  | _, _ => False

variable [FOps F]

/-- The program names only variables that it has, and uses only variables that hold a tensor. -/
def NeverEmpty : List (HStmt F) → List (Option Nat) → Heap F → Prop
  | [], _, _ => True
  | s :: p, vs, h => (∀ v ∈ named s, v < vs.length) ∧ (∀ v ∈ used s, Full vs v) ∧ ∀ us h', s.exec vs h = .ok us h' → NeverEmpty p us h'

/-- What the command of C55 is in a program with variables of type `Tensor`. -/
def statement : Command F → HStmt F
  | .call c => .call c
  | .copy v => .copy v
  | .assign v u => .assign v u
  | .attempt v => .attempt (.backward v)

/-- The command does not return an empty `Tensor`: only `grad()` and initialisation lists may. -/
def Solid : Command F → Prop
  | .call (.grad _) | .call (.init _) => False
  | _ => True

end
end INNC.Spec
