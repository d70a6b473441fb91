import Verif.Spec.Watch
/-
Specification: two computations on the same variables, in either order.
-/
namespace INNC.Spec
open Tensor
section
variable {F : Type}

/-- From the state `h0` and the variables `vs0`, the statements `A` have run to the state `h` and the variables `vs`; they have computed with
the tensors of the state, but changed only tensors of their own (`Looks`). -/
inductive Evaluates [FOps F] (h0 : Heap F) (vs0 : List (Option Nat)) : List (HStmt F) → Heap F → List (Option Nat) → Created → Prop
  | start : Evaluates h0 vs0 [] h0 vs0 ⟨fun _ => False, fun _ => False⟩
  | step {A h vs m} (s : HStmt F) {vs' h'} : Evaluates h0 vs0 A h vs m → LooksOnly h m vs s → s.exec vs h = .ok vs' h' →
      Evaluates h0 vs0 (A ++ [s]) h' vs' (m.during h h')

/-- Two runs ended alike: both returned, and the variables hold the same tensors; or both threw the same exception; or both are undefined. -/
def EndAlike : Out (Heap F) (List (Option Nat)) → Out (Heap F) (List (Option Nat)) → Prop
  | .ok vs h, .ok vs' h' => SameVars h vs h' vs'
  | .throw x _, .throw x' _ => x = x'
  | .ub u, .ub u' => u = u'
  | _, _ => False

end
end INNC.Spec
