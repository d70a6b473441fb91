import Verif.Spec.Slice
import Verif.Model.Call
/-
Specification: small programs over the API that statements of several properties use.
-/
namespace INNC
open Spec Tensor
variable {F : Type} [FOps F]

/-- The binary arithmetic operators of the API. -/
def arithT (op : AOp) : Nat → Nat → M F Nat :=
  match op with
  | .add => Tensor.addT
  | .sub => Tensor.subT
  | .mul => Tensor.mulT
  | .div => Tensor.divT

/-- The specification "everything" for a number of axes. -/
def everything (n : Nat) : List AxisSpec := List.replicate n (.range none none none)

/-- The sizes a user passes. -/
def request (s : List Nat) : List Int := s.map (fun n : Nat => (n : Int))

/-- Printing the gradient of `t`. -/
def showGrad (t : Nat) : M F (Option (List Char)) := do
  match ← gradOf t with
  | none => return none
  | some g => return some (← Tensor.toString g)

/-- Propagate from the tensors of the list, one after the other. -/
def oneByOne : List Nat → M F Unit
  | [] => pure ()
  | x :: l => do
    let _ ← backVisit x
    oneByOne l

/-- Give `t` a gradient of ones and note the version of the pass (src/INNC/tensorImpl.cpp:341-345). -/
def setOut (t : Nat) : M F Unit := do
  let o ← onesLike t
  let i ← getT t
  setT t { i with grad := some o }
  let v ← bumpVersion
  let g ← getGradFn t
  setGF t { g with backVersion := v }

/-- What `grad()` returns. -/
def gradientOf (h : Heap F) (x : Nat) : Option Nat := (h.ts[x]?).bind (·.grad)

end INNC
