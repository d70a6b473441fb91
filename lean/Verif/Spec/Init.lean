import Verif.Model.Init
/-
Specification: what a nested initialiser list depicts. A `leaf` is a list of numbers, a `node` a list of initialisers.
-/
namespace INNC.Spec
open Tensor (InitTree)
variable {F : Type}

/-- The initialiser is uniform: its nesting has the shape `sizes`, and all its numbers have type `dt`. -/
def Uniform (dt : DType) : List Nat → InitTree F → Prop
  | [n], .leaf t vals => t = dt ∧ vals.length = n
  | n :: s, .node args => args.length = n ∧ n ≠ 0 ∧ ∀ a ∈ args, Uniform dt s a
  | _, _ => False

/-- The number found by following an index into the nesting. -/
def entry : List Nat → InitTree F → Option (Val F)
  | [k], .leaf _ vals => vals[k]?
  | k :: idx, .node args => (args[k]?).bind (entry idx)
  | _, _ => none

/-- Every list of initialisers in it has at least one entry. (Lists of numbers may be empty.) -/
inductive Proper : InitTree F → Prop
  | leaf (dt vals) : Proper (.leaf dt vals)
  | node (args) : args ≠ [] → (∀ a ∈ args, Proper a) → Proper (.node args)

/-- All its numbers have the type stated for their list. -/
inductive Typed : InitTree F → Prop
  | leaf (dt vals) : (∀ v ∈ vals, v.HasType dt) → Typed (.leaf dt vals)
  | node (args) : (∀ a ∈ args, Typed a) → Typed (.node args)

end INNC.Spec
