import Verif.Model.Call
import Verif.Spec.Ieee
/-
Specification: sets of floats, one for each element type, that the operations do not leave; calls that only mention such
floats; the formats binary32 and binary64.
-/
namespace INNC.Spec
open Tensor
variable {F : Type}

/-- The set contains 0 and the integers (as converted) and is closed under conversions and operations. -/
structure Closed [FOps F] (N : DType → F → Prop) : Prop where
  zero : ∀ t, N t FOps.zero
  ofInt : ∀ t n, N t (FOps.ofInt t n)
  cvt : ∀ s t x, N s x → N t (FOps.cvt t x)
  add : ∀ t x y, N t x → N t y → N t (FOps.add t x y)
  sub : ∀ t x y, N t x → N t y → N t (FOps.sub t x y)
  mul : ∀ t x y, N t x → N t y → N t (FOps.mul t x y)
  div : ∀ t x y, N t x → N t y → N t (FOps.div t x y)
  neg : ∀ t x, N t x → N t (FOps.neg x)

/-- An element for a tensor of type `t`: an integer, or a float of the set (if `t` is a float type). -/
def ElementIn (N : DType → F → Prop) (t : DType) : Val F → Prop
  | .i _ => True
  | .f x => t.isFloat = true ∧ N t x

/-- Nested initialiser lists whose numbers are in the set. -/
inductive TreeIn (N : DType → F → Prop) : InitTree F → Prop
  | leaf {dt : DType} {vs : List (Val F)} : (∀ v ∈ vs, ElementIn N dt v) → TreeIn N (.leaf dt vs)
  | nil : TreeIn N (.node [])
  | cons {x : InitTree F} {l : List (InitTree F)} : TreeIn N x → TreeIn N (.node l) → TreeIn N (.node (x :: l))

/-- The floats that the program passes in are in the set: elements in the set of their type, `full` (which takes a `double`)
in that of `f64`, random numbers (which are stored as `float`) in that of `f32`. -/
def NumbersIn (N : DType → F → Prop) : Call F → Prop
  | .scalar dt v => ElementIn N dt v
  | .init x => TreeIn N x
  | .fullReal _ x _ => N .f64 x
  | .fromBlob d _ dt => ∀ v ∈ d, ElementIn N dt v
  | .randn r _ _ => ∀ k, N .f32 (r k)
  | .randnLike r _ => ∀ k, N .f32 (r k)
  | _ => True

/-- The floats of a format: infinities, NaN and the finite numbers `±m · 2^e` with a bounded number of bits in `m` and bounded
`e`. In units of `2^-1074` as in `Ieee`: `f32` has 24 bits, exponents from `-149 = 925 - 1074`, and numbers below
`2^128 = 2^(1202 - 1074)`; all other types stand for `f64`, with 53 bits, exponents from `-1074`, and numbers below `2^1024`. -/
def Ieee.InFormat (t : DType) : Ieee → Prop
  | .fin _ k => if t = .f32 then k < 2 ^ 1202 ∧ ∃ m e, m < 2 ^ 24 ∧ 925 ≤ e ∧ k = m * 2 ^ e
    else k < 2 ^ 2098 ∧ ∃ m e, m < 2 ^ 53 ∧ k = m * 2 ^ e
  | _ => True

end INNC.Spec
