import Verif.Spec.Api
import Verif.Spec.Heap
import Verif.Spec.Scalar
import Verif.Spec.Index
/-
Specification: expressions with `+`, `-` and `*` of tensors that broadcast.
-/
namespace INNC.Spec
variable {F : Type} [FOps F]

/-- An expression in variables, with the arithmetic operators. -/
inductive Formula
  | var (k : Nat)
  | bin (op : AOp) (a b : Formula)

/-- The computation an expression stands for: the variable `k` is the tensor `vars k`, and the operators are those of the
library. (In which order the operands are evaluated makes no difference, see C76; here the left one comes first.) -/
def Formula.run (vars : Nat → Nat) : Formula → M F Nat
  | .var k => pure (vars k)
  | .bin op a b => do
    let x ← a.run vars
    let y ← b.run vars
    arithT op x y

/-- The exact value of an expression without divisions for integer values of the variables. -/
def Formula.value (env : Nat → Int) : Formula → Int
  | .var k => env k
  | .bin .add a b => a.value env + b.value env
  | .bin .sub a b => a.value env - b.value env
  | .bin .mul a b => a.value env * b.value env
  | .bin .div _ _ => 0

/-- The variables of an expression. -/
def Formula.Uses (k : Nat) : Formula → Prop
  | .var j => j = k
  | .bin _ a b => a.Uses k ∨ b.Uses k

/-- The shape of an expression: operands are broadcast. -/
def Formula.shape (sh : Nat → List Nat) : Formula → List Nat
  | .var k => sh k
  | .bin _ a b => (bshape (a.shape sh) (b.shape sh)).getD []

/-- The expression uses no division; everywhere in it the shapes of the operands are compatible (and no axis of size 1 meets
an empty one) and the results have fewer than 2^60 elements. -/
def Formula.Fine (sh : Nat → List Nat) : Formula → Prop
  | .var _ => True
  | .bin op a b => a.Fine sh ∧ b.Fine sh ∧ op ≠ .div ∧ bshape (a.shape sh) (b.shape sh) ≠ none ∧
    ¬ stretched (a.shape sh) (b.shape sh) ∧ vol ((Formula.bin op a b).shape sh) < 1152921504606846976

/-- The values of the variables at an index of the result: each variable is read at the index broadcasting selects. -/
def readAt (sh : Nat → List Nat) (f : Nat → List Nat → Int) (idx : List Nat) (k : Nat) : Int := f k (project (sh k) idx)

/-- At every index of every part of the expression its exact value fits in `w` bits. -/
def Formula.FitsIn (w : Nat) (sh : Nat → List Nat) (f : Nat → List Nat → Int) : Formula → Prop
  | .var _ => True
  | .bin op a b => a.FitsIn w sh f ∧ b.FitsIn w sh f ∧
    ∀ idx, InBox ((Formula.bin op a b).shape sh) idx → InRange w ((Formula.bin op a b).value (readAt sh f idx))

end INNC.Spec
