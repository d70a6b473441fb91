import Verif.Model.Call
/-
Variables of type `Tensor` (include/INNC/tensor.hpp:26-64, src/INNC/tensor.cpp:10-38): a `Tensor` is a `std::shared_ptr` to a tensor
object, which is null in an empty `Tensor`. The variables of a program are numbered; a variable that goes out of scope is not modelled
here (see Spec/Lifetime).
-/
namespace INNC.Tensor
section
variable {F : Type} [FOps F]

/-- A statement of a program with variables of type `Tensor`. -/
inductive HStmt (F : Type) where
  /-- `Tensor b;` (src/INNC/tensor.cpp:10) -/
  | declare
  /-- `Tensor b; b = a;`: there is no copy constructor (include/INNC/tensor.hpp:51) -/
  | copy (a : Nat)
  /-- `Tensor b = std::move(a);` (src/INNC/tensor.cpp:11) -/
  | take (a : Nat)
  /-- `b = a;` (src/INNC/tensor.cpp:22) -/
  | assign (b a : Nat)
  /-- `b = std::move(a);` (src/INNC/tensor.cpp:23) -/
  | give (b a : Nat)
  /-- A call; if it returns a `Tensor`, this is a new variable: `Tensor b = f(a);` -/
  | call (c : Call F)
  /-- `try { f(a); } catch (...) {}` -/
  | attempt (c : Call F)

/-- Does the call return a `Tensor`, possibly an empty one? -/
def Call.makes : Call F → Bool
  | .addAssign _ _ | .setRequiresGrad _ _ | .setRetainGrad _ _ | .zeroGrad _ | .release _ | .backward _ | .all _ | .toString _
  | .stride _ | .query _ => false
  | _ => true

/-- The variables that the functions of src/INNC/tensor.cpp dereference themselves (`fptr->...`, `*fptr`). `transpose`, `reshape` and
`cat` pass the pointers on (lines 140-157, 209-214), to functions that dereference them first of all; `to_string` (line 35) looks
whether the pointer is null. -/
def Call.derefs : Call F → List Nat
  | .onesLike t | .zerosLike t | .randnLike _ t | .slice t _ | .detach t | .clone t
  | .contiguous t | .toType t _ | .pos t | .neg t | .sum t | .mean t | .abs t | .max t | .min t | .setRequiresGrad t _
  | .setRetainGrad t _ | .zeroGrad t | .release t | .backward t | .grad t | .all t | .stride t
  | .query t => [t]
  | .reshapeAs t u | .addAssign t u => [t, u]
  | .add l r | .sub l r | .mul l r | .div l r | .cmp _ l r => [l, r]
  | _ => []

/-- The call on the tensors `σ v`. -/
def Call.on (σ : Nat → Nat) : Call F → Call F
  | .onesLike t => .onesLike (σ t)
  | .zerosLike t => .zerosLike (σ t)
  | .randnLike rnd t => .randnLike rnd (σ t)
  | .slice t s => .slice (σ t) s
  | .transpose t a b => .transpose (σ t) a b
  | .reshape t s => .reshape (σ t) s
  | .reshapeAs t u => .reshapeAs (σ t) (σ u)
  | .detach t => .detach (σ t)
  | .clone t => .clone (σ t)
  | .contiguous t => .contiguous (σ t)
  | .toType t dt => .toType (σ t) dt
  | .add l r => .add (σ l) (σ r)
  | .sub l r => .sub (σ l) (σ r)
  | .mul l r => .mul (σ l) (σ r)
  | .div l r => .div (σ l) (σ r)
  | .pos t => .pos (σ t)
  | .neg t => .neg (σ t)
  | .cmp op l r => .cmp op (σ l) (σ r)
  | .sum t => .sum (σ t)
  | .mean t => .mean (σ t)
  | .abs t => .abs (σ t)
  | .max t => .max (σ t)
  | .min t => .min (σ t)
  | .cat ts d => .cat (ts.map σ) d
  | .addAssign t r => .addAssign (σ t) (σ r)
  | .setRequiresGrad t b => .setRequiresGrad (σ t) b
  | .setRetainGrad t b => .setRetainGrad (σ t) b
  | .zeroGrad t => .zeroGrad (σ t)
  | .release t => .release (σ t)
  | .backward t => .backward (σ t)
  | .grad t => .grad (σ t)
  | .all t => .all (σ t)
  | .toString t => .toString (σ t)
  | .stride t => .stride (σ t)
  | .query t => .query (σ t)
  | .scalar dt v => .scalar dt v
  | .empty s dt => .empty s dt
  | .init tree => .init tree
  | .ones s dt => .ones s dt
  | .zeros s dt => .zeros s dt
  | .fullInt s n dt => .fullInt s n dt
  | .fullReal s x dt => .fullReal s x dt
  | .eye n m dt => .eye n m dt
  | .fromBlob data s dt => .fromBlob data s dt
  | .randn rnd s dt => .randn rnd s dt

/-- The pointer in a variable. -/
def ptr (vs : List (Option Nat)) (v : Nat) : Option Nat := vs.getD v none

/-- A call on variables. A null pointer that is passed on is a handle without a tensor. -/
def callOn (vs : List (Option Nat)) (c : Call F) : M F (Option Nat) := fun h =>
  if c.derefs.any fun v => (ptr vs v).isNone then .ub .nullptr
  else match c with
    | .toString v => none' (tensorToString (ptr vs v)) h
    | c => (c.on fun v => (ptr vs v).getD h.ts.length).run h

/-- One statement: the pointers in the variables afterwards. Moving from a `std::shared_ptr` leaves it null, except that moving to
itself changes nothing. -/
def HStmt.exec (vs : List (Option Nat)) : HStmt F → M F (List (Option Nat))
  | .declare => return vs ++ [none]
  | .copy a => return vs ++ [ptr vs a]
  | .take a => return vs.set a none ++ [ptr vs a]
  | .assign b a => return vs.set b (ptr vs a)
  | .give b a => return if b = a then vs else (vs.set a none).set b (ptr vs a)
  | .call c => do
    let o ← callOn vs c
    return if c.makes then vs ++ [o] else vs
  | .attempt c => fun h => match callOn vs c h with
    | .ok _ h' => .ok vs h'
    | .throw _ h' => .ok vs h'
    | .ub u => .ub u

/-- A program. -/
def execAll : List (HStmt F) → List (Option Nat) → M F (List (Option Nat))
  | [], vs => return vs
  | s :: p, vs => do execAll p (← s.exec vs)

end
end INNC.Tensor
