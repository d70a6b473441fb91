import Verif.Model.Call
import Verif.Spec.Heap
import Mathlib.Data.List.Forall2
/-
Specification: the same program over two float arithmetics. A relation between the floats of two arithmetics, which may
depend on the element type the floats have, is lifted to elements, states and calls; a session is a list of calls whose exceptions the program catches.
-/
namespace INNC.Spec
open Tensor
variable {F G : Type}

/-- Related operands have related results, and a float of the second arithmetic that can be converted to an integer is
related only to floats that convert to the same integer. (The second arithmetic may refuse conversions.) -/
structure Preserved [FOps F] [FOps G] (R : DType → F → G → Prop) : Prop where
  zero : ∀ t, R t FOps.zero FOps.zero
  ofInt : ∀ t n, R t (FOps.ofInt t n) (FOps.ofInt t n)
  cvt : ∀ s t x y, R s x y → R t (FOps.cvt t x) (FOps.cvt t y)
  add : ∀ t a a' b b', R t a a' → R t b b' → R t (FOps.add t a b) (FOps.add t a' b')
  sub : ∀ t a a' b b', R t a a' → R t b b' → R t (FOps.sub t a b) (FOps.sub t a' b')
  mul : ∀ t a a' b b', R t a a' → R t b b' → R t (FOps.mul t a b) (FOps.mul t a' b')
  div : ∀ t a a' b b', R t a a' → R t b b' → R t (FOps.div t a b) (FOps.div t a' b')
  neg : ∀ t x y, R t x y → R t (FOps.neg x) (FOps.neg y)
  toInt : ∀ t x y n, R t x y → FOps.toInt y = some n → FOps.toInt x = some n

/-- Related operands compare in the same way. -/
structure ComparedAlike [FOps F] [FOps G] (R : DType → F → G → Prop) : Prop where
  lt : ∀ t a a' b b', R t a a' → R t b b' → FOps.lt a b = FOps.lt a' b'
  le : ∀ t a a' b b', R t a a' → R t b b' → FOps.le a b = FOps.le a' b'
  eq : ∀ t a a' b b', R t a a' → R t b b' → FOps.eq a b = FOps.eq a' b'

/-- Related floats have the same bytes and the same text. -/
structure ShownAlike [FOps F] [FOps G] (R : DType → F → G → Prop) : Prop where
  byte : ∀ t x y k, R t x y → FOps.byte t x k = FOps.byte t y k
  toStr : ∀ t x y, R t x y → FOps.toStr x = FOps.toStr y

/-- Elements of type `t`: equal integers, or related floats if `t` is a float type. -/
def LinkedVal (R : DType → F → G → Prop) (t : DType) : Val F → Val G → Prop
  | .i n, .i m => n = m
  | .f x, .f y => t.isFloat = true ∧ R t x y
  | _, _ => False

/-- Memory cells of type `t`: both never written, or both hold related elements. -/
def LinkedCell (R : DType → F → G → Prop) (t : DType) : Option (Val F) → Option (Val G) → Prop
  | none, none => True
  | some v, some w => LinkedVal R t v w
  | _, _ => False

/-- Blocks of memory of the same type and size, both released or with related cells. -/
structure LinkedStorage (R : DType → F → G → Prop) (s : Storage F) (s' : Storage G) : Prop where
  dt : s.dt = s'.dt
  size : s.size = s'.size
  blob : Option.Rel (List.Forall₂ (LinkedCell R s.dt)) s.blob s'.blob

/-- States with the same tensors (types, shapes, strides, flags, gradient links, recorded operations) on related
memory. -/
structure LinkedHeap (R : DType → F → G → Prop) (h : Heap F) (h' : Heap G) : Prop where
  st : List.Forall₂ (LinkedStorage R) h.st h'.st
  ts : h.ts = h'.ts
  gver : h.gver = h'.gver

/-- Nested initialiser lists of the same form with related numbers. -/
inductive LinkedTree (R : DType → F → G → Prop) : InitTree F → InitTree G → Prop
  | leaf {dt : DType} {vs : List (Val F)} {vs' : List (Val G)} : List.Forall₂ (LinkedVal R dt) vs vs' →
      LinkedTree R (.leaf dt vs) (.leaf dt vs')
  | nil : LinkedTree R (.node []) (.node [])
  | cons {x : InitTree F} {x' : InitTree G} {l : List (InitTree F)} {l' : List (InitTree G)} : LinkedTree R x x' →
      LinkedTree R (.node l) (.node l') → LinkedTree R (.node (x :: l)) (.node (x' :: l'))

/-- The same call, with related numbers where it has numbers. Calls that look at floats (comparisons, absolute value,
maximum and minimum, `all`, `to_string`) are only included if related floats look the same. -/
inductive LinkedCall [FOps F] [FOps G] (R : DType → F → G → Prop) : Call F → Call G → Prop
  | scalar {dt : DType} {v : Val F} {v' : Val G} : LinkedVal R dt v v' → LinkedCall R (.scalar dt v) (.scalar dt v')
  | empty (s : List Nat) (dt : DType) : LinkedCall R (.empty s dt) (.empty s dt)
  | init {x : InitTree F} {x' : InitTree G} : LinkedTree R x x' → LinkedCall R (.init x) (.init x')
  | ones (s : List Nat) (dt : DType) : LinkedCall R (.ones s dt) (.ones s dt)
  | zeros (s : List Nat) (dt : DType) : LinkedCall R (.zeros s dt) (.zeros s dt)
  | onesLike (t : Nat) : LinkedCall R (.onesLike t) (.onesLike t)
  | zerosLike (t : Nat) : LinkedCall R (.zerosLike t) (.zerosLike t)
  | fullInt (s : List Nat) (n : Int) (dt : DType) : LinkedCall R (.fullInt s n dt) (.fullInt s n dt)
  | fullReal {s : List Nat} {x : F} {x' : G} {dt : DType} : R .f64 x x' → LinkedCall R (.fullReal s x dt) (.fullReal s x' dt)
  | eye (n m : Nat) (dt : DType) : LinkedCall R (.eye n m dt) (.eye n m dt)
  | fromBlob {d : List (Val F)} {d' : List (Val G)} {s : List Nat} {dt : DType} : List.Forall₂ (LinkedVal R dt) d d' →
      LinkedCall R (.fromBlob d s dt) (.fromBlob d' s dt)
  | randn {r : Nat → F} {r' : Nat → G} {s : List Nat} {dt : DType} : (∀ k, R .f32 (r k) (r' k)) →
      LinkedCall R (.randn r s dt) (.randn r' s dt)
  | randnLike {r : Nat → F} {r' : Nat → G} {t : Nat} : (∀ k, R .f32 (r k) (r' k)) →
      LinkedCall R (.randnLike r t) (.randnLike r' t)
  | slice (t : Nat) (s : Str) : LinkedCall R (.slice t s) (.slice t s)
  | transpose (t a b : Nat) : LinkedCall R (.transpose t a b) (.transpose t a b)
  | reshape (t : Nat) (s : List Int) : LinkedCall R (.reshape t s) (.reshape t s)
  | reshapeAs (t u : Nat) : LinkedCall R (.reshapeAs t u) (.reshapeAs t u)
  | detach (t : Nat) : LinkedCall R (.detach t) (.detach t)
  | clone (t : Nat) : LinkedCall R (.clone t) (.clone t)
  | contiguous (t : Nat) : LinkedCall R (.contiguous t) (.contiguous t)
  | toType (t : Nat) (dt : DType) : LinkedCall R (.toType t dt) (.toType t dt)
  | add (l r : Nat) : LinkedCall R (.add l r) (.add l r)
  | sub (l r : Nat) : LinkedCall R (.sub l r) (.sub l r)
  | mul (l r : Nat) : LinkedCall R (.mul l r) (.mul l r)
  | div (l r : Nat) : LinkedCall R (.div l r) (.div l r)
  | pos (t : Nat) : LinkedCall R (.pos t) (.pos t)
  | neg (t : Nat) : LinkedCall R (.neg t) (.neg t)
  | sum (t : Nat) : LinkedCall R (.sum t) (.sum t)
  | mean (t : Nat) : LinkedCall R (.mean t) (.mean t)
  | cat (ts : List Nat) (d : Nat) : LinkedCall R (.cat ts d) (.cat ts d)
  | addAssign (t r : Nat) : LinkedCall R (.addAssign t r) (.addAssign t r)
  | setRequiresGrad (t : Nat) (b : Bool) : LinkedCall R (.setRequiresGrad t b) (.setRequiresGrad t b)
  | setRetainGrad (t : Nat) (b : Bool) : LinkedCall R (.setRetainGrad t b) (.setRetainGrad t b)
  | zeroGrad (t : Nat) : LinkedCall R (.zeroGrad t) (.zeroGrad t)
  | release (t : Nat) : LinkedCall R (.release t) (.release t)
  | backward (t : Nat) : LinkedCall R (.backward t) (.backward t)
  | grad (t : Nat) : LinkedCall R (.grad t) (.grad t)
  | stride (t : Nat) : LinkedCall R (.stride t) (.stride t)
  | query (t : Nat) : LinkedCall R (.query t) (.query t)
  | cmp (op : COp) (l r : Nat) : ComparedAlike R → LinkedCall R (.cmp op l r) (.cmp op l r)
  | abs (t : Nat) : ComparedAlike R → LinkedCall R (.abs t) (.abs t)
  | max (t : Nat) : ComparedAlike R → LinkedCall R (.max t) (.max t)
  | min (t : Nat) : ComparedAlike R → LinkedCall R (.min t) (.min t)
  | all (t : Nat) : ShownAlike R → LinkedCall R (.all t) (.all t)
  | toString (t : Nat) : ShownAlike R → LinkedCall R (.toString t) (.toString t)

/-- What a call reports: the tensor it returns (if any) or the exception it throws. -/
inductive Reply where
  | returned (t : Option Nat)
  | threw (e : Exc)
  deriving DecidableEq, Repr

/-- A list of calls; the program catches exceptions. `none` if one of the calls has undefined behaviour. -/
def session [FOps F] : List (Call F) → Heap F → Option (List Reply × Heap F)
  | [], h => some ([], h)
  | c :: cs, h =>
    match c.run h with
    | .ok t h' => (session cs h').map fun r => (.returned t :: r.1, r.2)
    | .throw e h' => (session cs h').map fun r => (.threw e :: r.1, r.2)
    | .ub _ => none

/-- The arithmetic of a single float, about which nothing is known. -/
instance blankFloat : FOps Unit where
  zero := ()
  ofInt _ _ := ()
  toInt _ := none
  cvt _ _ := ()
  add _ _ _ := ()
  sub _ _ _ := ()
  mul _ _ _ := ()
  div _ _ _ := ()
  neg _ := ()
  lt _ _ := false
  le _ _ := false
  eq _ _ := false
  toStr _ := []
  byte _ _ _ := 0

/-- The calls with all floats erased. -/
def Outline [FOps F] (cs : List (Call F)) (cs' : List (Call Unit)) : Prop :=
  List.Forall₂ (LinkedCall fun _ _ _ => True) cs cs'

end INNC.Spec
