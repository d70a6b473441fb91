import Verif.Spec.Accum
import Verif.Spec.Outcome
/-
Specification: in-place addition of operands that may share memory.
-/
namespace INNC.Spec
variable {F : Type} [FOps F]

/-- `p` and `q` number the places at which the elements of `a` (of shape `sa`) and of `b` (of shape `sb`) lie: two elements have the
same number exactly if they are at the same place. -/
structure Numbered (h : Heap F) (a b : Nat) (sa sb : List Nat) (p q : List Nat → Nat) : Prop where
  left : ∀ i i', InBox sa i → InBox sa i' → (p i = p i' ↔ SamePlace h a i a i')
  both : ∀ i j, InBox sa i → InBox sb j → (p i = q j ↔ SamePlace h a i b j)

/-- How a sequence of additions ends: all are done, or one is reached that pairs no elements, or one whose value is undefined. The
argument is the memory at that point. -/
inductive Added (F : Type) where
  | done (m : Nat → Val F)
  | rejected (m : Nat → Val F)
  | undefined

open Classical in
/-- Additions, one after the other, at the indices of a list. `m` is the memory, by number of place; each addition reads its two
elements from the memory that the additions before it have left, and writes the sum to the place of the left one. -/
noncomputable def addEach (da db : DType) (sa sb : List Nat) (p q : List Nat → Nat) : List (List Nat) → (Nat → Val F) → Added F
  | [], m => .done m
  | k :: ks, m =>
    if Meets sa sb k then
      match elemAccum da db (m (p (project sa k))) (m (q (project sb k))) with
      | some v => addEach da db sa sb p q ks fun n => if n = p (project sa k) then v else m n
      | none => .undefined
    else .rejected m

/-- The heap `h'` is `h` after a change of the memory under `a`: `a` and `b` read the memory `m`, elements of any tensor at a place of
`a` have the value `m` has there, all other elements are as before. -/
structure Changed (h h' : Heap F) (a b : Nat) (da db : DType) (sa sb : List Nat) (p q : List Nat → Nat) (m : Nat → Val F) : Prop where
  objects : h'.ts = h.ts
  left : Denotes h' a da sa fun i => m (p i)
  right : Denotes h' b db sb fun j => m (q j)
  every : ∀ t dt st f, Denotes h t dt st f → ∃ f', Denotes h' t dt st f' ∧ ∀ idx, InBox st idx →
    (∀ k, SamePlace h t idx a k → f' idx = m (p k)) ∧ ((∀ k, ¬ SamePlace h t idx a k) → f' idx = f idx)

end INNC.Spec
