import Verif.Spec.Heap
/-
Specification: Python's sequence slices, and how slice strings are spelled. Nothing here refers to the operations of
the model.
-/
namespace INNC.Spec

/-- What a slice says about one axis: a single position, or `start:stop:step` with any part omitted. -/
inductive AxisSpec where
  | index (k : Int)
  | range (start stop step : Option Int)
  deriving DecidableEq

/-! ### Python slices -/

/-- The position a (possibly negative) index counts to on an axis of size `n`. -/
def fromEnd (n : Nat) (k : Int) : Int := if k < 0 then n + k else k

/-- First position of a Python slice with step `k` of a sequence of length `n`: a negative start counts from the end;
it is then limited to `0 .. n` for positive steps and to `-1 .. n - 1` for negative ones. -/
def pyStart (n : Nat) (k : Int) : Option Int → Int
  | none => if 0 < k then 0 else n - 1
  | some a => if 0 < k then max 0 (min (fromEnd n a) n) else max (-1) (min (fromEnd n a) (n - 1))

/-- End of a Python slice, limited in the same way. -/
def pyStop (n : Nat) (k : Int) : Option Int → Int
  | none => if 0 < k then n else -1
  | some b => if 0 < k then max 0 (min (fromEnd n b) n) else max (-1) (min (fromEnd n b) (n - 1))

/-- The numbers `a, a + k, a + 2 k, ...` before `b` is reached: Python's `range(a, b, k)`. The number of terms is the
smallest `m` with `a + m * k` at or past `b`; `mem_pyCount` in Lemmas/Slice states this. -/
def pyCount (a b k : Int) : Nat := if 0 < k then ((b - a + k - 1) / k).toNat else ((a - b + -k - 1) / -k).toNat

/-- Number of elements of the Python slice `start:stop:step` of a sequence of length `n`. -/
def pyLen (n : Nat) (start stop step : Option Int) : Nat :=
  pyCount (pyStart n (step.getD 1) start) (pyStop n (step.getD 1) stop) (step.getD 1)

/-- Position, in the sequence, of element number `j` of the slice. -/
def pyAt (n : Nat) (start step : Option Int) (j : Nat) : Nat :=
  (pyStart n (step.getD 1) start + j * step.getD 1).toNat

/-! ### Slices of a tensor -/

/-- Shape of a slice: indexed axes disappear, axes without a specification stay. -/
def selShape : List AxisSpec → List Nat → List Nat
  | .index _ :: ss, _ :: ns => selShape ss ns
  | .range a b c :: ss, n :: ns => pyLen n a b c :: selShape ss ns
  | _, ns => ns

/-- The element of the sliced tensor that the index `idx` of the slice selects. -/
def selIndex : List AxisSpec → List Nat → List Nat → List Nat
  | .index k :: ss, n :: ns, idx => (fromEnd n k).toNat :: selIndex ss ns idx
  | .range a _ c :: ss, n :: ns, j :: idx => pyAt n a c j :: selIndex ss ns idx
  | _, _, idx => idx

/-- The specifications make sense for the shape: no more of them than axes, positions exist, steps are not zero. -/
def Selects : List AxisSpec → List Nat → Prop
  | [], _ => True
  | _ :: _, [] => False
  | .index k :: ss, n :: ns => (-(n : Int) ≤ k ∧ k < n) ∧ Selects ss ns
  | .range _ _ c :: ss, _ :: ns => c ≠ some 0 ∧ Selects ss ns

/-- `z` is a `long long`. -/
def IsI64 (z : Int) : Prop := -9223372036854775808 ≤ z ∧ z < 9223372036854775808

/-- All numbers of the specification are 64-bit. -/
def AxisSpec.Is64 : AxisSpec → Prop
  | .index k => IsI64 k
  | .range a b c => (∀ x, a = some x → IsI64 x) ∧ (∀ x, b = some x → IsI64 x) ∧ (∀ x, c = some x → IsI64 x)

/-- No step, and no product of a step with the stride of its axis, exceeds the 64-bit range. -/
def StepsFit : List AxisSpec → List Int → Prop
  | .range _ _ (some k) :: ss, st :: sts => k ≠ -9223372036854775808 ∧ IsI64 (k * st) ∧ StepsFit ss sts
  | _ :: ss, _ :: sts => StepsFit ss sts
  | _, _ => True

/-! ### Spelling -/

/-- Value of a list of decimal digits. -/
def decimal : List Char → Nat := List.foldl (fun acc c => 10 * acc + (c.toNat - 48)) 0

/-- `s` is the number `k` in decimal: an optional sign and at least one digit. -/
def Numeral (k : Int) (s : List Char) : Prop :=
  ∃ ds : List Char, ds ≠ [] ∧ (∀ c ∈ ds, '0' ≤ c ∧ c ≤ '9') ∧
    ((s = ds ∧ k = decimal ds) ∨ (s = '+' :: ds ∧ k = decimal ds) ∨ (s = '-' :: ds ∧ k = -(decimal ds : Int)))

/-- A string of white space. -/
def Blank (s : List Char) : Prop := ∀ c ∈ s, c ∈ [' ', '\t', '\n', '\r', '\x0c', '\x0b']

/-- The number `k` with white space around it. -/
def Padded (k : Int) (s : List Char) : Prop :=
  ∃ a w b, Blank a ∧ Numeral k w ∧ Blank b ∧ s = a ++ w ++ b

/-- An optional number: nothing but white space if it is omitted. -/
def Optional : Option Int → List Char → Prop
  | none, s => Blank s
  | some k, s => Padded k s

/-- `s` spells the specification of one axis: a number; `start:stop`; `start:stop:step`; or nothing for the whole
axis. -/
inductive SpellsAxis : AxisSpec → List Char → Prop
  | index {k s} : Padded k s → SpellsAxis (.index k) s
  | range2 {a b p q} : Optional a p → Optional b q → SpellsAxis (.range a b none) (p ++ ':' :: q)
  | range3 {a b c p q r} : Optional a p → Optional b q → Optional c r →
      SpellsAxis (.range a b c) (p ++ ':' :: q ++ ':' :: r)
  | whole : SpellsAxis (.range none none none) []

/-- `s` spells the specifications of the leading axes, separated by commas; the empty string specifies none. -/
inductive Spells : List AxisSpec → List Char → Prop
  | none : Spells [] []
  | one {x s} : SpellsAxis x s → Spells [x] s
  | cons {x xs s t} : SpellsAxis x s → xs ≠ [] → Spells xs t → Spells (x :: xs) (s ++ ',' :: t)

/-- `s` spells the specifications of the leading axes, each followed by a comma. -/
inductive Leading : List AxisSpec → List Char → Prop
  | nil : Leading [] []
  | cons {x xs s t} : SpellsAxis x s → Leading xs t → Leading (x :: xs) (s ++ ',' :: t)

/-- What may follow the text of an axis: nothing, or a comma and anything. -/
def Trailing (u : List Char) : Prop := u = [] ∨ ∃ v, u = ',' :: v

/-- `s` is not the beginning of a number: after white space and at most one sign there is no digit. -/
def NotNumber (s : List Char) : Prop :=
  ∀ a sign c t, Blank a → sign ∈ [[], ['+'], ['-']] → s = a ++ sign ++ c :: t → ¬ ('0' ≤ c ∧ c ≤ '9')

/-! ### Layouts on which no address computation overflows -/

/-- Every axis has at most 2^62 positions and spans fewer than 2^62 elements of storage. -/
def Tame : List Nat → List Int → Prop
  | n :: ns, st :: sts =>
    n ≤ 4611686018427387904 ∧ IsI64 st ∧ st.natAbs * (n - 1) < 4611686018427387904 ∧ Tame ns sts
  | _, _ => True

/-- The tensor `t` exists, no address computation on its layout overflows, and its gradient, if it has one, exists. -/
def Viewable {F : Type} (h : Heap F) (t : Nat) : Prop :=
  ∃ i, h.ts[t]? = some i ∧ Tame i.view.sizes i.view.strides ∧ ∀ g, i.grad = some g → g < h.ts.length

/-- The call returns a new tensor on the storage of `t`, of type `dt` and shape `sizes`, whose element `idx` is the
element `σ idx` of `t`: the same place of the same storage. `f` are the elements of `t`. No element of any tensor
changes. Views of the new tensor, and of every tensor that had them, can be taken. -/
def ReturnsView {F : Type} (o : Out (Heap F) Nat) (h : Heap F) (t : Nat) (dt : DType) (sizes : List Nat)
    (f : List Nat → Val F) (σ : List Nat → List Nat) : Prop :=
  ∃ r h', o = .ok r h' ∧ Denotes h' r dt sizes (fun idx => f (σ idx)) ∧
    (∀ idx, InBox sizes idx → SamePlace h' r idx t (σ idx)) ∧ SameStorage h' t r ∧ Preserves h h' ∧ h.ts.length ≤ r ∧
    Viewable h' r ∧ ∀ u, Viewable h u → Viewable h' u

/-- The index with positions `i` and `j` exchanged. -/
def swapped {α : Type} (l : List α) (i j : Nat) : List α :=
  match l[i]?, l[j]? with
  | some a, some b => (l.set i b).set j a
  | _, _ => l

end INNC.Spec
