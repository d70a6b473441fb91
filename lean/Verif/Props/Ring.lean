import Verif.Lemmas.Ring
import Verif.Props.Slice
import Verif.Props.Construct
import Verif.Props.Ieee
/-
C78: algebra with tensors of integers.
-/
namespace INNC
open Spec
variable {F : Type} [FOps F]

/-- **C78**: an expression with `+`, `-` and `*` of integer tensors of one type, of shapes that broadcast, either has
undefined behaviour or returns a tensor of that type and of the broadcast shape whose elements are the exact values of the
expression, reduced to the width of the type once. -/
theorem C78_value {t : DType} (ht : isInteger t = true) {sh : Nat → List Nat} {vars : Nat → Nat} {f : Nat → List Nat → Int}
    {e : Formula} (hn : e.Fine sh) {h : Heap F} (hv : ∀ k, Denotes h (vars k) t (sh k) fun idx => .i (f k idx)) :
    (∃ u, e.run vars h = .ub u) ∨
    ∃ r h', e.run vars h = .ok r h' ∧ Extends h h' ∧
      Denotes h' r t (e.shape sh) fun idx => .i (reduce (width t) (e.value (readAt sh f idx))) := by
  by_cases hs : e.Safe t sh f
  · exact .inr (run_safe ht e hn hv hs)
  · rcases run_unsafe ht e hn hv hs with e | e <;> exact .inl ⟨_, e⟩

/-- **C78**: two expressions in the same variables that are equal as polynomials over the integers give equal tensors, of
the same shape, whenever both return. -/
theorem C78_equal {t : DType} (ht : isInteger t = true) {sh : Nat → List Nat} {vars : Nat → Nat} {f : Nat → List Nat → Int}
    {e e' : Formula} (hn : e.Fine sh) (hn' : e'.Fine sh) (hu : ∀ k, e.Uses k ↔ e'.Uses k)
    (heq : ∀ env : Nat → Int, e.value env = e'.value env) {h : Heap F} (hv : ∀ k, Denotes h (vars k) t (sh k) fun idx => .i (f k idx))
    {r r' : Nat} {k k' : Heap F} (e1 : e.run vars h = .ok r k) (e2 : e'.run vars h = .ok r' k') :
    ∃ s g, Denotes k r t s g ∧ Denotes k' r' t s g := by
  refine ⟨e.shape sh, fun idx => .i (reduce (width t) (e.value (readAt sh f idx))), ?_, ?_⟩
  · rcases C78_value ht hn hv with ⟨u, hu⟩ | ⟨x, hx, ex, _, d⟩
    · rw [e1] at hu; cases hu
    · rw [e1] at ex; cases ex; exact d
  · simp only [heq]
    rw [shape_same hn hn' hu]
    rcases C78_value ht hn' hv with ⟨u, hu⟩ | ⟨x, hx, ex, _, d⟩
    · rw [e2] at hu; cases hu
    · rw [e2] at ex; cases ex; exact d

/-- **C78**: with 8 and 16 bits such an expression always returns; so there expressions that are equal as polynomials can be
exchanged freely. -/
theorem C78_narrow {t : DType} (ht : t = .i8 ∨ t = .i16) {sh : Nat → List Nat} {vars : Nat → Nat} {f : Nat → List Nat → Int}
    {e : Formula} (hn : e.Fine sh) {h : Heap F} (hv : ∀ k, Denotes h (vars k) t (sh k) fun idx => .i (f k idx)) :
    ∃ r h', e.run vars h = .ok r h' ∧ Extends h h' ∧
      Denotes h' r t (e.shape sh) fun idx => .i (reduce (width t) (e.value (readAt sh f idx))) :=
  run_safe (by rcases ht with rfl | rfl <;> rfl) e hn hv (safe_narrow ht e hn)

/-- **C78**: with 32 and 64 bits it returns exactly if, at every index, the exact value of every part of the expression fits
in the type; then the elements are the exact values. Otherwise the behaviour is undefined. -/
theorem C78_wide {t : DType} (ht : t = .i32 ∨ t = .i64) {sh : Nat → List Nat} {vars : Nat → Nat} {f : Nat → List Nat → Int}
    {e : Formula} (hn : e.Fine sh) {h : Heap F} (hv : ∀ k, Denotes h (vars k) t (sh k) fun idx => .i (f k idx)) :
    (e.FitsIn (width t) sh f →
      ∃ r h', e.run vars h = .ok r h' ∧ Extends h h' ∧ Denotes h' r t (e.shape sh) fun idx => .i (e.value (readAt sh f idx))) ∧
    (¬ e.FitsIn (width t) sh f → ∃ u, e.run vars h = .ub u) := by
  have hi : isInteger t = true := by rcases ht with rfl | rfl <;> rfl
  have h0 : 0 < width t := by rcases ht with rfl | rfl <;> decide
  have hr : ∀ k idx, InBox (sh k) idx → InRange (width t) (f k idx) := fun k idx hb => by
    obtain ⟨i, _, hdt, hsz, hr⟩ := hv k
    rw [← hdt]
    exact (hasType_i.1 (hr.typed idx (by rw [hsz]; exact hb))).2
  obtain ⟨w1, w2⟩ := safe_wide ht hr e hn
  constructor
  · intro hfit
    obtain ⟨r, h', e1, x, i, h1, h2, h3, d⟩ := run_safe hi e hn hv (w1.2 hfit)
    refine ⟨r, h', e1, x, i, h1, h2, h3, d.congr fun idx hb => ?_⟩
    rw [h3] at hb
    rw [reduce_self h0 (w2 (w1.2 hfit) idx hb)]
  · intro hno
    rcases run_unsafe hi e hn hv (fun hs => hno (w1.1 hs)) with e | e <;> exact ⟨_, e⟩

/-- (a + b) * (a - b) and a * a - b * b. -/
def binomials : Formula × Formula :=
  (.bin .mul (.bin .add (.var 0) (.var 1)) (.bin .sub (.var 0) (.var 1)),
   .bin .sub (.bin .mul (.var 0) (.var 0)) (.bin .mul (.var 1) (.var 1)))

theorem binomials_equal (env : Nat → Int) : binomials.1.value env = binomials.2.value env := by
  change (env 0 + env 1) * (env 0 - env 1) = env 0 * env 0 - env 1 * env 1
  ring

theorem binomials_uses (k : Nat) : binomials.1.Uses k ↔ binomials.2.Uses k := by
  simp only [binomials, Formula.Uses]
  tauto

/-- A matrix `a` and a row `b` of `i16` numbers. -/
def rowsHeap : Heap Int :=
  ⟨[⟨.i16, 12, some [some (.i 1), some (.i 2), some (.i 3), some (.i 4), some (.i 5), some (.i 300)]⟩,
    ⟨.i16, 6, some [some (.i 7), some (.i 8), some (.i 9)]⟩],
   [⟨.i16, ⟨[2, 3], [3, 1], 0⟩, 0, none, false, false, none⟩, ⟨.i16, ⟨[3], [1], 0⟩, 1, none, false, false, none⟩], 0⟩

def rowsShape (k : Nat) : List Nat := if k = 0 then [2, 3] else [3]
def rowsVar (k : Nat) : Nat := if k = 0 then 0 else 1
def rowsElem (k : Nat) (idx : List Nat) : Int :=
  if k = 0 then [1, 2, 3, 4, 5, 300].getD (3 * idx.getD 0 0 + idx.getD 1 0) 0 else idx.getD 0 0 + 7

theorem rows_denote (k : Nat) : Denotes rowsHeap (rowsVar k) .i16 (rowsShape k) fun idx => .i (rowsElem k idx) := by
  unfold rowsVar rowsShape rowsElem
  by_cases h : k = 0
  · simp only [h, if_true]
    exact ⟨_, rfl, rfl, rfl, reads_of_check (by decide) (by decide) rfl rfl rfl (by decide) (by decide) (by decide)⟩
  · simp only [h, if_false]
    exact ⟨_, rfl, rfl, rfl, reads_of_check (by decide) (by decide) rfl rfl rfl (by decide) (by decide) (by decide)⟩

theorem binomials_fine : binomials.1.Fine rowsShape ∧ binomials.2.Fine rowsShape := by
  simp only [binomials, Formula.Fine, Formula.shape, rowsShape]
  simp (config := { decide := true }) [bshape, bshapeRev, bdim, stretched, stretchRev, vol]

/-- The two expressions of the matrix and the row return equal tensors, of shape [2, 3]; the last element, 90000 - 81, wraps
around. -/
example : ∃ r k r' k' s g, binomials.1.run rowsVar rowsHeap = .ok r k ∧ binomials.2.run rowsVar rowsHeap = .ok r' k' ∧
    Denotes k r .i16 s g ∧ Denotes k' r' .i16 s g := by
  obtain ⟨r, k, e1, _⟩ := C78_narrow (.inr rfl) binomials_fine.1 rows_denote
  obtain ⟨r', k', e2, _⟩ := C78_narrow (.inr rfl) binomials_fine.2 rows_denote
  obtain ⟨s, g, d, d'⟩ := C78_equal rfl binomials_fine.1 binomials_fine.2 binomials_uses binomials_equal rows_denote e1 e2
  exact ⟨r, k, r', k', s, g, e1, e2, d, d'⟩
example : result ((do Tensor.toString (← binomials.1.run rowsVar) : M Int Str) rowsHeap) =
    some "[[-48, -60, -72], [-33, -39, 24383]]".toList := by decide +kernel

/-- Squaring the `i32` vector 10, 20, 30 fits. -/
example : ∃ r h', (Formula.bin .mul (.var 0) (.var 0)).run (fun _ => 1) exHeap = .ok r h' ∧ Extends exHeap h' ∧
    Denotes h' r .i32 [3] fun idx => .i ((Formula.bin .mul (.var 0) (.var 0)).value
      (readAt (fun _ => [3]) (fun _ idx => 10 * idx.getD 0 0 + 10) idx)) :=
  (C78_wide (e := .bin .mul (.var 0) (.var 0)) (sh := fun _ => [3]) (f := fun _ idx => 10 * idx.getD 0 0 + 10) (.inl rfl)
    ⟨trivial, trivial, by decide, by decide, by simp [Formula.shape, stretched, stretchRev], by decide⟩ fun _ => exHeap_b).1
    ⟨trivial, trivial, forall_inBox (s := [3]) (P := fun idx => InRange (width .i32) ((Formula.bin .mul (.var 0) (.var 0)).value
      (readAt (fun _ => [3]) (fun _ idx => 10 * idx.getD 0 0 + 10) idx))) (by decide)⟩

/-- **C78**, why both must return: for `i32` elements a = 2^31-1 and b = 1, (a + b) - b is undefined although a + (b - b)
is a. -/
theorem C78_one_order_overflows :
    undefinedBy ((do
      let a ← Tensor.fromBlob [.i 2147483647] [1] .i32
      let b ← Tensor.fromBlob [.i 1] [1] .i32
      arithT .sub (← arithT .add a b) b : M Int Nat) Heap.empty) = some .overflow ∧
    result ((do
      let a ← Tensor.fromBlob [.i 2147483647] [1] .i32
      let b ← Tensor.fromBlob [.i 1] [1] .i32
      Tensor.toString (← arithT .add a (← arithT .sub b b)) : M Int Str) Heap.empty) = some "[2147483647]".toList := by
  decide +kernel

/-- **C78**, why one type: with a = 100 in 8 bits and b = 0 in 32 bits, (a + a) + b is -56 and a + (a + b) is 200. -/
theorem C78_mixed_types :
    result ((do
      let a ← Tensor.fromBlob [.i 100] [1] .i8
      let b ← Tensor.fromBlob [.i 0] [1] .i32
      pure [← Tensor.toString (← arithT .add (← arithT .add a a) b), ← Tensor.toString (← arithT .add a (← arithT .add a b))] :
        M Int (List Str)) Heap.empty) = some ["[-56]".toList, "[200]".toList] := by
  decide +kernel

/-- **C78**, why integers: with `f64` elements a = 1 and b = 2^53, (a + b) - b is 0 and a + (b - b) is 1. -/
theorem C78_floats :
    result ((do
      let a ← Tensor.fromBlob [.f (FOps.ofInt .f64 1)] [1] .f64
      let b ← Tensor.fromBlob [.f (FOps.ofInt .f64 9007199254740992)] [1] .f64
      pure [← Tensor.toString (← arithT .sub (← arithT .add a b) b), ← Tensor.toString (← arithT .add a (← arithT .sub b b))] :
        M Ieee (List Str)) Heap.empty) = some ["[0.000000]".toList, "[1.000000]".toList] := by
  decide +kernel

end INNC
