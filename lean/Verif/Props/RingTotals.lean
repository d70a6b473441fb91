import Verif.Props.Ring
import Verif.Props.Totals
/-
C78: sums of expressions of integer tensors, for example dot products `(a * b).sum()`.
-/
namespace INNC
open Spec
variable {F : Type} [FOps F]

/-- **C78**: the sum of an expression either has undefined behaviour or is an `i64` scalar that holds the exact sum of the
elements of the expression (which are its exact values, reduced to the width of the type). -/
theorem C78_total {t : DType} (ht : isInteger t = true) {sh : Nat → List Nat} {vars : Nat → Nat} {f : Nat → List Nat → Int}
    {e : Formula} (hn : e.Fine sh) {h : Heap F} (hv : ∀ k, Denotes h (vars k) t (sh k) fun idx => .i (f k idx))
    (hsize : vol (e.shape sh) < 18446744073709551616) :
    (∃ u, (do Tensor.sumT (← e.run vars) : M F Nat) h = .ub u) ∨
    ∃ r h', (do Tensor.sumT (← e.run vars) : M F Nat) h = .ok r h' ∧
      Denotes h' r .i64 [] fun _ => .i ((rowMajor (e.shape sh)).map fun idx => reduce (width t) (e.value (readAt sh f idx))).sum := by
  rcases C78_value ht hn hv with ⟨u, hu⟩ | ⟨p, h1, e1, _, d⟩
  · exact .inl ⟨u, by show M.bind _ _ h = _; unfold M.bind; rw [hu]⟩
  · rw [M.bind_ok e1]
    obtain ⟨i, hi, hdt, hsz, hr⟩ := id d
    have out := sumT_out hi hr (by rw [hsz]; exact hsize)
    rw [hdt, hsz] at out
    cases hs : sumOf t (e.shape sh) fun idx => (.i (reduce (width t) (e.value (readAt sh f idx))) : Val F) with
    | none => rw [hs] at out; exact .inl ⟨_, out⟩
    | some v =>
      have hv := sumOf_intOf ht (fun idx hi => by
        have := hr.typed idx (by rw [hsz]; exact hi)
        rw [hdt] at this
        exact this) hs
      rw [hs] at out
      obtain ⟨h'', e3, b⟩ := out
      have d3 := b.denotes
      rw [show accType t = .i64 by unfold accType; rw [if_pos ht], hv] at d3
      exact .inr ⟨_, h'', e3, d3⟩

/-- **C78**: the sums of two expressions that are equal as polynomials are equal whenever both return. -/
theorem C78_totals_equal {t : DType} (ht : isInteger t = true) {sh : Nat → List Nat} {vars : Nat → Nat} {f : Nat → List Nat → Int}
    {e e' : Formula} (hn : e.Fine sh) (hn' : e'.Fine sh) (hu : ∀ k, e.Uses k ↔ e'.Uses k)
    (heq : ∀ env : Nat → Int, e.value env = e'.value env) {h : Heap F} (hv : ∀ k, Denotes h (vars k) t (sh k) fun idx => .i (f k idx))
    (hsize : vol (e.shape sh) < 18446744073709551616) {r r' : Nat} {k k' : Heap F}
    (e1 : (do Tensor.sumT (← e.run vars) : M F Nat) h = .ok r k) (e2 : (do Tensor.sumT (← e'.run vars) : M F Nat) h = .ok r' k') :
    ∃ n : Int, (Denotes k r .i64 [] fun _ => .i n) ∧ Denotes k' r' .i64 [] fun _ => .i n := by
  have hsh := shape_same hn hn' hu
  refine ⟨((rowMajor (e.shape sh)).map fun idx => reduce (width t) (e.value (readAt sh f idx))).sum, ?_, ?_⟩
  · rcases C78_total ht hn hv hsize with ⟨u, hu⟩ | ⟨x, hx, ex, d⟩
    · rw [e1] at hu; cases hu
    · rw [e1] at ex; cases ex; exact d
  · simp only [heq]
    rw [hsh]
    rcases C78_total ht hn' hv (by rw [← hsh]; exact hsize) with ⟨u, hu⟩ | ⟨x, hx, ex, d⟩
    · rw [e2] at hu; cases hu
    · rw [e2] at ex; cases ex; exact d

/-- **C78**: with 32 and 64 bits, if every part of the expression fits in the type and the absolute values of its elements add
up to less than 2^63, the sum returns and is the exact number. -/
theorem C78_total_exact {t : DType} (ht : t = .i32 ∨ t = .i64) {sh : Nat → List Nat} {vars : Nat → Nat} {f : Nat → List Nat → Int}
    {e : Formula} (hn : e.Fine sh) {h : Heap F} (hv : ∀ k, Denotes h (vars k) t (sh k) fun idx => .i (f k idx))
    (hfit : e.FitsIn (width t) sh f) (hsize : vol (e.shape sh) < 18446744073709551616)
    (hsmall : ((rowMajor (e.shape sh)).map fun idx => (e.value (readAt sh f idx)).natAbs).sum < 9223372036854775808) :
    ∃ r h', (do Tensor.sumT (← e.run vars) : M F Nat) h = .ok r h' ∧
      Denotes h' r .i64 [] fun _ => .i ((rowMajor (e.shape sh)).map fun idx => e.value (readAt sh f idx)).sum := by
  have hi : isInteger t = true := by rcases ht with rfl | rfl <;> rfl
  obtain ⟨p, h1, e1, _, d⟩ := (C78_wide ht hn hv).1 hfit
  obtain ⟨r, h', e2, d2, _⟩ := C22_sum_integer d hsize hi fun k _ => by
    have := absSum_bound (fun idx => e.value (readAt sh f idx)) (rowMajor (e.shape sh)) k
    have h2 : (2 : Int) ^ (64 - 1) = 9223372036854775808 := by decide
    unfold InRange
    rw [h2]
    omega
  exact ⟨r, h', by rw [M.bind_ok e1]; exact e2, d2⟩

/-! ### Examples -/

/-- The sum of the squares of 10, 20, 30. -/
example : ∃ r h', (do Tensor.sumT (← (Formula.bin .mul (.var 0) (.var 0)).run fun _ => 1) : M Int Nat) exHeap = .ok r h' ∧
    Denotes h' r .i64 [] fun _ => .i 1400 :=
  C78_total_exact (e := .bin .mul (.var 0) (.var 0)) (sh := fun _ => [3]) (f := fun _ idx => 10 * idx.getD 0 0 + 10) (.inl rfl)
    ⟨trivial, trivial, by decide, by decide, by simp [Formula.shape, stretched, stretchRev], by decide⟩ (fun _ => exHeap_b)
    ⟨trivial, trivial, forall_inBox (s := [3]) (P := fun idx => InRange (width .i32) ((Formula.bin .mul (.var 0) (.var 0)).value
      (readAt (fun _ => [3]) (fun _ idx => 10 * idx.getD 0 0 + 10) idx))) (by decide)⟩ (by decide) (by decide)

/-- The sums of (a + b) * (a - b) and a * a - b * b, of `i16` tensors one of whose products wraps around. -/
example : ∃ r k r' k', ∃ n : Int, (do Tensor.sumT (← binomials.1.run rowsVar) : M Int Nat) rowsHeap = .ok r k ∧
    (do Tensor.sumT (← binomials.2.run rowsVar) : M Int Nat) rowsHeap = .ok r' k' ∧
    (Denotes k r .i64 [] fun _ => .i n) ∧ Denotes k' r' .i64 [] fun _ => .i n := by
  have hs : vol (binomials.1.shape rowsShape) < 18446744073709551616 := by decide
  have run : ∀ {o : Out (Heap Int) Nat}, (match o with | .ok _ _ => true | _ => false) = true → ∃ r k, o = .ok r k := by
    intro o ho
    cases o with
    | ok r k => exact ⟨r, k, rfl⟩
    | throw => cases ho
    | ub => cases ho
  obtain ⟨r, k, e1⟩ := run (o := (do Tensor.sumT (← binomials.1.run rowsVar) : M Int Nat) rowsHeap) (by decide +kernel)
  obtain ⟨r', k', e2⟩ := run (o := (do Tensor.sumT (← binomials.2.run rowsVar) : M Int Nat) rowsHeap) (by decide +kernel)
  obtain ⟨n, d, d'⟩ := C78_totals_equal rfl binomials_fine.1 binomials_fine.2 binomials_uses binomials_equal rows_denote hs e1 e2
  exact ⟨r, k, r', k', n, e1, e2, d, d'⟩

end INNC
