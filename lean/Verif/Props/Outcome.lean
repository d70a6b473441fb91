import Verif.Lemmas.Outcome
import Verif.Props.Elementwise
/-
C60: what a binary operation does for any two shapes. C17, C18 for any two shapes.
-/
namespace INNC
open Spec
variable {F : Type} [FOps F]

/-- **C60**, arithmetic. Whatever the shapes of two valid operands, exactly one of three things happens. Take the larger of the two
sizes along each axis, axes being aligned at the end, and list the indices of this shape in order.
* If both operands have an element for each index and the result of the operation on them exists, the operation returns a new
  tensor of this shape that holds the results.
* If at the first index of which this is not true an operand has no element, the operation throws a `runtime_error`.
* If at this index the result does not exist (overflow, division by zero), the behaviour is undefined.
No tensor or storage that existed before has changed. -/
theorem C60_arith (op : AOp) {h : Heap F} {l r : Nat} {dl dr : DType} {sl sr : List Nat} {fl fr : List Nat → Val F}
    (hl : Denotes h l dl sl fl) (hr : Denotes h r dr sr fr)
    (hsize : vol (maxShape sl sr) * (later dl dr).size < 9223372036854775808) :
    let elem := fun idx => elemBinary op dl dr (fl (project sl idx)) (fr (project sr idx))
    let first := FirstNot (maxShape sl sr) fun idx => Meets sl sr idx ∧ elem idx ≠ none
    (∃ g, (∀ idx, InBox (maxShape sl sr) idx → Meets sl sr idx ∧ elem idx = some (g idx)) ∧
      ∃ t h', arithT op l r h = .ok t h' ∧ Denotes h' t (later dl dr) (maxShape sl sr) g ∧ Extends h h' ∧ Spec.Fresh h h' t) ∨
    (∃ idx, first idx ∧ ¬ Meets sl sr idx ∧ ∃ h', arithT op l r h = .throw .runtime h' ∧ Extends h h') ∨
    (∃ idx, first idx ∧ Meets sl sr idx ∧ (arithT op l r h = .ub .overflow ∨ arithT op l r h = .ub .divZero)) := by
  intro elem first
  have hiff : ∀ idx, elem idx ≠ none ↔ (elem idx).isSome = true := fun idx => by rw [Option.isSome_iff_ne_none]
  rcases firstNot_or (maxShape sl sr) (fun idx => Meets sl sr idx ∧ elem idx ≠ none) with hall | ⟨x, hx⟩
  · refine .inl ⟨fun idx => (elem idx).getD (.i 0), ?_, ?_⟩
    all_goals have hg : ∀ idx, InBox (maxShape sl sr) idx → Meets sl sr idx ∧ elem idx = some ((elem idx).getD (.i 0)) := fun idx hb => by
      { obtain ⟨h1, h2⟩ := hall idx hb
        obtain ⟨z, hz⟩ := Option.ne_none_iff_exists'.1 h2
        exact ⟨h1, by rw [hz]; rfl⟩ }
    · exact hg
    · obtain ⟨h', e, d, ex, fr, _⟩ := arith_all hl hr hsize hg
      exact ⟨_, h', e, d, ex, fr⟩
  · have hx' : FirstNot (maxShape sl sr) (fun idx => Meets sl sr idx ∧ (elem idx).isSome = true) x := by
      simpa only [hiff] using hx
    rcases arith_first hl hr hsize hx' with ⟨h1, h2⟩ | ⟨h1, _, h2⟩
    · exact .inr (.inl ⟨x, hx, h1, h2⟩)
    · exact .inr (.inr ⟨x, hx, h1, h2⟩)

/-- **C60**, comparisons: the same, except that the result always exists. -/
theorem C60_compare (op : COp) {h : Heap F} {l r : Nat} {dl dr : DType} {sl sr : List Nat} {fl fr : List Nat → Val F}
    (hl : Denotes h l dl sl fl) (hr : Denotes h r dr sr fr) (hsize : vol (maxShape sl sr) < 9223372036854775808) :
    ((∀ idx, InBox (maxShape sl sr) idx → Meets sl sr idx) ∧
      ∃ t h', Tensor.cmp op l r h = .ok t h' ∧ Denotes h' t .i8 (maxShape sl sr) (fun idx =>
        .i (if elemCompare op dl dr (fl (project sl idx)) (fr (project sr idx)) then 1 else 0)) ∧ Extends h h' ∧ Spec.Fresh h h' t) ∨
    ((∃ idx, InBox (maxShape sl sr) idx ∧ ¬ Meets sl sr idx) ∧ ∃ h', Tensor.cmp op l r h = .throw .runtime h' ∧ Extends h h') := by
  rcases firstNot_or (maxShape sl sr) (Meets sl sr) with hall | ⟨x, hx⟩
  · obtain ⟨h', e, b⟩ := cmp_all (op := op) hl hr hsize hall
    exact .inl ⟨hall, _, h', e, b.denotes, b.ext, b.fresh⟩
  · exact .inr ⟨⟨x, hx.1, hx.2.1⟩, cmp_first hl hr hsize hx⟩

/-- **C60**, which shapes are rejected: those that are not broadcast-compatible, and those in which an axis of size 1 meets an
axis of size 0, unless the larger sizes include a 0. -/
theorem C60_rejected (sl sr : List Nat) : (∃ idx, InBox (maxShape sl sr) idx ∧ ¬ Meets sl sr idx) ↔
    0 ∉ maxShape sl sr ∧ (bshape sl sr = none ∨ stretched sl sr) := not_meets_iff sl sr

/-- **C60**, which shape results: the broadcast shape, for shapes that broadcast without shrinking an axis of size 1 to one of
size 0. -/
theorem C60_shape {sl sr s : List Nat} (hs : bshape sl sr = some s) (hst : ¬ stretched sl sr) : maxShape sl sr = s := maxShape_eq hs hst

/-- The three cases occur, on the sums of `[1, 2]`, `[3]`, `[1, 2, 3]` and the largest 32-bit integer twice: the sum of the first two
is `[4, 5]`; the first and the third do not broadcast; and the sum of the last and `[1, 2, 3]` overflows. -/
example : let h : Heap Int := ⟨[⟨.i32, 8, some [some (.i 1), some (.i 2)]⟩, ⟨.i32, 4, some [some (.i 3)]⟩,
      ⟨.i32, 12, some [some (.i 1), some (.i 2), some (.i 3)]⟩, ⟨.i32, 8, some [some (.i 2147483647), some (.i 2147483647)]⟩],
      [⟨.i32, ⟨[2], [1], 0⟩, 0, none, false, false, none⟩, ⟨.i32, ⟨[1], [1], 0⟩, 1, none, false, false, none⟩,
        ⟨.i32, ⟨[3], [1], 0⟩, 2, none, false, false, none⟩, ⟨.i32, ⟨[2], [1], 0⟩, 3, none, false, false, none⟩], 0⟩
    result ((do Tensor.toString (← arithT .add 0 1) : M Int _) h) = some "[4, 5]".toList ∧
    thrown (arithT .add 0 2 h) = some .runtime ∧ undefinedBy (arithT .add 3 2 h) = some .overflow := by decide +kernel

/-- The hypotheses of `C60_arith` hold for the matrix and its transpose, which do not broadcast, so that it throws. -/
example : ∃ h', arithT .mul 0 2 exHeap = .throw .runtime h' ∧ Extends exHeap h' := by
  rcases C60_arith .mul exHeap_a exHeap_aT (by decide) with ⟨g, hg, _⟩ | ⟨_, _, _, h⟩ | ⟨x, hx, hm, _⟩
  · exact absurd (hg [0, 2] (by decide)).1 (by unfold Meets; decide)
  · exact h
  · exfalso
    have := hx.1
    have h2 := hx.2.1
    refine h2 ⟨hm, ?_⟩
    exact forall_inBox (s := [3, 3]) (P := fun x => InBox [2, 3] (project [2, 3] x) → InBox [3, 2] (project [3, 2] x) →
      elemBinary .mul .i16 .i16 (exA (project [2, 3] x)) (exA [(project [3, 2] x).getD 1 0, (project [3, 2] x).getD 0 0]) ≠ none) (by decide) x
      this hm.1 hm.2

/-- The hypotheses of `C60_compare` hold for the matrix and the row: the comparison returns a tensor of flags. -/
example : ∃ t h', Tensor.cmp .lt 0 1 exHeap = .ok t h' ∧ ∃ g, Denotes h' t .i8 [2, 3] g := by
  rcases C60_compare .lt exHeap_a exHeap_b (by decide) with ⟨_, t, h', e, d, _⟩ | ⟨⟨x, hx, hm⟩, _⟩
  · exact ⟨t, h', e, _, d⟩
  · exact absurd (⟨x, hx, hm⟩ : ∃ idx, InBox (maxShape [2, 3] [3]) idx ∧ ¬ Meets [2, 3] [3] idx)
      (fun hc => by
        have := ((C60_rejected _ _).1 hc).2
        simp [stretched, stretchRev] at this
        revert this
        decide)

/-! ### C17 and C18 for any two shapes -/

/-- **C17**: whenever an arithmetic operation on valid operands returns, each element of the result is the specified one. -/
theorem C17_elements {op : AOp} {h h' : Heap F} {l r t : Nat} {dl dr : DType} {sl sr : List Nat} {fl fr : List Nat → Val F}
    (hl : Denotes h l dl sl fl) (hr : Denotes h r dr sr fr)
    (hsize : vol (maxShape sl sr) * (later dl dr).size < 9223372036854775808) (hok : arithT op l r h = .ok t h') :
    ∃ g, Denotes h' t (later dl dr) (maxShape sl sr) g ∧ ∀ idx, InBox (maxShape sl sr) idx →
      elemBinary op dl dr (fl (project sl idx)) (fr (project sr idx)) = some (g idx) := by
  rcases C60_arith op hl hr hsize with ⟨g, hg, t', h1, e, d, _⟩ | ⟨_, _, _, h1, e, _⟩ | ⟨_, _, _, e | e⟩
  · rw [hok] at e
    simp only [Out.ok.injEq] at e
    obtain ⟨rfl, rfl⟩ := e
    exact ⟨g, d, fun idx hb => (hg idx hb).2⟩
  all_goals rw [hok] at e; cases e

/-- **C17** (the only undefined cases): if an arithmetic operation on valid operands is undefined, then for some index the specified
element does not exist, and the operation is undefined in one of two ways, overflow or division by zero: no out-of-bounds access, no
uninitialised read, no element read at another type. -/
theorem C17_undefined {op : AOp} {h : Heap F} {l r : Nat} {dl dr : DType} {sl sr : List Nat} {fl fr : List Nat → Val F} {u : UB}
    (hl : Denotes h l dl sl fl) (hr : Denotes h r dr sr fr)
    (hsize : vol (maxShape sl sr) * (later dl dr).size < 9223372036854775808) (hu : arithT op l r h = .ub u) :
    (u = .overflow ∨ u = .divZero) ∧ ∃ idx, InBox (maxShape sl sr) idx ∧ Meets sl sr idx ∧
      elemBinary op dl dr (fl (project sl idx)) (fr (project sr idx)) = none := by
  rcases C60_arith op hl hr hsize with ⟨g, hg, t', h1, e, d, _⟩ | ⟨_, _, _, h1, e, _⟩ | ⟨x, hx, hm, he⟩
  · rw [hu] at e; cases e
  · rw [hu] at e; cases e
  · rw [hu] at he
    refine ⟨by simpa using he, x, hx.1, hm, ?_⟩
    by_contra hc
    exact hx.2.1 ⟨hm, hc⟩

/-- The hypotheses of both hold: the product of the matrix and the row returns, and the quotient of `[5, 6]` and 0 is undefined. -/
example : ∃ t h' g, arithT .mul 0 1 exHeap = .ok t h' ∧ Denotes h' t .i32 [2, 3] g ∧ g [1, 2] = .i 180 := by
  obtain ⟨t, h', e, _⟩ := C14_arith_partial (op := .mul) (s := [2, 3])
    (g := fun idx => .i ((3 * idx.getD 0 0 + idx.getD 1 0 + 1) * (10 * idx.getD 1 0 + 10)))
    exHeap_a exHeap_b (by decide) (by simp [stretched, stretchRev]) (by decide) (forall_inBox (by decide))
  obtain ⟨g, d, hg⟩ := C17_elements exHeap_a exHeap_b (by decide) e
  exact ⟨t, h', g, e, d, Option.some.inj ((hg [1, 2] (by decide)).symm.trans (by decide))⟩

example : ∃ h : Heap Int, ∃ fl fr u, Denotes h 0 .i32 [2] fl ∧ Denotes h 1 .i32 [] fr ∧ arithT .div 0 1 h = .ub u := by
  refine ⟨⟨[⟨.i32, 8, some [some (.i 5), some (.i 6)]⟩, ⟨.i32, 4, some [some (.i 0)]⟩],
    [⟨.i32, ⟨[2], [1], 0⟩, 0, none, false, false, none⟩, ⟨.i32, ⟨[], [], 0⟩, 1, none, false, false, none⟩], 0⟩,
    fun idx => .i (idx.getD 0 0 + 5), fun _ => .i 0, .divZero, ?_, ?_, by decide +kernel⟩
  · exact ⟨_, rfl, rfl, rfl, reads_of_check (by decide) (by decide) rfl rfl rfl (by decide) (by decide) (by decide)⟩
  · exact ⟨_, rfl, rfl, rfl, reads_of_check (by decide) (by decide) rfl rfl rfl (by decide) (by decide) (by decide)⟩

theorem elemBinary_comm [FComm F] {op : AOp} (ho : op = .add ∨ op = .mul) {dl dr : DType} {x y : Val F}
    (hx : x.HasType dl) (hy : y.HasType dr) : elemBinary op dl dr x y = elemBinary op dr dl y x := by
  rw [C17_operand_order op hx hy, C17_operand_order op hy hx]
  exact elemArith_comm ho hx hy

/-- **C18.** `a + b` and `b + a` (and likewise for `*`) do the same on valid operands of any shapes and types, for a float arithmetic
in which `+` and `*` of two floats commute: both return, and the results have the same type, shape and elements; or both throw; or
both are undefined. -/
theorem C18_commutes [FComm F] {op : AOp} (hop : op = .add ∨ op = .mul) {h : Heap F} {l r : Nat} {dl dr : DType}
    {sl sr : List Nat} {fl fr : List Nat → Val F} (hl : Denotes h l dl sl fl) (hr : Denotes h r dr sr fr)
    (hsize : vol (maxShape sl sr) * (later dl dr).size < 9223372036854775808) :
    (∃ t h1 h2 g, arithT op l r h = .ok t h1 ∧ arithT op r l h = .ok t h2 ∧
      Denotes h1 t (later dl dr) (maxShape sl sr) g ∧ Denotes h2 t (later dl dr) (maxShape sl sr) g) ∨
    (∃ h1 h2, arithT op l r h = .throw .runtime h1 ∧ arithT op r l h = .throw .runtime h2) ∨
    (∃ u v, arithT op l r h = .ub u ∧ arithT op r l h = .ub v) := by
  have hms : maxShape sr sl = maxShape sl sr := maxShape_comm sr sl
  have hmeets : ∀ idx, Meets sr sl idx ↔ Meets sl sr idx := fun idx => and_comm
  have helem : ∀ idx, Meets sl sr idx → elemBinary op dr dl (fr (project sr idx)) (fl (project sl idx)) =
      elemBinary op dl dr (fl (project sl idx)) (fr (project sr idx)) := fun idx hm =>
    elemBinary_comm hop (hr.typed hm.2) (hl.typed hm.1)
  have hsize' : vol (maxShape sr sl) * (later dr dl).size < 9223372036854775808 := by rw [hms, later_comm]; exact hsize
  rcases firstNot_or (maxShape sl sr) (fun idx => Meets sl sr idx ∧
    (elemBinary op dl dr (fl (project sl idx)) (fr (project sr idx))).isSome = true) with hall | ⟨x, hx⟩
  · have hg : ∀ idx, InBox (maxShape sl sr) idx → Meets sl sr idx ∧ elemBinary op dl dr (fl (project sl idx)) (fr (project sr idx)) =
        some ((elemBinary op dl dr (fl (project sl idx)) (fr (project sr idx))).getD (.i 0)) := fun idx hb => by
      obtain ⟨h1, h2⟩ := hall idx hb
      obtain ⟨z, hz⟩ := Option.isSome_iff_exists.1 h2
      exact ⟨h1, by rw [hz]; rfl⟩
    obtain ⟨h1, e1, d1, _⟩ := arith_all hl hr hsize hg
    obtain ⟨h2, e2, d2, _⟩ := arith_all hr hl hsize' (fun idx hb => by
      rw [hms] at hb
      obtain ⟨q1, q2⟩ := hg idx hb
      exact ⟨(hmeets idx).2 q1, (helem idx q1).trans q2⟩)
    rw [hms, later_comm] at d2
    exact .inl ⟨_, h1, h2, _, e1, e2, d1, d2⟩
  · have hx' : FirstNot (maxShape sr sl) (fun idx => Meets sr sl idx ∧
        (elemBinary op dr dl (fr (project sr idx)) (fl (project sl idx))).isSome = true) x := by
      obtain ⟨q1, q2, q3⟩ := hx
      rw [hms]
      refine ⟨q1, fun hc => q2 ⟨(hmeets x).1 hc.1, ?_⟩, fun y hy hlt => ?_⟩
      · rw [← helem x ((hmeets x).1 hc.1)]; exact hc.2
      · obtain ⟨p1, p2⟩ := q3 y hy hlt
        exact ⟨(hmeets y).2 p1, by rw [helem y p1]; exact p2⟩
    rcases arith_first hl hr hsize hx with ⟨p1, h1, e1, _⟩ | ⟨p1, _, p2⟩
    · rcases arith_first hr hl hsize' hx' with ⟨_, h2, e2, _⟩ | ⟨q1, _⟩
      · exact .inr (.inl ⟨h1, h2, e1, e2⟩)
      · exact absurd ((hmeets x).1 q1) p1
    · rcases arith_first hr hl hsize' hx' with ⟨q1, _⟩ | ⟨_, _, q2⟩
      · exact absurd ((hmeets x).2 p1) q1
      · refine .inr (.inr ?_)
        rcases p2 with p2 | p2 <;> rcases q2 with q2 | q2 <;> exact ⟨_, _, p2, q2⟩

example : ∃ t h1 h2 g, arithT .mul 0 1 exHeap = .ok t h1 ∧ arithT .mul 1 0 exHeap = .ok t h2 ∧
    Denotes h1 t .i32 [2, 3] g ∧ Denotes h2 t .i32 [2, 3] g := by
  rcases C18_commutes (.inr rfl) exHeap_a exHeap_b (by decide) with h | ⟨h1, _, e, _⟩ | ⟨u, _, e, _⟩
  · exact h
  all_goals
    obtain ⟨t, h', e', _⟩ := C14_arith_partial (op := .mul) (s := [2, 3])
      (g := fun idx => .i ((3 * idx.getD 0 0 + idx.getD 1 0 + 1) * (10 * idx.getD 1 0 + 10)))
      exHeap_a exHeap_b (by decide) (by simp [stretched, stretchRev]) (by decide) (forall_inBox (by decide))
    rw [e'] at e
    cases e

end INNC
