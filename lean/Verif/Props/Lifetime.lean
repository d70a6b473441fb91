import Verif.Lemmas.Lifetime
import Verif.Lemmas.Runs
/-
C53, C54: ownership. Tensors, gradients and recorded operations own tensors by reference counting. Reference counting reclaims
everything a program has no variable for, and reclaiming it changes nothing the program can see.
-/
namespace INNC
open Spec Tensor
variable {F : Type} [FOps F]

/-! ### C53 -/

/-- **C53**: after every history of calls no tensor object owns itself, directly or through others. -/
theorem C53_acyclic {h : Heap F} (hh : History h) (x : Nat) : ¬ Relation.TransGen (Holds h) x x := fun hc =>
  Nat.lt_irrefl _ (rank_trans (levelled_history hh) (graph_history hh) hc)

/-- **C53**: after every history of calls, whatever variables are left, reference counting has destroyed exactly the objects that
cannot be reached from the variables: nothing leaks and nothing reachable is destroyed. -/
theorem C53_reclaimed {h : Heap F} (hh : History h) (vars : List Nat) {x : Nat} (hx : x < h.ts.length) :
    Destroyed h vars x ↔ ¬ Alive h vars x :=
  ⟨fun hd ha => not_alive_of_destroyed ha hd, destroyed_of (levelled_history hh) (graph_history hh) vars _ x rfl hx⟩

/-- **C53**: when the last variable ends, every object is destroyed. -/
theorem C53_all {h : Heap F} (hh : History h) {x : Nat} (hx : x < h.ts.length) : Destroyed h [] x :=
  (C53_reclaimed hh [] hx).2 fun ha => by
    induction ha with
    | var hv => cases hv
    | held _ hh ih =>
      obtain ⟨i, hi, _⟩ := hh
      exact ih (getElem?_lt hi)

/-- `sum(abs(x * x))` is back-propagated to `x`. -/
def owning : List (Call Int) :=
  [.zeros [2] .f32, .setRequiresGrad 0 true, .mul 0 0, .abs 1, .sum 2, .backward 4]

/-- Non-vacuity: a reachable state with objects owned as operand, as gradient and as saved slopes. With only `x` (object 0) left,
its gradient lives on and the results of the operations have been destroyed. -/
example : ∃ h : Heap Int, History h ∧ Holds h 1 0 ∧ Holds h 2 3 ∧ (∃ g, Holds h 0 g ∧ Alive h [0] g) ∧ Destroyed h [0] 1 ∧
    Destroyed h [0] 2 := by
  obtain ⟨h, hh, e⟩ := reachable (F := Int) (P := fun h =>
    (match h.ts[1]? with | some i => decide (0 ∈ (i.gradFn.map (·.inputs)).getD []) | none => false) &&
    (match h.ts[2]? with | some i => decide (i.gradFn.map (·.kind) = some (.knownGrad 3)) | none => false) &&
    (match h.ts[0]? with
      | some i => i.gradFn.isNone && (match i.grad with
      | some g => decide (4 < g) && (match h.ts[g]? with | some j => j.gradFn.isNone && j.grad.isNone | none => false)
      | none => false)
      | none => false)) owning (by decide +kernel)
  simp only [Bool.and_eq_true] at e
  obtain ⟨⟨e1, e2⟩, e3⟩ := e
  cases h1 : h.ts[1]? with
  | none => rw [h1] at e1; cases e1
  | some i1 =>
  cases h2 : h.ts[2]? with
  | none => rw [h2] at e2; cases e2
  | some i2 =>
  cases h0 : h.ts[0]? with
  | none => rw [h0] at e3; cases e3
  | some i0 =>
  rw [h1] at e1; rw [h2] at e2; rw [h0] at e3
  simp only [decide_eq_true_eq, Bool.and_eq_true] at e1 e2 e3
  obtain ⟨e3, e4⟩ := e3
  cases hg : i0.grad with
  | none => rw [hg] at e4; cases e4
  | some g =>
  rw [hg] at e4
  simp only [Bool.and_eq_true, decide_eq_true_eq] at e4
  obtain ⟨e4, e5⟩ := e4
  have hg0 : Holds h 0 g := ⟨i0, h0, .inl hg⟩
  have alive : ∀ x, Alive h [0] x → x = 0 ∨ x = g := fun x ha => by
    induction ha with
    | var hv => exact .inl (by simpa using hv)
    | held _ hh ih =>
      obtain ⟨i, hi, ho⟩ := hh
      rcases ih with rfl | rfl
      · rw [h0] at hi
        obtain rfl := Option.some.inj hi
        rcases ho with ho | ⟨f, hf, _⟩
        · rw [hg] at ho; exact .inr (Option.some.inj ho).symm
        · rw [hf] at e3; cases e3
      · rw [hi] at e5
        simp only [Bool.and_eq_true] at e5
        rcases ho with ho | ⟨f, hf, _⟩
        · rw [ho] at e5; exact absurd e5.2 (by simp)
        · rw [hf] at e5; exact absurd e5.1 (by simp)
  refine ⟨h, hh, ?_, ?_, ⟨g, hg0, .held (.var (by simp)) hg0⟩, ?_, ?_⟩
  · cases hf : i1.gradFn with
    | none => rw [hf] at e1; simp at e1
    | some f => rw [hf] at e1; exact ⟨i1, h1, .inr ⟨f, hf, .inl e1⟩⟩
  · cases hf : i2.gradFn with
    | none => rw [hf] at e2; simp at e2
    | some f => rw [hf] at e2; exact ⟨i2, h2, .inr ⟨f, hf, .inr (Option.some.inj e2)⟩⟩
  · refine (C53_reclaimed hh [0] (getElem?_lt h1)).2 fun ha => ?_
    rcases alive 1 ha with h | h <;> omega
  · refine (C53_reclaimed hh [0] (getElem?_lt h2)).2 fun ha => ?_
    rcases alive 2 ha with h | h <;> omega

/-! ### C54 -/

/-- **C54**: a call on variables of the program does the same whatever the memory of objects the program cannot reach holds: it
returns the same, throws the same or is undefined in the same way, and everything the program can reach afterwards is the same. -/
theorem C54_call {h k : Heap F} {vars : List Nat} (hc : Collected vars h k) (c : Call F) (ha : ∀ a ∈ args c, a ∈ vars) :
    match c.run h, c.run k with
    | .ok t h', .ok t' k' => t = t' ∧ Collected (t.toList ++ vars) h' k'
    | .throw e h', .throw e' k' => e = e' ∧ Collected vars h' k'
    | .ub u, .ub u' => u = u'
    | _, _ => False := call_both hc c ha

/-- **C54**: a program sees the same whether or not the memory of the objects it cannot reach is given back, and overwritten with
anything, before each of its statements; and at the end everything it can reach is the same. -/
theorem C54_program {h h' k' : Heap F} {vars vars1 vars2 : List Nat} {p : List (Stmt F)} {seen1 seen2 : List Seen}
    (h1 : Run h vars p seen1 h' vars1) (h2 : CollectedRun h vars p seen2 k' vars2) :
    seen1 = seen2 ∧ vars1 = vars2 ∧ Collected vars1 h' k' := by
  obtain ⟨h'', hr, hc⟩ := run_collected h2 (.refl vars h)
  obtain ⟨rfl, rfl, rfl⟩ := run_unique h1 hr
  exact ⟨rfl, rfl, hc⟩

/-- **C54**: a program that runs goes on running, and sees the same, after the memory of objects it cannot reach is overwritten. -/
theorem C54_continues {h h' k : Heap F} {vars vars' : List Nat} {p : List (Stmt F)} {seen : List Seen}
    (hr : Run h vars p seen h' vars') (hc : Collected vars h k) : ∃ k', Run k vars p seen k' vars' ∧ Collected vars' h' k' := by
  obtain ⟨k', hr', hc'⟩ := run_collected hr.collected hc.symm
  exact ⟨k', hr', hc'.symm⟩

/-- **C54**: what `to_string()` and `all()` return depends only on what the program can reach. -/
theorem C54_read {h k : Heap F} {vars : List Nat} (hc : Collected vars h k) {t : Nat} (ht : t ∈ vars) :
    (match Tensor.toString t h, Tensor.toString t k with
      | .ok s _, .ok s' _ => s = s' | .throw e _, .throw e' _ => e = e' | .ub u, .ub u' => u = u' | _, _ => False) ∧
    (match allT t h, allT t k with
      | .ok b _, .ok b' _ => b = b' | .throw e _, .throw e' _ => e = e' | .ub u, .ub u' => u = u' | _, _ => False) := by
  constructor
  · have := loc_toString (S := reachT h vars) (T := reachS h vars) (.inl (.var ht)) h k hc.sim
    cases e : Tensor.toString t h <;> cases e' : Tensor.toString t k <;> rw [e, e'] at this <;> try exact this.elim
    · exact this.1
    · exact this.1
    · exact this
  · have := loc_allT (S := reachT h vars) (T := reachS h vars) (.inl (.var ht)) h k hc.sim
    cases e : allT t h <;> cases e' : allT t k <;> rw [e, e'] at this <;> try exact this.elim
    · exact this.1
    · exact this.1
    · exact this

/-- Non-vacuity: in a reachable state with variables for `x` and `y`, the object of `x * y`, whose variable has ended, and its
storage are overwritten, and `x + y` does the same. -/
example : ∃ h k : Heap Int, History h ∧ Collected [0, 1] h k ∧ h.ts[2]? ≠ k.ts[2]? ∧ h.st[2]? ≠ k.st[2]? ∧ h.st[2]?.isSome ∧
    (∀ a ∈ args (Call.add 0 1 : Call Int), a ∈ [0, 1]) ∧ (match (Call.add 0 1 : Call Int).run h with | .ok (some 3) _ => true | _ => false) = true := by
  obtain ⟨h, hh, e⟩ := reachable (F := Int) (P := fun h =>
    (match (Call.add 0 1 : Call Int).run h with | .ok (some 3) _ => true | _ => false) &&
    (match h.ts[0]?, h.ts[1]? with
      | some i, some j => i.grad.isNone && i.gradFn.isNone && j.grad.isNone && j.gradFn.isNone && decide (i.data = 0) && decide (j.data = 1)
      | _, _ => false) &&
    (match h.ts[2]?, h.st[2]? with | some i, some s => decide (i.data = 2) && decide (s.size = 8) | _, _ => false))
    [.zeros [2] .f32, .zeros [2] .f32, .mul 0 1] (by decide +kernel)
  simp only [Bool.and_eq_true] at e
  obtain ⟨⟨e1, e2⟩, e3⟩ := e
  cases h0 : h.ts[0]? with
  | none => rw [h0] at e2; cases e2
  | some i0 =>
  cases h1 : h.ts[1]? with
  | none => rw [h0, h1] at e2; cases e2
  | some i1 =>
  cases h2 : h.ts[2]? with
  | none => rw [h2] at e3; cases e3
  | some i2 =>
  cases s2 : h.st[2]? with
  | none => rw [h2, s2] at e3; cases e3
  | some s =>
  rw [h0, h1] at e2; rw [h2, s2] at e3
  simp only [Bool.and_eq_true, decide_eq_true_eq, Option.isNone_iff_eq_none] at e2 e3
  obtain ⟨⟨⟨⟨⟨a1, a2⟩, a3⟩, a4⟩, a5⟩, a6⟩ := e2
  have alive : ∀ x, Alive h [0, 1] x → x = 0 ∨ x = 1 := fun x ha => by
    induction ha with
    | var hv => simpa using hv
    | held _ hh ih =>
      obtain ⟨i, hi, ho⟩ := hh
      rcases ih with rfl | rfl
      · rw [h0] at hi
        obtain rfl := Option.some.inj hi
        rcases ho with ho | ⟨f, hf, _⟩
        · rw [a1] at ho; cases ho
        · rw [a2] at hf; cases hf
      · rw [h1] at hi
        obtain rfl := Option.some.inj hi
        rcases ho with ho | ⟨f, hf, _⟩
        · rw [a3] at ho; cases ho
        · rw [a4] at hf; cases hf
  refine ⟨h, { h with ts := h.ts.set 2 { i2 with data := 77 }, st := h.st.set 2 ⟨.i8, 0, none⟩ }, hh, ?_, ?_, ?_, by rw [s2]; rfl, by simp [args], e1⟩
  · refine ⟨by simp, by simp, rfl, fun x ha => ?_, fun d hd => ?_⟩
    · have := alive x ha
      exact List.getElem?_set_ne (by omega)
    · obtain ⟨x, i, ha, hi, rfl⟩ := hd
      refine List.getElem?_set_ne ?_
      rcases alive x ha with rfl | rfl
      · rw [h0] at hi; obtain rfl := Option.some.inj hi; omega
      · rw [h1] at hi; obtain rfl := Option.some.inj hi; omega
  · simp only
    rw [List.getElem?_set_self (getElem?_lt h2), h2]
    intro hc
    have := congrArg Impl.data (Option.some.inj hc)
    simp only [e3.1] at this
    omega
  · simp only
    rw [List.getElem?_set_self (getElem?_lt s2), s2]
    intro hc
    have := congrArg Storage.size (Option.some.inj hc)
    simp only [e3.2] at this
    omega

end INNC
