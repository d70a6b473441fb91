import Verif.Spec.Program
import Verif.Spec.Outcome
import Verif.Spec.Print
import Verif.Spec.Api
/-
Specification: programs with control flow. A program has control points. At each of them it stops, executes a command, tries a call
and catches the exception, or asks a question and goes on according to the answer. Loops need not end.
-/
namespace INNC.Spec
open Tensor
variable {F : Type}

/-- What a program can ask about the tensor in the variable `v`: `v.to_string()`, `v.size()`, `v.type()`, `v.numel()`,
`v.requires_grad()`, `v.all()`. -/
inductive Question where
  | text (v : Nat)
  | size (v : Nat)
  | type (v : Nat)
  | numel (v : Nat)
  | requiresGrad (v : Nat)
  | all (v : Nat)

/-- The answers. -/
inductive Answer where
  | text (s : List Char)
  | size (s : List Nat)
  | type (dt : DType)
  | numel (n : Nat)
  | yes (b : Bool)

/-- What a program does at a control point of `σ`: it stops; it executes a command and goes on; it tries a call and goes on here if the
call returns and there if it throws; it asks a question and goes on as the answer says. -/
inductive Action (F σ : Type) where
  | stop
  | command (c : Command F) (next : σ)
  | attempt (c : Call F) (next caught : σ)
  | ask (q : Question) (next : Answer → σ)

/-! ### On the library -/

section
variable [FOps F] {σ : Type}

/-- The question is put to the library (src/INNC/tensor.cpp). -/
def Question.put (vs : List Nat) : Question → M F Answer
  | .text v => do return .text (← Tensor.toString (vs.getD v 0))
  | .size v => do return .size (← sizeT (vs.getD v 0))
  | .type v => do return .type (← typeOf (vs.getD v 0))
  | .numel v => do return .numel (← numelOf (vs.getD v 0))
  | .requiresGrad v => do return .yes (← getT (vs.getD v 0)).requiresGrad
  | .all v => do return .yes (← allT (vs.getD v 0))

/-- One step of the program `prog`, from the control point `p.1` with the tensors `p.2` in the variables. -/
def tick (prog : σ → Action F σ) (p : σ × List Nat) : M F (σ × List Nat) :=
  match prog p.1 with
  | .stop => pure p
  | .command c next => do return (next, ← perform [c] p.2)
  | .attempt c next caught => fun h => match (rename (fun v => p.2.getD v 0) c).run h with
    | .ok o h' => .ok (next, p.2 ++ o.toList) h'
    | .throw _ h' => .ok (caught, p.2) h'
    | .ub u => .ub u
  | .ask q next => do return (next (← q.put p.2), p.2)

/-- `n` steps of the program from the control point `s`, without variables. -/
def ticks (prog : σ → Action F σ) (s : σ) : Nat → M F (σ × List Nat)
  | 0 => pure (s, [])
  | n + 1 => do tick prog (← ticks prog s n)

/-- The program gets, in fewer than `n` steps, to a `backward()` whose behaviour is undefined. -/
def Stumbles (prog : σ → Action F σ) (s : σ) (n : Nat) : Prop :=
  ∃ m p h v next u, m < n ∧ ticks prog s m Heap.empty = .ok p h ∧ prog p.1 = .command (.attempt v) next ∧ backward (p.2.getD v 0) h = .ub u

/-! ### On the abstract memory -/

/-- The answer to a question in the state `w`. (`all()` is asked about tensors of zeros and ones of type i8 only, which is what
comparisons return: see C21.) -/
inductive Answers (w : World F) : Question → Answer → Prop
  | text {v r dt f} : Carries w v r dt f → Answers w (.text v) (.text (listing r.sizes f))
  | size {v r dt f} : Carries w v r dt f → Answers w (.size v) (.size r.sizes)
  | type {v r dt f} : Carries w v r dt f → Answers w (.type v) (.type dt)
  | numel {v r dt f} : Carries w v r dt f → vol r.sizes < 18446744073709551616 → Answers w (.numel v) (.numel (vol r.sizes))
  | requiresGrad {v r dt f} : Carries w v r dt f → Answers w (.requiresGrad v) (.yes r.grad)
  | all {v r b} {f : List Nat → Int} : Carries w v r .i8 (fun idx => .i (f idx)) → (∀ idx, InBox r.sizes idx → f idx = 0 ∨ f idx = 1) →
      (b = true ↔ ∀ idx, InBox r.sizes idx → f idx = 1) → Answers w (.all v) (.yes b)

/-- Calls that throw in the state `w` and change nothing. -/
inductive Refuses (w : World F) : Call F → Prop
  | requiresGrad {v r dt f} : Carries w v r dt f → isInteger dt = true → Refuses w (.setRequiresGrad v true)
  | toType {v r dt f to'} : Carries w v r dt f → r.grad = true → isInteger to' = true → Refuses w (.toType v to')
  | addAssign {x y r dt f} : Carries w x r dt f → r.grad = true → Refuses w (.addAssign x y)
  | randn {rnd s dt} : isInteger dt = true → Refuses w (.randn rnd s dt)
  | init {tree} : Proper tree → (∀ dt s, ¬ Uniform dt s tree) → Refuses w (.init tree)
  | transpose {v r dt f a b} : Carries w v r dt f → (a = b ∨ r.sizes.length ≤ a ∨ r.sizes.length ≤ b) → Refuses w (.transpose v a b)
  | stride {v r dt f} : Carries w v r dt f → Refuses w (.stride v)
  /- the first element is the extreme one, and a gradient is wanted -/
  | max {v r dt f} : Carries w v r dt f → Modest r.sizes dt → vol r.sizes ≠ 0 → r.pos (r.sizes.map fun _ => 0) = 0 → r.grad = true →
      ¬ FirstLoses .ge dt r.sizes f → Refuses w (.max v)
  | min {v r dt f} : Carries w v r dt f → Modest r.sizes dt → vol r.sizes ≠ 0 → r.pos (r.sizes.map fun _ => 0) = 0 → r.grad = true →
      ¬ FirstLoses .le dt r.sizes f → Refuses w (.min v)
  /- another number of elements -/
  | reshape {v r dt f s} : Carries w v r dt f → vol r.sizes < 18446744073709551616 → (∀ n ∈ s, n < 18446744073709551616) →
      vol s < 18446744073709551616 → vol s ≠ vol r.sizes → Refuses w (.reshape v (request s))
  /- two unknown sizes -/
  | unknowns {v r dt f a b c} : Carries w v r dt f → Refuses w (.reshape v (a ++ -1 :: (b ++ -1 :: c)))
  /- one unknown size, and the number of elements is not a multiple of the others -/
  | indivisible {v r dt f a b} : Carries w v r dt f → vol r.sizes < 18446744073709551616 → 0 ∉ a ++ b →
      vol (a ++ b) < 18446744073709551616 → ¬ vol (a ++ b) ∣ vol r.sizes → Refuses w (.reshape v (request a ++ -1 :: request b))
  /- more parts than axes -/
  | parts {v r dt f str} : Carries w v r dt f → str ≠ [] → r.sizes.length ≤ str.count ',' → Refuses w (.slice v str)
  /- an index out of range, after parts that are right and before anything -/
  | index {v r dt f pre n} {s p u : List Char} {k : Int} : Carries w v r dt f → vol r.sizes ≠ 0 → Leading pre s → Selects pre r.sizes →
      (∀ x ∈ pre, x.Is64) → ShortSteps pre r.sizes → r.sizes[pre.length]? = some n → Padded k p → IsI64 k → Trailing u →
      (k < -(n : Int) ∨ n ≤ k) → Refuses w (.slice v (s ++ p ++ u))
  /- shapes that do not broadcast -/
  | arith {op l r a b da db fa fb} : Carries w l a da fa → Carries w r b db fb → bshape a.sizes b.sizes = none →
      0 ∉ maxShape a.sizes b.sizes → Modest (maxShape a.sizes b.sizes) .f64 →
      (∀ idx, InBox (maxShape a.sizes b.sizes) idx → Meets a.sizes b.sizes idx →
        elemBinary op da db (fa (project a.sizes idx)) (fb (project b.sizes idx)) ≠ none) → Refuses w (binary op l r)
  | cmp {op l r a b da db fa fb} : Carries w l a da fa → Carries w r b db fb → bshape a.sizes b.sizes = none →
      0 ∉ maxShape a.sizes b.sizes → Modest (maxShape a.sizes b.sizes) .f64 → Refuses w (.cmp op l r)
  /- an axis that is not there, or tensors that do not fit together -/
  | catAxis {v vs r dt f d} : Carries w v r dt f → r.sizes.length ≤ d → Refuses w (.cat (v :: vs) d)
  | cat {v vs r dt f d} {rs : List Ref} : Carries w v r dt f → List.Forall₂ (fun v r => ∃ dt f, Carries w v r dt f) vs rs →
      (∃ x ∈ rs, x.sizes.length ≠ r.sizes.length ∨ ∃ e, e ≠ d ∧ x.sizes[e]? ≠ r.sizes[e]?) → Refuses w (.cat (v :: vs) d)

/-- In the state `w` the action is defined, and control points and states after it satisfy `inv`. -/
def Leads (w : World F) (inv : σ → World F → Prop) : Action F σ → Prop
  | .stop => True
  | .command c next => Follows [c] w (inv next)
  | .attempt c next caught => (∃ Q, Rule w c Q ∧ ∀ w', Q w' → inv next w') ∨ (Refuses w c ∧ inv caught w)
  | .ask q next => ∃ a, Answers w q a ∧ inv (next a) w

/-- The program never calls `backward()`. -/
def NoBackward (prog : σ → Action F σ) : Prop := ∀ s v next, prog s ≠ .command (.attempt v) next

end
end INNC.Spec
