import Verif.Spec.Forward
/-
Specification: ownership and lifetime. `Tensor`s, gradients and recorded operations own tensors by reference counting
(`std::shared_ptr`), so an object lives as long as somebody owns it. Apart from `Run` and `CollectedRun`, only the state of the
model is used here, none of its operations.
-/
namespace INNC.Spec
open Tensor
variable {F : Type}

/-- The tensor object `i` owns the tensor object `y`: as its gradient, as an operand of the operation that computed it, or as the
slopes saved by that operation. -/
def Owns (i : Impl) (y : Nat) : Prop :=
  i.grad = some y ∨ ∃ f, i.gradFn = some f ∧ (y ∈ f.inputs ∨ f.kind = .knownGrad y)

/-- The tensor object number `x` owns the tensor object number `y`. -/
def Holds (h : Heap F) (x y : Nat) : Prop := ∃ i, h.ts[x]? = some i ∧ Owns i y

/-- The tensor objects a program that has variables for `vars` can reach. -/
inductive Alive (h : Heap F) (vars : List Nat) : Nat → Prop
  | var {x : Nat} : x ∈ vars → Alive h vars x
  | held {x y : Nat} : Alive h vars x → Holds h x y → Alive h vars y

/-- The storages such a program can reach. -/
def AliveData (h : Heap F) (vars : List Nat) (d : Nat) : Prop := ∃ x i, Alive h vars x ∧ h.ts[x]? = some i ∧ i.data = d

/-- What reference counting has destroyed once the variables `vars` are the only ones left: an object goes when it is no variable's
and everything that owned it has gone. -/
inductive Destroyed (h : Heap F) (vars : List Nat) : Nat → Prop
  | last {x : Nat} : x < h.ts.length → x ∉ vars → (∀ y, Holds h y x → Destroyed h vars y) → Destroyed h vars x

/-- `h'` is `h` except for objects that a program with variables `vars` cannot reach: their memory may hold anything. -/
structure Collected (vars : List Nat) (h h' : Heap F) : Prop where
  tensors : h'.ts.length = h.ts.length
  storages : h'.st.length = h.st.length
  version : h'.gver = h.gver
  ts : ∀ x, Alive h vars x → h'.ts[x]? = h.ts[x]?
  st : ∀ d, AliveData h vars d → h'.st[d]? = h.st[d]?

/-- What a program sees of a call: it returns a tensor or nothing, throws an exception, or is undefined. -/
inductive Seen where
  | returned (t : Option Nat)
  | threw (e : Exc)
  | undefined (u : UB)
  deriving DecidableEq

/-- One statement of a program: a call whose result, if any, is kept in a variable, or the end of a variable. -/
inductive Stmt (F : Type) where
  | call (c : Call F)
  | drop (x : Nat)

section
variable [FOps F]

/-- The program runs from state `h` with variables `vars`, sees `seen` and ends in state `h'` with variables `vars'`. Statements use
only variables the program has. -/
inductive Run : Heap F → List Nat → List (Stmt F) → List Seen → Heap F → List Nat → Prop
  | done {h vars} : Run h vars [] [] h vars
  | returned {h h1 h' vars c t p seen vars'} : (∀ a ∈ args c, a ∈ vars) → c.run h = .ok t h1 →
      Run h1 (t.toList ++ vars) p seen h' vars' → Run h vars (.call c :: p) (.returned t :: seen) h' vars'
  | threw {h h1 h' vars c e p seen vars'} : (∀ a ∈ args c, a ∈ vars) → c.run h = .throw e h1 →
      Run h1 vars p seen h' vars' → Run h vars (.call c :: p) (.threw e :: seen) h' vars'
  | undefined {h vars c u p} : (∀ a ∈ args c, a ∈ vars) → c.run h = .ub u →
      Run h vars (.call c :: p) [.undefined u] h vars
  | drop {h h' vars x p seen vars'} : Run h (vars.erase x) p seen h' vars' → Run h vars (.drop x :: p) seen h' vars'

/-- The same, but before every statement the memory of objects the program cannot reach is given back and overwritten with
anything. -/
inductive CollectedRun : Heap F → List Nat → List (Stmt F) → List Seen → Heap F → List Nat → Prop
  | done {h vars} : CollectedRun h vars [] [] h vars
  | collect {h h1 h' vars p seen vars'} : Collected vars h h1 → CollectedRun h1 vars p seen h' vars' →
      CollectedRun h vars p seen h' vars'
  | returned {h h1 h' vars c t p seen vars'} : (∀ a ∈ args c, a ∈ vars) → c.run h = .ok t h1 →
      CollectedRun h1 (t.toList ++ vars) p seen h' vars' → CollectedRun h vars (.call c :: p) (.returned t :: seen) h' vars'
  | threw {h h1 h' vars c e p seen vars'} : (∀ a ∈ args c, a ∈ vars) → c.run h = .throw e h1 →
      CollectedRun h1 vars p seen h' vars' → CollectedRun h vars (.call c :: p) (.threw e :: seen) h' vars'
  | undefined {h vars c u p} : (∀ a ∈ args c, a ∈ vars) → c.run h = .ub u →
      CollectedRun h vars (.call c :: p) [.undefined u] h vars
  | drop {h h' vars x p seen vars'} : CollectedRun h (vars.erase x) p seen h' vars' →
      CollectedRun h vars (.drop x :: p) seen h' vars'
end

end INNC.Spec
