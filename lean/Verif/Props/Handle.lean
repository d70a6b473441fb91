import Verif.Lemmas.Handle
import Verif.Lemmas.ProgramRest
import Verif.Lemmas.Examples
import Verif.Spec.Toy
/-
C72: variables hold tensors by reference; moving is invisible; empty variables cannot be used.
-/
namespace INNC
open Spec Tensor
variable {F : Type} [FOps F]

/-- **C72**, empty variables: a call on a variable that holds no tensor - one that was declared without a value, that was moved from,
or that holds what `grad()` or an empty list returned - never returns. It dereferences a null pointer or throws before it has changed
anything. Only `to_string()` is allowed. -/
theorem C72_empty {vs : List (Option Nat)} {c : Call F} (hc : ∀ v, c ≠ .toString v) {v : Nat} (hv : v ∈ args c) (he : ¬ Full vs v)
    (h : Heap F) : (HStmt.call c).exec vs h = .ub .nullptr ∨ ∃ e, (HStmt.call c).exec vs h = .throw e h := by
  have hp : ptr vs v = none := by
    cases hp : ptr vs v with
    | none => rfl
    | some t => exact absurd ⟨t, ptr_some.1 hp⟩ he
  show (callOn vs c >>= fun o => pure (if c.makes then vs ++ [o] else vs)) h = _ ∨ ∃ e, (callOn vs c >>= fun o => pure (if c.makes then vs ++ [o] else vs)) h = _
  rw [M.bind_def]
  rcases callOn_empty hc hv hp h with e | ⟨x, e⟩
  · rw [e]; exact .inl rfl
  · rw [e]; exact .inr ⟨x, rfl⟩

/-- **C72**: the text of an empty variable. -/
theorem C72_text (h : Heap F) : tensorToString (none : Option Nat) h = .ok "[]".toList h := rfl

/-- **C72**, moves: `Tensor b = std::move(a)` and `b = std::move(a)` put the tensor of `a` into `b` and leave `a` empty; no other
variable, and no tensor, changes. -/
theorem C72_moved {vs : List (Option Nat)} {a t : Nat} (ha : vs[a]? = some (some t)) (h : Heap F) :
    (∃ us, (HStmt.take a : HStmt F).exec vs h = .ok us h ∧ us.length = vs.length + 1 ∧ us[vs.length]? = some (some t) ∧ ¬ Full us a ∧
      ∀ v < vs.length, v ≠ a → us[v]? = vs[v]?) ∧
    ∀ b < vs.length, b ≠ a → ∃ us, (HStmt.give b a : HStmt F).exec vs h = .ok us h ∧ us.length = vs.length ∧ us[b]? = some (some t) ∧
      ¬ Full us a ∧ ∀ v, v ≠ a → v ≠ b → us[v]? = vs[v]? := by
  have hp := ptr_some.2 ha
  have hl : a < vs.length := (List.getElem?_eq_some_iff.1 ha).1
  refine ⟨⟨_, rfl, by simp, ?_, ?_, fun v hv hva => ?_⟩, fun b hb hba => ⟨_, rfl, ?_, ?_, ?_, fun v h1 h2 => ?_⟩⟩
  · rw [List.getElem?_append_right (by simp)]; simp [hp]
  · rintro ⟨u, hu⟩
    rw [List.getElem?_append_left (by simp; exact hl)] at hu
    simp [hl] at hu
  · rw [List.getElem?_append_left (by simp; exact hv), List.getElem?_set_ne (Ne.symm hva)]
  · rw [if_neg hba]; simp
  · rw [if_neg hba]; simp [hp, hb]
  · rw [if_neg hba]
    rintro ⟨u, hu⟩
    rw [List.getElem?_set_ne hba] at hu
    simp [hl] at hu
  · rw [if_neg hba, List.getElem?_set_ne (Ne.symm h2), List.getElem?_set_ne (Ne.symm h1)]

/-- **C72**, moving is invisible: a program that does not use empty variables does the same, to every tensor and with the same exceptions,
whether it moves or copies; and a variable that holds a tensor in the end holds the same one if the program copies. -/
theorem C72_moves {p : List (HStmt F)} {vs us : List (Option Nat)} {h : Heap F} (hw : Subvars vs us) (hn : NeverEmpty p vs h) :
    SameOut (execAll p vs h) (execAll (p.map copying) us h) :=
  execAll_copying p hw hn

/-- **C72**, programs: what C55, C58 and C71 say of programs of commands they say of programs with variables of type `Tensor`. -/
theorem C72_commands {q : List (Command F)} {vs : List Nat} {h : Heap F} (hs : ∀ c ∈ q, Solid c)
    (hn : NeverEmpty (q.map statement) (vs.map some) h) :
    execAll (q.map statement) (vs.map some) h = (perform q vs >>= fun us => pure (us.map some)) h :=
  execAll_perform q hs hn

/-- **C72**: a program with moves that does not use empty variables, and that with copies instead of moves is a program of C55, does what it
says: if the abstract program establishes `P`, the variables that are not empty in the end hold tensors as in a state with `P`. -/
theorem C72_program {p : List (HStmt F)} {q : List (Command F)} (hp : p.map copying = q.map statement) (hs : ∀ c ∈ q, Solid c)
    (hn : NeverEmpty p [] Heap.empty) {P : World F → Prop} (hm : Means q World.start P) :
    ∃ vs us h w, execAll p [] Heap.empty = .ok vs h ∧ Subvars vs (us.map some) ∧ P w ∧ Represents h us w := by
  have hw : Subvars ([] : List (Option Nat)) [] := ⟨rfl, fun _ _ => id⟩
  have hn' := Spec.NeverEmpty.copying p hw hn
  rw [hp] at hn'
  obtain ⟨vs', h, w, env, loc, e1, hP, S, rfl⟩ := mirrors_start.program q hm
  have e := execAll_perform q (vs := []) hs hn'
  rw [M.bind_def, show perform q [] Heap.empty = .ok (w.vars.map env) h from e1] at e
  have e2 := execAll_copying p hw hn
  rw [hp] at e2
  have e3 : execAll (q.map statement) [] Heap.empty = .ok ((w.vars.map env).map some) h := e
  rw [e3] at e2
  cases hx : execAll p [] Heap.empty with
  | ok vs h' =>
    rw [hx] at e2
    obtain ⟨rfl, hw'⟩ := e2
    exact ⟨vs, _, h, w, rfl, hw', hP, S.represents⟩
  | throw _ _ => rw [hx] at e2; exact e2.elim
  | ub _ => rw [hx] at e2; exact e2.elim

/-! ### A program -/

/-- `Tensor a = ones({2}, i32); Tensor b = std::move(a); Tensor c = b + b; a = std::move(c); std::cout << a.to_string();` -/
def moving : List (HStmt Int) := [.call (.ones [2] .i32), .take 0, .call (.add 1 1), .give 0 2, .call (.toString 0)]

def movingCopies : List (Command Int) := [.call (.ones [2] .i32), .copy 0, .call (.add 1 1), .assign 0 2, .call (.toString 0)]

theorem moving_neverEmpty : NeverEmpty moving [] Heap.empty := neverEmpty_sound _ (by decide +kernel)

/-- Non-vacuity of `C72_program` (and with it of `C72_moves` and `C72_commands`): the program ends with 2, 2 in `a`, with `b` as it was and
with `c` empty. -/
example : ∃ vs us h w, execAll moving [] Heap.empty = .ok vs h ∧ Subvars vs (us.map some) ∧ Represents h us w ∧
    Carries w 0 ⟨1, [2], rank [2], false⟩ .i32 (fun _ => .i 2) := by
  have hm : Means movingCopies World.start fun w => Carries w 0 ⟨1, [2], rank [2], false⟩ .i32 (fun _ => .i 2) := by
    refine ⟨_, .ones (by unfold Modest; decide), ?_⟩
    rintro _ rfl
    refine ⟨0, rfl, ?_⟩
    have c1 : Carries (F := Int) ⟨[⟨.i32, [.i 1, .i 1]⟩], [⟨0, [2], rank [2], false⟩], [0, 0]⟩ 1 ⟨0, [2], rank [2], false⟩ .i32 fun _ => .i 1 :=
      ⟨0, _, rfl, rfl, rfl, forall_inBox (by decide)⟩
    refine ⟨_, .arith (op := .add) (s := [2]) (g := fun _ => .i 2) c1 c1 (by decide) (by simp [stretched, stretchRev]) (by unfold Modest; decide)
      (forall_inBox (by decide)), ?_⟩
    rintro _ rfl
    refine ⟨1, rfl, by decide, ?_⟩
    have c2 : Carries (F := Int) ⟨[⟨.i32, [.i 1, .i 1]⟩, ⟨.i32, [.i 2, .i 2]⟩], [⟨0, [2], rank [2], false⟩, ⟨1, [2], rank [2], false⟩], [1, 0, 1]⟩ 0
        ⟨1, [2], rank [2], false⟩ .i32 fun _ => .i 2 := ⟨1, _, rfl, rfl, rfl, forall_inBox (by decide)⟩
    refine ⟨_, .toString c2, ?_⟩
    rintro _ rfl
    exact c2
  obtain ⟨vs, us, h, w, e, hw, hP, hr⟩ := C72_program (p := moving) (q := movingCopies) rfl (by simp [movingCopies, Solid]) moving_neverEmpty hm
  exact ⟨vs, us, h, w, e, hw, hr, hP⟩

/-- Non-vacuity of `C72_moved` and `C72_empty`: after `Tensor b = std::move(a)` the sum `a + b` is not defined. -/
example : ∃ us, (HStmt.take 0 : HStmt Int).exec [some 0] Heap.empty = .ok us Heap.empty ∧ ¬ Full us 0 ∧ Full us 1 ∧
    (HStmt.call (.add 0 1)).exec us (Heap.empty : Heap Int) = .ub .nullptr := by
  obtain ⟨⟨us, e, _, h1, h0, _⟩, _⟩ := C72_moved (F := Int) (vs := [some 0]) (a := 0) rfl Heap.empty
  refine ⟨us, e, h0, ⟨0, h1⟩, ?_⟩
  injection e with e
  subst e
  rfl

end INNC
