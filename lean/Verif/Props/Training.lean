import Verif.Props.Program
/-
C58: back-propagation does not disturb a program.
-/
namespace INNC
open Spec Tensor
variable {F : Type} [FOps F]

/-- **C58**: a program that also calls `backward()`, on any of its variables and any number of times, means what the same program
means without these calls: unless the behaviour of one of these calls is undefined, the program runs to its end, and the state it
ends in represents a state its meaning allows. -/
theorem C58_program {p : List (Command F)} {P : World F → Prop} (hp : Follows p World.start P) :
    (∃ vs h w, perform p [] Heap.empty = .ok vs h ∧ P w ∧ Represents h vs w) ∨ Breaks p [] Heap.empty := by
  rcases mirrors_start.follows p hp with ⟨vs, h, w, env, loc, e, hw, S, rfl⟩ | hb
  · exact .inl ⟨_, h, w, e, hw, S.represents⟩
  · exact .inr hb

/-- **C58**, what can be seen at the end: if the program returns, the text of every variable is the listing of its elements in the
abstract state. -/
theorem C58_text {p : List (Command F)} {P : World F → Prop} (hp : Follows p World.start P) {vs : List Nat} {h : Heap F}
    (hr : perform p [] Heap.empty = .ok vs h) :
    ∃ w, P w ∧ ∀ v r dt f, Carries w v r dt f → ∃ t, vs[v]? = some t ∧ Tensor.toString t h = .ok (listing r.sizes f) h := by
  rcases mirrors_start.follows p hp with ⟨vs', h', w, env, loc, e, hw, S, rfl⟩ | ⟨a, v, b, vs', h', u, e1, e2, e3⟩
  · rw [show (World.start : World F).vars.map (fun _ => 0) = [] from rfl, hr] at e
    cases e
    refine ⟨w, hw, fun v r dt f hc => ?_⟩
    obtain ⟨o, i, H⟩ := S.get hc
    exact ⟨env o, getElem?_map' H.var, toString_ok H.denotes (addressable H.good.1)⟩
  · obtain ⟨u, e⟩ := breaks_ub ⟨a, v, b, vs', h', u, e1, e2, e3⟩
    rw [show (World.start : World F).vars.map (fun _ => 0) = [] from rfl, hr] at e
    cases e

/-! ### A program -/

/-- `x = ones({2, 2}, f32); x.requires_grad(true); y = x * x; s = y.sum(); s.backward(); y.backward(); x.zero_grad(); z = y + x;` -/
def exTraining : List (Command Int) :=
  [.call (.ones [2, 2] .f32), .call (.setRequiresGrad 0 true), .call (.mul 0 0), .call (.sum 1), .attempt 2, .attempt 1,
    .call (.zeroGrad 0), .call (.add 1 0)]

theorem exTraining_follows : Follows exTraining World.start fun w => ∃ r, r.sizes = [2, 2] ∧ Carries w 3 r .f32 fun _ => .f 2 := by
  refine ⟨_, .ones (by unfold Modest; decide), ?_⟩
  rintro _ rfl
  refine ⟨_, .requiresGrad (r := ⟨0, [2, 2], rank [2, 2], false⟩) (dt := .f32) (f := fun _ => .f 1) ⟨0, _, rfl, rfl, rfl, forall_inBox (by decide)⟩
    (fun _ => rfl), ?_⟩
  rintro _ ⟨o, ho, rfl⟩
  obtain rfl : 0 = o := Option.some.inj ho
  have hx : Carries (F := Int) ⟨[⟨.f32, (rowMajor [2, 2]).map fun _ => oneElem .f32⟩], [⟨0, [2, 2], rank [2, 2], true⟩], [0]⟩ 0
    ⟨0, [2, 2], rank [2, 2], true⟩ .f32 fun _ => .f 1 := ⟨0, _, rfl, rfl, rfl, forall_inBox (by decide)⟩
  refine ⟨_, .arith (op := .mul) (g := fun _ => .f 1) hx hx (s := [2, 2]) (by decide) (by simp [stretched, stretchRev])
    (by unfold Modest; decide) (forall_inBox (by decide)), ?_⟩
  rintro _ rfl
  refine ⟨_, .sum (r := ⟨1, [2, 2], rank [2, 2], true⟩) (dt := .f32) (f := fun _ => .f 1) (x := .f 4) ⟨1, _, rfl, rfl, rfl, forall_inBox (by decide)⟩
    (by unfold Modest; decide) (by decide), ?_⟩
  rintro _ rfl
  refine ⟨by decide, by decide, ?_⟩
  refine ⟨_, .zeroGrad (r := ⟨0, [2, 2], rank [2, 2], true⟩) (dt := .f32) (f := fun _ => .f 1) ⟨0, _, rfl, rfl, rfl, forall_inBox (by decide)⟩, ?_⟩
  rintro _ rfl
  refine ⟨_, .arith (op := .add) (g := fun _ => .f 2) (a := ⟨1, [2, 2], rank [2, 2], true⟩) (da := .f32) (fa := fun _ => .f 1)
    (b := ⟨0, [2, 2], rank [2, 2], true⟩) (db := .f32) (fb := fun _ => .f 1)
    ⟨1, _, rfl, rfl, rfl, forall_inBox (by decide)⟩ ⟨0, _, rfl, rfl, rfl, forall_inBox (by decide)⟩ (s := [2, 2]) (by decide)
    (by simp [stretched, stretchRev]) (by unfold Modest; decide) (forall_inBox (by decide)), ?_⟩
  rintro _ rfl
  exact ⟨⟨3, [2, 2], rank [2, 2], true⟩, rfl, 3, _, rfl, rfl, rfl, forall_inBox (by decide)⟩

/-- The first `backward()` returns, the second throws, and the program ends with the values it has without them. -/
example : result ((do
    let vs ← perform exTraining []
    let a ← Tensor.toString (vs.getD 3 0)
    return String.ofList a : M Int String) Heap.empty) = some "[[2, 2], [2, 2]]" := by
  decide +kernel

example : ∃ vs h w, perform exTraining [] Heap.empty = .ok vs h ∧
    (∃ r, r.sizes = [2, 2] ∧ Carries w 3 r .f32 fun _ => .f (2 : Int)) ∧ Represents h vs w := by
  rcases C58_program exTraining_follows with h | h
  · exact h
  · obtain ⟨u, e⟩ := breaks_ub h
    have : undefinedBy (perform exTraining [] Heap.empty) = none := by decide +kernel
    rw [e] at this
    cases this

end INNC
