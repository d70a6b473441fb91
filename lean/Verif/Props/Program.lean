import Verif.Lemmas.ProgramRest
import Verif.Lemmas.Examples
/-
C55: whole programs do what they say.
-/
namespace INNC
open Spec Tensor
variable {F : Type} [FOps F]

/-- **C55**: a program that has a meaning on the abstract memory runs without exceptions and without undefined behaviour, and the
state it ends in represents a state its meaning allows: types, shapes, elements and flags of all variables are as said, two
variables hold the same object exactly when said, and two elements are the same place in memory exactly when said. Partial: the
conditions under which `Rule` gives a call a meaning are those under which the library does what the property of the function
says; `C04`, `C06`, `C13`, `C24` and others show what happens outside of them, and a program that calls `grad`,
`release`, `all` or `stride` has no meaning here (`backward` is the subject of `C58`). -/
theorem C55_program_partial {p : List (Command F)} {P : World F → Prop} (hp : Means p World.start P) :
    ∃ vs h w, perform p [] Heap.empty = .ok vs h ∧ P w ∧ Represents h vs w := by
  obtain ⟨vs, h, w, env, loc, e, hw, S, rfl⟩ := mirrors_start.program p hp
  exact ⟨_, h, w, e, hw, S.represents⟩

/-- **C55**, what can be seen at the end: the text of every variable is the listing of its elements in the abstract state. -/
theorem C55_text_partial {p : List (Command F)} {P : World F → Prop} (hp : Means p World.start P) :
    ∃ vs h w, perform p [] Heap.empty = .ok vs h ∧ P w ∧
      ∀ v r dt f, Carries w v r dt f → ∃ t, vs[v]? = some t ∧ Tensor.toString t h = .ok (listing r.sizes f) h := by
  obtain ⟨vs, h, w, env, loc, e, hw, S, rfl⟩ := mirrors_start.program p hp
  refine ⟨_, h, w, e, hw, fun v r dt f hc => ?_⟩
  obtain ⟨o, i, H⟩ := S.get hc
  exact ⟨env o, getElem?_map' H.var, toString_ok H.denotes (addressable H.good.1)⟩

/-! ### A program -/

/-- `a = zeros({2, 3}, i32); b = ones({2}, i32); c = a.transpose(0, 1); d = c["1"]; d += b; e = a.sum();` -/
def exProgram : List (Command Int) :=
  [.call (.zeros [2, 3] .i32), .call (.ones [2] .i32), .call (.transpose 0 0 1), .call (.slice 2 ['1']), .call (.addAssign 3 1),
    .call (.sum 0)]

/-- The shape, the places and the elements of the matrix after the program. -/
def exMatrix : Ref := ⟨0, [2, 3], rank [2, 3], false⟩
def exElems (idx : List Nat) : Val Int := .i (if idx.getD 1 0 = 1 then 1 else 0)

theorem exSpells1 : Spells [.index 1] ['1'] :=
  .one (.index ⟨[], ['1'], [], by simp [Blank], ⟨['1'], by simp, by simp, .inl ⟨rfl, rfl⟩⟩, by simp [Blank], rfl⟩)

/-- `d` is a view of a view: adding to it changes the second column of `a`, whose elements then add up to 2. -/
theorem exProgram_means : Means exProgram World.start fun w =>
    Carries w 0 exMatrix .i32 exElems ∧ ∃ r, r.sizes = [] ∧ Carries w 4 r .i64 fun _ => .i 2 := by
  refine ⟨_, .zeros (by unfold Modest; decide), ?_⟩
  rintro _ rfl
  refine ⟨_, .ones (by unfold Modest; decide), ?_⟩
  rintro _ rfl
  refine ⟨_, .transpose (r := exMatrix) (dt := .i32) (f := fun _ => .i 0) ⟨0, _, rfl, rfl, rfl, forall_inBox (by decide)⟩
    (by decide) (by decide) (by decide) (by decide), ?_⟩
  rintro _ rfl
  refine ⟨_, .slice (r := ⟨0, [3, 2], fun idx => rank [2, 3] (swapped idx 0 1), false⟩) (dt := .i32) (f := fun _ => .i 0)
    ⟨2, _, rfl, rfl, rfl, forall_inBox (by decide)⟩ (by decide) exSpells1 (by simp [Selects]) (by simp [AxisSpec.Is64, IsI64])
    (by simp [ShortSteps]), ?_⟩
  rintro _ rfl
  refine ⟨_, .addAssign (a := ⟨0, [2], fun idx => rank [2, 3] (swapped (selIndex [.index 1] [3, 2] idx) 0 1), false⟩) (da := .i32)
    (b := ⟨1, [2], rank [2], false⟩) (db := .i32) (fa := fun _ => .i 0) (fb := fun _ => .i 1) (s := [2]) (g := fun _ => .i 1)
    ⟨3, _, rfl, rfl, rfl, forall_inBox (by decide)⟩ ⟨1, _, rfl, rfl, rfl, forall_inBox (by decide)⟩ rfl (by decide) rfl
    (by
      have : ∀ i ∈ rowMajor [2], ∀ j ∈ rowMajor [2], rank [2, 3] (swapped (selIndex [.index 1] [3, 2] i) 0 1) =
        rank [2, 3] (swapped (selIndex [.index 1] [3, 2] j) 0 1) → i = j := by decide
      exact fun i j hi hj => this i (mem_rowMajor.2 hi) j (mem_rowMajor.2 hj))
    (by decide) (by simp [stretched, stretchRev]) (forall_inBox (by decide)), ?_⟩
  rintro _ ⟨vals, h1, h2, h3, rfl⟩
  have hv : vals = [.i 0, .i 1, .i 0, .i 0, .i 1, .i 0] := by
    refine List.ext_getElem? fun q => ?_
    by_cases hq : q < 6
    · have e1 := h2 [0] (by decide)
      have e4 := h2 [1] (by decide)
      have other : ∀ q, q ≠ 1 → q ≠ 4 → vals[q]? = ((rowMajor [2, 3]).map fun _ => (zeroElem .i32 : Val Int))[q]? := fun q n1 n4 => by
        refine h3 q fun idx hb he => ?_
        have : ∀ idx ∈ rowMajor [2], rank [2, 3] (swapped (selIndex [.index 1] [3, 2] idx) 0 1) = 1 ∨
          rank [2, 3] (swapped (selIndex [.index 1] [3, 2] idx) 0 1) = 4 := by decide
        rcases this idx (mem_rowMajor.2 hb) with h | h
        · exact n1 (he.symm.trans h)
        · exact n4 (he.symm.trans h)
      match q, hq with
      | 0, _ => exact other 0 (by decide) (by decide)
      | 1, _ => exact e1
      | 2, _ => exact other 2 (by decide) (by decide)
      | 3, _ => exact other 3 (by decide) (by decide)
      | 4, _ => exact e4
      | 5, _ => exact other 5 (by decide) (by decide)
    · rw [List.getElem?_eq_none (by rw [h1]; exact Nat.le_of_not_lt hq), List.getElem?_eq_none (Nat.le_of_not_lt hq)]
  subst hv
  refine ⟨_, .sum (r := exMatrix) (dt := .i32) (f := exElems) (x := .i 2) ⟨0, _, rfl, rfl, rfl, forall_inBox (by decide)⟩
    (by unfold Modest; decide) (by decide), ?_⟩
  rintro _ rfl
  exact ⟨⟨0, _, rfl, rfl, rfl, forall_inBox (by decide)⟩, ⟨2, [], rank [], false⟩, rfl, 4, _, rfl, rfl, rfl, forall_inBox (by decide)⟩

example : ∃ vs h w, perform exProgram [] Heap.empty = .ok vs h ∧
    (Carries w 0 exMatrix .i32 exElems ∧ ∃ r, r.sizes = [] ∧ Carries w 4 r .i64 fun _ => .i 2) ∧ Represents h vs w :=
  C55_program_partial exProgram_means

/-- The same program, run in the model. -/
example : result ((do
    let vs ← perform exProgram []
    let a ← Tensor.toString (vs.getD 0 0)
    let s ← Tensor.toString (vs.getD 4 0)
    return (String.ofList a, String.ofList s) : M Int (String × String)) Heap.empty) = some ("[[0, 1, 0], [0, 1, 0]]", "2") := by
  decide +kernel

/-- `a = ones({3}, i32); b = a["1:"]; c = a[":-1"]; b += c;`: the operands of `+=` overlap. -/
def exShared : List (Command Int) :=
  [.call (.ones [3] .i32), .call (.slice 0 "1:".toList), .call (.slice 0 ":-1".toList), .call (.addAssign 1 2)]

theorem exSpellsTail : Spells [.range (some (1 : Nat)) none none] "1:".toList :=
  .one (.range2 (p := ['1']) (q := [])
    ⟨[], ['1'], [], by simp [Blank], ⟨['1'], by decide, by decide, Or.inl ⟨rfl, by decide⟩⟩, by simp [Blank], rfl⟩ (by simp [Optional, Blank]))

theorem exSpellsFront : Spells [.range none (some (-1 : Int)) none] ":-1".toList :=
  .one (.range2 (p := []) (q := ['-', '1']) (by simp [Optional, Blank])
    ⟨[], ['-', '1'], [], by simp [Blank], ⟨['1'], by decide, by decide, Or.inr (Or.inr ⟨rfl, by decide⟩)⟩, by simp [Blank], rfl⟩)

/-- Afterwards `a` holds its running sums. -/
theorem exShared_means : Means exShared World.start fun w =>
    Carries w 0 ⟨0, [3], rank [3], false⟩ .i32 fun idx => .i (idx.getD 0 0 + 1) := by
  refine ⟨_, .ones (by unfold Modest; decide), ?_⟩
  rintro _ rfl
  refine ⟨_, .slice (r := ⟨0, [3], rank [3], false⟩) (dt := .i32) (f := fun _ => .i 1) ⟨0, _, rfl, rfl, rfl, forall_inBox (by decide)⟩
    (by decide) exSpellsTail (by simp [Selects]) (by simp [AxisSpec.Is64, IsI64]) (by simp [ShortSteps]), ?_⟩
  rintro _ rfl
  refine ⟨_, .slice (r := ⟨0, [3], rank [3], false⟩) (dt := .i32) (f := fun _ => .i 1) ⟨0, _, rfl, rfl, rfl, forall_inBox (by decide)⟩
    (by decide) exSpellsFront (by simp [Selects]) (by simp [AxisSpec.Is64, IsI64]) (by simp [ShortSteps]), ?_⟩
  rintro _ rfl
  refine ⟨_, .addShared (a := ⟨0, [2], fun idx => rank [3] (selIndex [.range (some (1 : Nat)) none none] [3] idx), false⟩) (dt := .i32)
    (b := ⟨0, [2], fun idx => rank [3] (selIndex [.range none (some (-1 : Int)) none] [3] idx), false⟩) (fa := fun _ => .i 1) (fb := fun _ => .i 1)
    (m := fun n => if n = 2 then .i 3 else if n = 1 then .i 2 else [.i 1, .i 1, .i 1].getD n (.i 0))
    ⟨1, _, rfl, rfl, rfl, forall_inBox (by decide)⟩ ⟨2, _, rfl, rfl, rfl, forall_inBox (by decide)⟩ rfl rfl rfl ?_, ?_⟩
  · show addEach _ _ _ _ _ _ [[0], [1]] _ = _
    unfold addEach
    rw [if_pos (by unfold Meets; decide)]
    show addEach _ _ _ _ _ _ [[1]] _ = _
    unfold addEach
    rw [if_pos (by unfold Meets; decide)]
    rfl
  rintro _ ⟨vals, h1, h2, h3, rfl⟩
  have e1 : vals[1]? = some (.i 2) := h2 [0] (by decide)
  have e2 : vals[2]? = some (.i 3) := h2 [1] (by decide)
  have e0 : vals[0]? = some (.i 1) := h3 0 fun idx hb he => by
    have : ∀ idx ∈ rowMajor [2], rank [3] (selIndex [.range (some (1 : Nat)) none none] [3] idx) ≠ 0 := by decide
    exact this idx (mem_rowMajor.2 hb) he
  refine ⟨0, vals, rfl, rfl, rfl, fun idx hi => ?_⟩
  match idx, hi with
  | [0], _ => exact e0
  | [1], _ => exact e1
  | [2], _ => exact e2
  | [n + 3], hi => exact absurd hi.1 (by omega)

example : ∃ vs h w, perform exShared [] Heap.empty = .ok vs h ∧
    (Carries w 0 ⟨0, [3], rank [3], false⟩ .i32 fun idx => .i (idx.getD 0 0 + 1)) ∧ Represents h vs w :=
  C55_program_partial exShared_means

/-- `x = from_blob({1, -3, 2}); x.requires_grad(true); y = x.abs(); m = y.max();` with gradients. -/
def exTracked : List (Command Int) :=
  [.call (.fromBlob [.f 1, .f (-3), .f 2] [3] .f32), .call (.setRequiresGrad 0 true), .call (.abs 0), .call (.max 1)]

/-- The maximum is 3, it is not the first element, and `m` requires grad. -/
theorem exTracked_means : Means exTracked World.start fun w => ∃ r, r.sizes = [] ∧ r.grad = true ∧ Carries w 2 r .f32 fun _ => .f 3 := by
  let f : List Nat → Val Int := fun idx => .f ([1, -3, 2].getD (idx.getD 0 0) 0)
  let g : List Nat → Val Int := fun idx => .f ([1, 3, 2].getD (idx.getD 0 0) 0)
  refine ⟨_, .fromBlob (f := f) (by unfold Modest; decide) (by decide) (by decide) (forall_inBox (by decide)), ?_⟩
  rintro _ rfl
  refine ⟨_, .requiresGrad (r := ⟨0, [3], rank [3], false⟩) (dt := .f32) (f := f) ⟨0, _, rfl, rfl, rfl, forall_inBox (by decide)⟩
    (by decide), ?_⟩
  rintro _ ⟨o, ho, rfl⟩
  cases (Option.some.inj ho : 0 = o)
  refine ⟨_, .abs (r := ⟨0, [3], rank [3], true⟩) (dt := .f32) (f := f) (g := g) ⟨0, _, rfl, rfl, rfl, forall_inBox (by decide)⟩
    (by unfold Modest; decide) (forall_inBox (by decide)) (by
      have : ∀ i ∈ rowMajor [3], ∀ j ∈ rowMajor [3], rank [3] i = rank [3] j → i = j := by decide
      exact fun i j hi hj => this i (mem_rowMajor.2 hi) j (mem_rowMajor.2 hj)) (forall_inBox (by decide)), ?_⟩
  rintro _ ⟨vals, _, hv, rfl⟩
  refine ⟨_, .max (r := ⟨1, [3], rank [3], true⟩) (dt := .f32) (f := g) ⟨1, vals, rfl, rfl, rfl, hv⟩ (by unfold Modest; decide)
    (by decide) (by decide) ⟨?_, ?_⟩ (fun _ => .inr ⟨[1], by decide, by decide⟩), ?_⟩
  · have : ∀ i ∈ rowMajor [3], ∀ j ∈ rowMajor [3], elemCompare .ge .f32 .f32 (g i) (g j) = true ∨
      elemCompare .ge .f32 .f32 (g j) (g i) = true := by decide
    exact fun i j hi hj => this i (mem_rowMajor.2 hi) j (mem_rowMajor.2 hj)
  · have : ∀ i ∈ rowMajor [3], ∀ j ∈ rowMajor [3], ∀ k ∈ rowMajor [3], elemCompare .ge .f32 .f32 (g i) (g j) = true →
      elemCompare .ge .f32 .f32 (g j) (g k) = true → elemCompare .ge .f32 .f32 (g i) (g k) = true := by decide
    exact fun i j k hi hj hk => this i (mem_rowMajor.2 hi) j (mem_rowMajor.2 hj) k (mem_rowMajor.2 hk)
  · rintro _ ⟨a, ha, hm, rfl⟩
    refine ⟨⟨2, [], rank [], true⟩, rfl, rfl, 2, _, rfl, rfl, rfl, fun idx hb => ?_⟩
    have : ∀ i ∈ rowMajor [3], elemCompare .ge .f32 .f32 (g i) (g [1]) = true → g i = .f 3 := by decide
    rw [← this a (mem_rowMajor.2 ha) (hm [1] (by decide))]
    cases idx with
    | nil => rfl
    | cons => exact absurd hb (by simp [InBox])

example : ∃ vs h w, perform exTracked [] Heap.empty = .ok vs h ∧
    (∃ r, r.sizes = [] ∧ r.grad = true ∧ Carries w 2 r .f32 fun _ => .f 3) ∧ Represents h vs w :=
  C55_program_partial exTracked_means

end INNC
