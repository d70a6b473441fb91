import Verif.Lemmas.Control
import Verif.Lemmas.Examples
/-
C71: programs with loops, branches and caught exceptions do what they say.
-/
namespace INNC
open Spec Tensor
variable {F : Type} [FOps F] {σ : Type}

/-- **C71**: let `inv` be an invariant of a program on the abstract memory: at every control point the next action is defined there and
leads to control points and states that satisfy `inv` again. Then after every number of steps the program on the library has not
thrown and is at a control point and in a state that represents an abstract state that satisfies `inv`; unless a `backward()` it
called was undefined. -/
theorem C71_invariant {prog : σ → Action F σ} {s0 : σ} {inv : σ → World F → Prop} (hinv : ∀ s w, inv s w → Leads w inv (prog s))
    (h0 : inv s0 World.start) (n : Nat) :
    (∃ s vs h w, ticks prog s0 n Heap.empty = .ok (s, vs) h ∧ inv s w ∧ Represents h vs w) ∨ Stumbles prog s0 n := by
  rcases ticks_mirrors hinv h0 n with ⟨s, h, w, env, loc, e, hi, S⟩ | hb
  · exact .inl ⟨s, _, h, w, e, hi, S.represents⟩
  · exact .inr hb

/-- **C71**, without `backward()`: no step is undefined and no exception escapes, however long the program runs. -/
theorem C71_defined {prog : σ → Action F σ} (hb : NoBackward prog) {s0 : σ} {inv : σ → World F → Prop}
    (hinv : ∀ s w, inv s w → Leads w inv (prog s)) (h0 : inv s0 World.start) (n : Nat) :
    ∃ s vs h w, ticks prog s0 n Heap.empty = .ok (s, vs) h ∧ inv s w ∧ Represents h vs w := by
  rcases C71_invariant hinv h0 n with hr | ⟨m, p, h, v, next, u, _, _, e, _⟩
  · exact hr
  · exact absurd e (hb _ v next)

/-- **C71**, termination: if moreover every action decreases a measure on the abstract memory, the program on the library stops, in a
state that represents an abstract state that satisfies the invariant. -/
theorem C71_terminates {prog : σ → Action F σ} (hb : NoBackward prog) {s0 : σ} {inv : σ → World F → Prop} (size : σ → World F → Nat)
    (hinv : ∀ s w, inv s w → prog s ≠ .stop → Leads w (fun s' w' => inv s' w' ∧ size s' w' < size s w) (prog s))
    (h0 : inv s0 World.start) :
    ∃ n s vs h w, ticks prog s0 n Heap.empty = .ok (s, vs) h ∧ prog s = .stop ∧ inv s w ∧ Represents h vs w := by
  have key : ∀ k n s (h : Heap F) w env loc, ticks prog s0 n Heap.empty = .ok (s, w.vars.map env) h → inv s w → Mirrors h env loc w →
      size s w = k → ∃ n s vs h w, ticks prog s0 n Heap.empty = .ok (s, vs) h ∧ prog s = .stop ∧ inv s w ∧ Represents h vs w := by
    intro k
    induction k using Nat.strong_induction_on with
    | _ k ih =>
      intro n s h w env loc e hi S hk
      by_cases hs : prog s = .stop
      · exact ⟨n, s, _, h, w, e, hs, hi, S.represents⟩
      · rcases S.tick hs (hinv s w hi hs) with ⟨s', h', w', env', loc', e', ⟨hi', hlt⟩, S'⟩ | ⟨v, next, u, e1, _⟩
        · exact ih (size s' w') (hk ▸ hlt) (n + 1) s' h' w' env' loc' ((ticks_comp e).trans e') hi' S' rfl
        · exact absurd e1 (hb s v next)
  exact key _ 0 s0 Heap.empty World.start _ _ rfl h0 mirrors_start rfl

/-! ### A program -/

/-- The control points of
`x = zeros({2}, i32); one = ones({2}, i32); ten = full({2}, 10, i32); while (!(x >= ten).all()) x += one;
try { x.reshape({3}); never } catch (...) { }`; in the loop they carry the number of rounds. -/
inductive At where
  | start | one | ten | loop (k : Nat) | test (k : Nat) | add (k : Nat) | tries | never | done

def counting : At → Action Int At
  | .start => .command (.call (.zeros [2] .i32)) .one
  | .one => .command (.call (.ones [2] .i32)) .ten
  | .ten => .command (.call (.fullInt [2] 10 .i32)) (.loop 0)
  | .loop k => .command (.call (.cmp .ge 0 2)) (.test k)
  | .test k => .ask (.all (3 + k)) fun a => match a with | .yes true => .tries | _ => .add k
  | .add k => .command (.call (.addAssign 0 1)) (.loop (k + 1))
  | .tries => .attempt (.reshape 0 [3]) .never .done
  | .never => .command (.call (.zeros [2] .i32)) .never
  | .done => .stop

/-- The tensor on the block `b`. -/
def pairRef (b : Nat) : Ref := ⟨b, [2], rank [2], false⟩

/-- The abstract state in which `x` holds `k` twice. -/
def counted (k : Nat) (M : List (Cells Int)) (O : List Ref) (V : List Nat) : World Int :=
  ⟨⟨.i32, [.i k, .i k]⟩ :: ⟨.i32, [.i 1, .i 1]⟩ :: ⟨.i32, [.i 10, .i 10]⟩ :: M, pairRef 0 :: pairRef 1 :: pairRef 2 :: O, 0 :: 1 :: 2 :: V⟩

/-- The invariant. -/
def countInv : At → World Int → Prop
  | .start, w => w = World.start
  | .one, w => w = ⟨[⟨.i32, [.i 0, .i 0]⟩], [pairRef 0], [0]⟩
  | .ten, w => w = ⟨[⟨.i32, [.i 0, .i 0]⟩, ⟨.i32, [.i 1, .i 1]⟩], [pairRef 0, pairRef 1], [0, 1]⟩
  | .loop k, w => ∃ M O V, w = counted k M O V ∧ V.length = k ∧ k ≤ 10
  | .test k, w => ∃ M O V, w = (counted k M O V).fresh .i8 [2] (fun _ => .i (if 10 ≤ k then 1 else 0)) false ∧ V.length = k ∧ k ≤ 10
  | .add k, w => ∃ M O V, w = counted k M O V ∧ V.length = k + 1 ∧ k < 10
  | .tries, w | .done, w => ∃ M O V, w = counted 10 M O V
  | .never, _ => False

/-- What decreases. -/
def countSize : At → Nat
  | .start => 100
  | .one => 99
  | .ten => 98
  | .loop k => 3 * (11 - k) + 7
  | .test k => 3 * (11 - k) + 6
  | .add k => 3 * (11 - k) + 5
  | .tries => 1
  | .never => 0
  | .done => 0

theorem counted_x {k M O V} : Carries (counted k M O V) 0 (pairRef 0) .i32 fun _ => .i k := by
  refine ⟨0, _, rfl, rfl, rfl, fun idx hb => ?_⟩
  have := mem_rowMajor.2 hb
  change idx ∈ [[0], [1]] at this
  simp only [List.mem_cons, List.not_mem_nil, or_false] at this
  rcases this with rfl | rfl <;> rfl

theorem counted_one {k M O V} : Carries (counted k M O V) 1 (pairRef 1) .i32 fun _ => .i 1 :=
  ⟨1, _, rfl, rfl, rfl, forall_inBox (by decide)⟩

theorem counted_ten {k M O V} : Carries (counted k M O V) 2 (pairRef 2) .i32 fun _ => .i 10 :=
  ⟨2, _, rfl, rfl, rfl, forall_inBox (by decide)⟩

theorem counting_leads (s : At) (w : World Int) (hi : countInv s w) (hs : counting s ≠ .stop) :
    Leads w (fun s' w' => countInv s' w' ∧ countSize s' < countSize s) (counting s) := by
  cases s with
  | start =>
    obtain rfl : w = World.start := hi
    refine ⟨_, .zeros (by unfold Modest; decide), ?_⟩
    rintro _ rfl
    exact ⟨rfl, by decide⟩
  | one =>
    obtain rfl : w = _ := hi
    refine ⟨_, .ones (by unfold Modest; decide), ?_⟩
    rintro _ rfl
    exact ⟨rfl, by decide⟩
  | ten =>
    obtain rfl : w = _ := hi
    refine ⟨_, .fullInt (x := .i 10) (by unfold Modest; decide) (by unfold InRange; decide) rfl, ?_⟩
    rintro _ rfl
    exact ⟨⟨[], [], [], rfl, rfl, by omega⟩, by decide⟩
  | loop k =>
    obtain ⟨M, O, V, rfl, hV, hk⟩ := hi
    refine ⟨_, .cmp (s := [2]) counted_x counted_ten (by decide) (by simp [stretched, stretchRev, pairRef]) (by unfold Modest; decide), ?_⟩
    rintro _ rfl
    refine ⟨⟨M, O, V, ?_, hV, hk⟩, by simp [countSize]⟩
    have e : (fun idx => (.i (if elemCompare (F := Int) .ge .i32 .i32 ((fun _ => .i (k : Int)) (project (pairRef 0).sizes idx))
        ((fun _ => .i 10) (project (pairRef 2).sizes idx)) then 1 else 0) : Val Int)) = fun _ => .i (if 10 ≤ k then 1 else 0) := by
      funext _
      have H : ∀ k : Nat, k ≤ 10 → (if elemCompare (F := Int) .ge .i32 .i32 (.i k) (.i 10) then 1 else 0 : Int) = if 10 ≤ k then 1 else 0 := by
        decide
      exact congrArg _ (H k hk)
    rw [e]
  | test k =>
    obtain ⟨M, O, V, rfl, hV, hk⟩ := hi
    have C : Carries ((counted k M O V).fresh .i8 [2] (fun _ => .i (if 10 ≤ k then 1 else 0)) false) (3 + k)
        ⟨(counted k M O V).mem.length, [2], rank [2], false⟩ .i8 fun _ => .i (if 10 ≤ k then 1 else 0) := by
      have h3 : 3 + k = (counted k M O V).vars.length := by simp [counted, hV]; omega
      rw [h3]
      exact ⟨_, _, List.getElem?_concat_length, List.getElem?_concat_length, List.getElem?_concat_length,
        forall_inBox (by by_cases h : 10 ≤ k <;> simp only [h, if_true, if_false] <;> decide)⟩
    by_cases h : 10 ≤ k
    · refine ⟨.yes true, .all (f := fun _ => if 10 ≤ k then 1 else 0) C (fun _ _ => by simp [h]) (by simp [h]), ?_⟩
      obtain rfl : k = 10 := by omega
      exact ⟨⟨_, _, _, rfl⟩, by decide⟩
    · refine ⟨.yes false, .all (f := fun _ => if 10 ≤ k then 1 else 0) C (fun _ _ => by simp [h]) ?_, ?_⟩
      · simp only [h, if_false, Bool.false_eq_true, false_iff]
        exact fun hz => absurd (hz [0] (by decide)) (by decide)
      · exact ⟨⟨_, _, _, rfl, by simp [hV], by omega⟩, by simp [countSize]⟩
  | add k =>
    obtain ⟨M, O, V, rfl, hV, hk⟩ := hi
    refine ⟨_, .addAssign (s := [2]) (vals := [.i k, .i k]) (g := fun _ => .i (k + 1)) counted_x counted_one rfl (by decide) rfl ?_ (by decide)
      (by simp [stretched, stretchRev, pairRef]) ?_, ?_⟩
    · intro i j hi hj e
      exact rank_inj hi hj e
    · have H : ∀ k, k < 10 → ∀ idx ∈ rowMajor [2], accumAt (F := Int) .i32 .i32 [2] [2] [2] (fun _ => .i (k : Nat)) (fun _ => .i 1) idx =
          some (.i (k + 1)) := by decide
      exact fun idx hi => H k hk idx (mem_rowMajor.2 hi)
    · rintro _ ⟨vals, hl, hv, -, rfl⟩
      have h0 := hv [0] (by decide)
      have h1 := hv [1] (by decide)
      match vals, hl with
      | [a, b], _ =>
        obtain rfl : a = .i (k + 1) := Option.some.inj h0
        obtain rfl : b = .i (k + 1) := Option.some.inj h1
        exact ⟨⟨M, O, V, rfl, hV, by omega⟩, by simp [countSize]; omega⟩
  | tries =>
    obtain ⟨M, O, V, rfl⟩ := hi
    refine .inr ⟨.reshape (s := [3]) counted_x (by decide) (by decide) (by decide) (by decide), ⟨M, O, V, rfl⟩, by decide⟩
  | never => exact hi.elim
  | done => exact absurd rfl hs

/-- The program stops, and `x` then holds ten twice: the exception of the last `reshape` was caught. -/
example : ∃ n s vs h w, ticks counting .start n Heap.empty = .ok (s, vs) h ∧ counting s = .stop ∧
    Carries w 0 (pairRef 0) .i32 (fun _ => .i 10) ∧ Represents h vs w := by
  obtain ⟨n, s, vs, h, w, e, hs, hi, hr⟩ := C71_terminates (prog := counting) (s0 := .start)
    (by rintro (_ | _ | _ | _ | _ | _ | _ | _ | _) v next e <;> simp [counting] at e)
    (fun s _ => countSize s) counting_leads rfl
  refine ⟨n, s, vs, h, w, e, hs, ?_, hr⟩
  cases s <;> simp only [counting, reduceCtorEq] at hs
  obtain ⟨M, O, V, rfl⟩ := hi
  exact counted_x

/-- A state in which `x = {3, 1}` requires grad: its maximum is its first element, so `x.max()` throws, and `x.min()` returns. -/
def firstWins : World Int := ⟨[⟨.f32, [.f 3, .f 1]⟩], [⟨0, [2], rank [2], true⟩], [0]⟩

example : Refuses firstWins (.max 0) ∧ Refuses firstWins (.stride 0) ∧ ∃ Q, Rule firstWins (.min 0) Q := by
  have hc : Carries firstWins 0 ⟨0, [2], rank [2], true⟩ .f32 fun idx => .f (if idx = [0] then 3 else 1) :=
    ⟨0, _, rfl, rfl, rfl, forall_inBox (by decide)⟩
  refine ⟨.max hc (by unfold Modest; decide) (by decide) (by decide) rfl ?_, .stride hc, _,
    .min hc (by unfold Modest; decide) (by decide) (by decide) ⟨?_, ?_⟩ fun _ => .inr ⟨[1], by decide, by decide⟩⟩
  · rintro (h | ⟨b, hb, h⟩)
    · cases h
    · have : ∀ b ∈ rowMajor [2], elemCompare .ge .f32 .f32 (.f 3 : Val Int) (.f (if b = [0] then 3 else 1)) = true := by decide
      exact absurd (h.symm.trans (this b (mem_rowMajor.2 hb))) (by decide)
  · have : ∀ i ∈ rowMajor [2], ∀ j ∈ rowMajor [2], elemCompare .le .f32 .f32 (.f (if i = [0] then 3 else 1) : Val Int) (.f (if j = [0] then 3 else 1)) = true ∨
      elemCompare .le .f32 .f32 (.f (if j = [0] then 3 else 1) : Val Int) (.f (if i = [0] then 3 else 1)) = true := by decide
    exact fun i j hi hj => this i (mem_rowMajor.2 hi) j (mem_rowMajor.2 hj)
  · have : ∀ i ∈ rowMajor [2], ∀ j ∈ rowMajor [2], ∀ k ∈ rowMajor [2],
      elemCompare .le .f32 .f32 (.f (if i = [0] then 3 else 1) : Val Int) (.f (if j = [0] then 3 else 1)) = true →
      elemCompare .le .f32 .f32 (.f (if j = [0] then 3 else 1) : Val Int) (.f (if k = [0] then 3 else 1)) = true →
      elemCompare .le .f32 .f32 (.f (if i = [0] then 3 else 1) : Val Int) (.f (if k = [0] then 3 else 1)) = true := by decide
    exact fun i j k hi hj hk => this i (mem_rowMajor.2 hi) j (mem_rowMajor.2 hj) k (mem_rowMajor.2 hk)

end INNC
