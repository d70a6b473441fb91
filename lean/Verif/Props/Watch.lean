import Verif.Lemmas.Watch
import Verif.Lemmas.Examples
import Verif.Spec.Toy
/-
C75: looking at tensors does not change them.
-/
namespace INNC
open Spec Tensor
variable {F : Type} [FOps F]

/-- **C75**: whatever an observer has done in between - printing, comparing, converting, computing with the tensors of the program, adding to
totals of its own - the variables of the program hold what they hold when the program runs alone: the same tensors with the same elements,
flags and gradients. -/
theorem C75_watched {p : List (HStmt F)} {k : Heap F} {vs us : List (Option Nat)} {m : Created} (H : Watched p k vs us m) :
    ∃ vs0 h, execAll p [] Heap.empty = .ok vs0 h ∧ SameVars h vs0 k vs := by
  obtain ⟨W, h, vs0, B⟩ := watched_beside H
  refine ⟨vs0, h, B.alone, ?_⟩
  rw [B.names]
  exact B.inside.vars (existing_history B.past) B.held

/-- **C75**, the next statement of the program - any call, `backward()` among them - ends the way it does without the observer: it returns
iff it does alone, throws the exception that it throws alone, and has undefined behaviour iff it has alone. -/
theorem C75_next {p : List (HStmt F)} {k : Heap F} {vs us : List (Option Nat)} {m : Created} (H : Watched p k vs us m) (s : HStmt F) :
    ((∃ vs' k', s.exec vs k = .ok vs' k') ↔ ∃ vs' h', execAll (p ++ [s]) [] (Heap.empty : Heap F) = .ok vs' h') ∧
    (∀ x, (∃ k', s.exec vs k = .throw x k') ↔ ∃ h', execAll (p ++ [s]) [] (Heap.empty : Heap F) = .throw x h') ∧
    (∀ u, s.exec vs k = .ub u ↔ execAll (p ++ [s]) [] (Heap.empty : Heap F) = .ub u) := by
  obtain ⟨W, h, vs0, B⟩ := watched_beside H
  rw [execAll_snoc, INNC.M.bind_def, B.alone]
  show ((∃ vs' k', s.exec vs k = .ok vs' k') ↔ ∃ vs' h', s.exec vs0 h = .ok vs' h') ∧
    (∀ x, (∃ k', s.exec vs k = .throw x k') ↔ ∃ h', s.exec vs0 h = .throw x h') ∧ (∀ u, s.exec vs k = .ub u ↔ s.exec vs0 h = .ub u)
  rw [B.names]
  cases e : s.exec vs0 h with
  | ok vs1 h1 =>
    obtain ⟨W1, k1, he, _⟩ := exec_moved B.inside B.past B.held s e
    rw [he]
    simp
  | throw x h1 =>
    obtain ⟨k1, he⟩ := exec_throws B.inside B.past B.held s e
    rw [he]
    simp
  | ub u =>
    rw [exec_ub B.inside B.past B.held s e]
    simp

/-! ### Examples -/

/-- A turn of the program or of the observer. -/
inductive Turn (F : Type) where
  | main (s : HStmt F)
  | look (a : Nat)
  | side (s : HStmt F)

structure Bench (F : Type) where
  p : List (HStmt F)
  h : Heap F
  vs : List (Option Nat)
  us : List (Option Nat)
  T : List Nat
  D : List Nat

def looksB (h : Heap F) (T D : List Nat) (us : List (Option Nat)) : Call F → Bool
  | .addAssign u _ => match ptr us u with | some t => (match h.ts[t]? with | some i => D.contains i.data | none => false) | none => false
  | .slice u _ | .transpose u _ _ | .reshape u _ | .reshapeAs u _ => match ptr us u with
    | some t => (match h.ts[t]? with | some i => !i.requiresGrad || i.grad.isSome || T.contains t | none => false)
    | none => false
  | .setRequiresGrad u _ | .setRetainGrad u _ => match ptr us u with | some t => T.contains t | none => false
  | .backward _ | .zeroGrad _ | .release _ => false
  | _ => true

def looksOnlyB (b : Bench F) : HStmt F → Bool
  | .call c | .attempt c => looksB b.h b.T b.D b.us c
  | _ => true

def stepB (b : Bench F) : Turn F → Option (Bench F)
  | .main s => match s.exec b.vs b.h with
    | .ok vs' h' => some { b with p := b.p ++ [s], vs := vs', h := h' }
    | _ => none
  | .look a => some { b with us := b.us ++ [ptr b.vs a] }
  | .side s =>
    if looksOnlyB b s then
      match s.exec b.us b.h with
      | .ok us' h' => some { b with us := us', h := h', T := b.T ++ List.range' b.h.ts.length (h'.ts.length - b.h.ts.length),
                                    D := b.D ++ List.range' b.h.st.length (h'.st.length - b.h.st.length) }
      | _ => none
    else none

def Bench.ok (b : Bench F) : Prop := Watched b.p b.h b.vs b.us ⟨(· ∈ b.T), (· ∈ b.D)⟩

theorem looksB_sound {h : Heap F} {T D : List Nat} {us : List (Option Nat)} {c : Call F} (e : looksB h T D us c = true) :
    Looks h ⟨(· ∈ T), (· ∈ D)⟩ us c := by
  cases c <;> simp only [looksB, Looks] at e ⊢ <;> first | trivial | (cases e; done) | skip
  case addAssign u r =>
    intro t i hp hi
    rw [hp] at e
    simp only [hi] at e
    simpa using e
  case setRequiresGrad u b =>
    intro t hp
    rw [hp] at e
    simpa using e
  case setRetainGrad u b =>
    intro t hp
    rw [hp] at e
    simpa using e
  all_goals
    intro t i hp hi
    rw [hp] at e
    simp only [hi] at e
    simpa [Option.isSome_iff_ne_none, or_assoc] using e

theorem stepB_sound {b b' : Bench F} (hb : b.ok) (t : Turn F) (e : stepB b t = some b') : b'.ok := by
  unfold stepB at e
  cases t with
  | main s =>
    simp only at e
    cases hs : s.exec b.vs b.h with
    | ok vs' h' => rw [hs] at e; cases e; exact .main s hb hs
    | throw x h' => rw [hs] at e; cases e
    | ub u => rw [hs] at e; cases e
  | look a => cases e; exact .look a hb
  | side s =>
    simp only at e
    split at e
    · rename_i hl
      cases hs : s.exec b.us b.h with
      | throw x h' => rw [hs] at e; cases e
      | ub u => rw [hs] at e; cases e
      | ok us' h' =>
        rw [hs] at e
        cases e
        have hL : LooksOnly b.h ⟨(· ∈ b.T), (· ∈ b.D)⟩ b.us s := by
          cases s <;> first | trivial | exact looksB_sound hl
        have := Watched.side s hb hL hs
        unfold Bench.ok
        convert this using 1
        unfold Created.during
        congr 1 <;> funext x <;> simp only [List.mem_append, List.mem_range'_1, eq_iff_iff] <;> refine or_congr Iff.rfl ?_ <;> omega
    · cases e

def benchAll : List (Turn F) → Bench F → Option (Bench F)
  | [], b => some b
  | t :: l, b => (stepB b t).bind (benchAll l)

theorem benchAll_sound : ∀ (l : List (Turn F)) {b b' : Bench F}, b.ok → benchAll l b = some b' → b'.ok
  | [], b, b', hb, e => by cases e; exact hb
  | t :: l, b, b', hb, e => by
    unfold benchAll at e
    cases hs : stepB b t with
    | none => rw [hs] at e; cases e
    | some b1 => rw [hs] at e; exact benchAll_sound l (stepB_sound hb t hs) e

def bench0 : Bench F := ⟨[], Heap.empty, [], [], [], []⟩

theorem bench0_ok : (bench0 : Bench F).ok := by
  have := Watched.start (F := F)
  unfold Bench.ok bench0
  convert this using 2 <;> simp

/-- `x = [2, 3]`, `s = (x * x).sum()`, `s.backward()`, `g = x.grad()`; the observer keeps a total of the values of `s`, prints `x`, takes a
row of a detached copy of it, and computes `(x * s).sum()` for itself, before and after `backward()`. -/
def observed : List (Turn Int) :=
  [.side (.call (.fromBlob [.f 10] [] .f64)), .main (.call (.fromBlob [.f 2, .f 3] [2] .f32)), .main (.call (.setRequiresGrad 0 true)),
   .look 0, .side (.call (.detach 1)), .side (.call (.slice 2 "1".toList)), .side (.call (.toString 1)),
   .main (.call (.mul 0 0)), .main (.call (.sum 1)), .look 2, .side (.call (.mul 1 4)), .side (.call (.sum 5)), .side (.call (.addAssign 0 4)),
   .main (.call (.backward 2)), .main (.call (.grad 0)), .side (.attempt (.cat [1, 4] 0)), .side (.call (.cmp .lt 6 0))]

def benchSees (r : Option (Bench Int)) : Option (List (Option (List (Option (Val Int))))) :=
  r.map fun b => [(b.vs[3]?).join.bind fun t => (b.h.ts[t]?).bind fun i => (b.h.st[i.data]?).bind fun s => s.blob,
    (b.us[0]?).join.bind fun t => (b.h.ts[t]?).bind fun i => (b.h.st[i.data]?).bind fun s => s.blob]

/-- Non-vacuity: the whole of it is a run as `Watched` says; the gradient of `x` is `[4, 6]`, and the total is `10 + 13`. -/
example : ∃ b : Bench Int, benchAll observed bench0 = some b ∧ Watched b.p b.h b.vs b.us ⟨(· ∈ b.T), (· ∈ b.D)⟩ ∧
    benchSees (some b) = some [some [some (.f 4), some (.f 6)], some [some (.f 23)]] ∧ b.p.length = 6 := by
  have hc : benchSees (benchAll observed bench0) = some [some [some (.f 4), some (.f 6)], some [some (.f 23)]] ∧
      (benchAll observed bench0).map (·.p.length) = some 6 := by
    refine ⟨?_, ?_⟩ <;> decide +kernel
  cases e : benchAll observed bench0 with
  | none => rw [e] at hc; cases hc.2
  | some b =>
    rw [e] at hc
    exact ⟨b, rfl, benchAll_sound _ bench0_ok e, hc.1, by simpa using hc.2⟩

/-- Why `Looks` excludes views of tensors that require grad: `x.grad()` is empty if nobody has taken a view of `x`, and a tensor (of zeros) after
`x["1"]`. -/
theorem C75_view_noticed :
    outVars (execAll [.call (.fromBlob [.f 2, .f 3] [2] .f32), .call (.setRequiresGrad 0 true), .call (.grad 0)] [] (Heap.empty : Heap Int))
      = some [some 0, none] ∧
    outVars (execAll [.call (.fromBlob [.f 2, .f 3] [2] .f32), .call (.setRequiresGrad 0 true), .call (.slice 0 "1".toList), .call (.grad 0)] []
      (Heap.empty : Heap Int)) = some [some 0, some 1, some 2] := by
  refine ⟨?_, ?_⟩ <;> decide +kernel

end INNC
