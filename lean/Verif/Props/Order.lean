import Verif.Lemmas.Order
import Verif.Props.Watch
import Verif.Lemmas.Examples
import Verif.Spec.Toy
/-
C76: the order of evaluation does not matter.
-/
namespace INNC
open Spec Tensor
section
variable {F : Type} [FOps F]

/-- **C76**: after a program `p`, two computations `A` and `B` on its variables, each of which changes only tensors of its own, may be done in
either order. Both orders return, the variables hold the same tensors, and whatever is done afterwards with the variables of both - `backward()`,
`+=`, anything - ends alike. -/
theorem C76_order {p : List (HStmt F)} {vs : List (Option Nat)} {h : Heap F} (e : execAll p [] Heap.empty = .ok vs h)
    {A B : List (HStmt F)} {hA hB : Heap F} {vA vB : List (Option Nat)} {mA mB : Created} (HA : Evaluates h vs A hA vA mA)
    (HB : Evaluates h vs B hB vB mB) :
    ∃ vB' hAB vA' hBA, execAll B vs hA = .ok vB' hAB ∧ execAll A vs hB = .ok vA' hBA ∧
      SameVars hAB (vA ++ vB') hBA (vA' ++ vB) ∧ ∀ q, EndAlike (execAll q (vA ++ vB') hAB) (execAll q (vA' ++ vB) hBA) := by
  obtain ⟨_, _, _, _, hh, hv⟩ := execAll_carried p (inside_empty (Naming.any Heap.empty) Heap.empty) .start (fun t ht => by cases ht) e
  have LA := evaluates_leaves hh hv HA
  have LB := evaluates_leaves hh hv HB
  have no : ∀ l : List (Option Nat), l.map (Option.map (Naming.any h).t) = l := fun l => by
    rw [show (Naming.any h).t = id from rfl, Option.map_id, List.map_id]
  obtain ⟨WA, hBA, eBA, MA, _⟩ := execAll_carried A (LB.spares.inside hh LB.past (fun _ _ => id) fun _ _ => id) hh hv LA.run
  obtain ⟨WB, hAB, eAB, MB, _⟩ := execAll_carried B (LA.spares.inside hh LA.past (fun _ _ => id) fun _ _ => id) hh hv LB.run
  rw [no] at eBA eAB
  have kAB := (execAll_history LA.past (held_mono hv LA.spares.tlen) eAB).1
  have kBA := (execAll_history LB.past (held_mono hv LB.spares.tlen) eBA).1
  have I := swap_inside hh LA.past LB.past kAB kBA LA.spares LB.spares MA MB
  obtain ⟨wA, wB⟩ := swap_names (h := h) MA MB LA.spares LB.spares
  have H : Held hAB (vA ++ vB.map (Option.map WB.t)) := fun t ht => by
    rcases List.mem_append.1 ht with h1 | h1
    · exact (LA.held t h1).trans_le (by have := MB.grow; have := LB.spares.tlen; omega)
    · obtain ⟨o, ho, e⟩ := List.mem_map.1 h1
      cases o with
      | none => cases e
      | some x => cases e; exact MB.inside.lt (LB.held x ho)
  have names : (vA ++ vB.map (Option.map WB.t)).map (Option.map (swapNaming h hA hB).t) = vA.map (Option.map WA.t) ++ vB := by
    rw [List.map_append, List.map_map]
    congr 1
    · exact map_held LA.held wA
    · conv_rhs => rw [← List.map_id vB]
      refine List.map_congr_left fun o ho => ?_
      cases o with
      | none => rfl
      | some t => exact congrArg some (wB t (LB.held t ho))
  refine ⟨_, hAB, _, hBA, eAB, eBA, ?_, fun q => ?_⟩
  · rw [← names]; exact I.vars (existing_history kAB) H
  · rw [← names]; exact I.endAlike kAB H q

/-- **C76**, a computation `B` whose results nobody uses: whatever follows - returning, throwing, undefined - ends as if `B` had not been there.
So if one of two computations fails, it fails in both orders. -/
theorem C76_unused {p : List (HStmt F)} {vs : List (Option Nat)} {h : Heap F} (e : execAll p [] Heap.empty = .ok vs h)
    {B : List (HStmt F)} {hB : Heap F} {vB : List (Option Nat)} {mB : Created} (HB : Evaluates h vs B hB vB mB) (q : List (HStmt F)) :
    EndAlike (execAll q vs h) (execAll q vs hB) := by
  obtain ⟨_, _, _, _, hh, hv⟩ := execAll_carried p (inside_empty (Naming.any Heap.empty) Heap.empty) .start (fun t ht => by cases ht) e
  have LB := evaluates_leaves hh hv HB
  have := (LB.spares.inside hh LB.past (fun _ _ => id) fun _ _ => id).endAlike hh hv q
  rwa [show (Naming.any h).t = id from rfl, Option.map_id, List.map_id] at this

/-! ### Examples -/

/-- One more statement. -/
def Bench.after (b : Bench F) (s : HStmt F) (vs' : List (Option Nat)) (h' : Heap F) : Bench F :=
  ⟨b.p ++ [s], h', vs', b.us, b.T ++ List.range' b.h.ts.length (h'.ts.length - b.h.ts.length),
    b.D ++ List.range' b.h.st.length (h'.st.length - b.h.st.length)⟩

/-- Checks an evaluation and carries it out, statement by statement. -/
def evalB : List (HStmt F) → Bench F → Option (Bench F)
  | [], b => some b
  | s :: A, b => if looksOnlyB { b with us := b.vs } s then
      match s.exec b.vs b.h with
      | .ok vs' h' => evalB A (b.after s vs' h')
      | _ => none
    else none

theorem evalB_sound {h0 : Heap F} {vs0 : List (Option Nat)} : ∀ (A : List (HStmt F)) {b b' : Bench F},
    Evaluates h0 vs0 b.p b.h b.vs ⟨(· ∈ b.T), (· ∈ b.D)⟩ → evalB A b = some b' →
    Evaluates h0 vs0 (b.p ++ A) b'.h b'.vs ⟨(· ∈ b'.T), (· ∈ b'.D)⟩
  | [], b, b', hb, e => by cases e; rw [List.append_nil]; exact hb
  | s :: A, b, b', hb, e => by
    unfold evalB at e
    split at e
    · rename_i hl
      cases hs : s.exec b.vs b.h with
      | throw x h' => rw [hs] at e; cases e
      | ub u => rw [hs] at e; cases e
      | ok vs' h' =>
        rw [hs] at e
        have hL : LooksOnly b.h ⟨(· ∈ b.T), (· ∈ b.D)⟩ b.vs s := by
          cases s <;> first | trivial | exact looksB_sound hl
        have := Evaluates.step s hb hL hs
        have hm : Created.during ⟨(· ∈ b.T), (· ∈ b.D)⟩ b.h h' = ⟨(· ∈ b.T ++ List.range' b.h.ts.length (h'.ts.length - b.h.ts.length)),
            (· ∈ b.D ++ List.range' b.h.st.length (h'.st.length - b.h.st.length))⟩ := by
          unfold Created.during
          congr 1 <;> funext x <;> simp only [List.mem_append, List.mem_range'_1, eq_iff_iff] <;> refine or_congr Iff.rfl ?_ <;> omega
        rw [hm] at this
        have := evalB_sound A (b := b.after s vs' h') this e
        rwa [show (b.after s vs' h').p = b.p ++ [s] from rfl, List.append_assoc] at this
    · cases e

theorem evalB_start {A : List (HStmt F)} {h0 : Heap F} {vs0 : List (Option Nat)} {b : Bench F}
    (e : evalB A ⟨[], h0, vs0, [], [], []⟩ = some b) : Evaluates h0 vs0 A b.h b.vs ⟨(· ∈ b.T), (· ∈ b.D)⟩ := by
  refine evalB_sound A (b := ⟨[], h0, vs0, [], [], []⟩) ?_ e
  have := Evaluates.start (F := F) (h0 := h0) (vs0 := vs0)
  convert this using 2 <;> simp

/-- `x = [2, 3]` requires grad. -/
def orderP : List (HStmt Int) := [.call (.fromBlob [.f 2, .f 3] [2] .f32), .call (.setRequiresGrad 0 true)]
/-- `(x * x).sum()`, with a total that is added to in place -/
def orderA : List (HStmt Int) := [.call (.mul 0 0), .call (.sum 1), .call (.fromBlob [.f 10] [] .f64), .call (.addAssign 3 2)]
/-- `(x + x).sum()`, and a row of `x.detach()` -/
def orderB : List (HStmt Int) := [.call (.add 0 0), .call (.sum 1), .call (.detach 0), .call (.slice 3 "1".toList)]
/-- The product of the two sums, `backward()`, `x.grad()`. -/
def orderQ : List (HStmt Int) := [.call (.mul 2 6), .call (.backward 9), .call (.grad 0)]

/-- The elements of the last variable. -/
def lastCells : Out (Heap Int) (List (Option Nat)) → Option (List (Option (Val Int)))
  | .ok vs h => vs.getLast?.join.bind fun t => (h.ts[t]?).bind fun i => (h.st[i.data]?).bind fun s => s.blob
  | _ => none

/-- Non-vacuity: both computations are evaluations in the sense of the theorem, so they can be swapped; the product of the two sums has the
gradient `2 x * 10 + 13 * 2 = [66, 86]`, computed in the order `A`, `B`. -/
example : ∃ vs h hA vA mA hB vB mB, execAll orderP [] Heap.empty = .ok vs h ∧ Evaluates h vs orderA hA vA mA ∧ Evaluates h vs orderB hB vB mB ∧
    (match execAll orderB vs hA with | .ok vB' hAB => lastCells (execAll orderQ (vA ++ vB') hAB) | _ => none) = some [some (.f 66), some (.f 86)] := by
  have key : (match execAll orderP [] Heap.empty with
      | .ok vs h => (match evalB orderA ⟨[], h, vs, [], [], []⟩, evalB orderB ⟨[], h, vs, [], [], []⟩ with
        | some a, some _ => (match execAll orderB vs a.h with | .ok vB' hAB => lastCells (execAll orderQ (a.vs ++ vB') hAB) | _ => none)
        | _, _ => none)
      | _ => none) = some [some (.f 66), some (.f 86)] := by decide +kernel
  cases e : execAll orderP [] Heap.empty with
  | throw x h => rw [e] at key; cases key
  | ub u => rw [e] at key; cases key
  | ok vs h =>
    rw [e] at key
    simp only at key
    cases ea : evalB orderA ⟨[], h, vs, [], [], []⟩ with
    | none => rw [ea] at key; cases key
    | some a =>
      cases eb : evalB orderB ⟨[], h, vs, [], [], []⟩ with
      | none => rw [ea, eb] at key; cases key
      | some b =>
        rw [ea, eb] at key
        exact ⟨vs, h, a.h, a.vs, _, b.h, b.vs, _, rfl, evalB_start ea, evalB_start eb, key⟩

end
end INNC
