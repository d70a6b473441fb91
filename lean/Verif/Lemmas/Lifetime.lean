import Verif.Lemmas.Cycles
import Verif.Lemmas.Local
/-
Ownership has no cycles; what a program cannot reach does not matter to it.
-/
namespace INNC
open Spec Tensor
variable {F : Type}

/-! ### No cycles -/

open Classical in
/-- The order in which objects are destroyed: results of recorded operations first, the younger ones before the older ones; then the
others, the older ones before the younger ones. -/
noncomputable def rank (h : Heap F) (x : Nat) : Nat :=
  if ∃ i, h.ts[x]? = some i ∧ i.gradFn.isSome then h.ts.length - x else h.ts.length + 1 + x

theorem rank_fn {h : Heap F} {x : Nat} {i : Impl} (hi : h.ts[x]? = some i) {f : GradFn} (hf : i.gradFn = some f) :
    rank h x = h.ts.length - x := by
  unfold rank
  rw [if_pos ⟨i, hi, by rw [hf]; rfl⟩]
theorem rank_leaf {h : Heap F} {x : Nat} (hn : NoFn h x) : rank h x = h.ts.length + 1 + x := by
  obtain ⟨i, hi, e⟩ := hn
  unfold rank
  rw [if_neg]
  rintro ⟨j, hj, hs⟩
  rw [hi] at hj
  obtain rfl := Option.some.inj hj
  rw [e] at hs
  cases hs
theorem rank_ge {h : Heap F} {x : Nat} : h.ts.length - x ≤ rank h x := by
  unfold rank
  split <;> omega

theorem rank_lt {h : Heap F} (hl : Levelled h) (hg : Graph h) {x y : Nat} (hh : Holds h x y) : rank h x < rank h y := by
  obtain ⟨i, hi, ho⟩ := hh
  have hx := getElem?_lt hi
  cases hf : i.gradFn with
  | none =>
    rcases ho with e | ⟨f, e, _⟩
    · have hs := hl x y ⟨i, hi, .inl e⟩
      rw [rank_leaf hs.2, rank_leaf ⟨i, hi, hf⟩]
      omega
    · rw [hf] at e; cases e
  | some f =>
    rw [rank_fn hi hf]
    rcases ho with e | ⟨f', e, hin | hk⟩
    · have hs := hl x y ⟨i, hi, .inl e⟩
      rw [rank_leaf hs.2]
      omega
    · have hyx := hg.older x y (by
        unfold Uses operands opOf
        rw [hi]
        simp only [Option.bind_some, e]
        exact hin)
      have := rank_ge (h := h) (x := y)
      omega
    · have hs := hl x y ⟨i, hi, .inr ⟨f', e, hk⟩⟩
      rw [rank_leaf hs.2]
      omega

theorem rank_trans {h : Heap F} (hl : Levelled h) (hg : Graph h) {x y : Nat} (hh : Relation.TransGen (Holds h) x y) :
    rank h x < rank h y := by
  induction hh with
  | single h1 => exact rank_lt hl hg h1
  | tail _ h1 ih => exact Nat.lt_trans ih (rank_lt hl hg h1)

theorem destroyed_of {h : Heap F} (hl : Levelled h) (hg : Graph h) (vars : List Nat) : ∀ (n x : Nat), rank h x = n → x < h.ts.length →
    ¬ Alive h vars x → Destroyed h vars x := by
  intro n
  induction n using Nat.strongRecOn with
  | _ n ih =>
    intro x hr hx ha
    refine .last hx (fun hv => ha (.var hv)) fun y hy => ?_
    refine ih (rank h y) (by rw [← hr]; exact rank_lt hl hg hy) y rfl (by obtain ⟨i, hi, _⟩ := hy; exact getElem?_lt hi) fun hay => ?_
    exact ha (.held hay hy)

theorem not_alive_of_destroyed {h : Heap F} {vars : List Nat} {x : Nat} (ha : Alive h vars x) : ¬ Destroyed h vars x := by
  induction ha with
  | var hv => intro hd; cases hd; contradiction
  | held _ hh ih =>
    intro hd
    cases hd with
    | last _ _ ho => exact ih (ho _ hh)

/-! ### What a program cannot reach -/

theorem Spec.Alive.mono {h : Heap F} {vs ws : List Nat} (hs : ∀ x ∈ vs, x ∈ ws) {x : Nat} (ha : Alive h vs x) : Alive h ws x := by
  induction ha with
  | var hv => exact .var (hs _ hv)
  | held _ hh ih => exact .held ih hh

theorem Spec.Collected.alive {h k : Heap F} {vars : List Nat} (hc : Collected vars h k) {x : Nat} : Alive k vars x ↔ Alive h vars x := by
  constructor
  · intro ha
    induction ha with
    | var hv => exact .var hv
    | held _ hh ih =>
      obtain ⟨i, hi, ho⟩ := hh
      exact .held ih ⟨i, by rw [← hc.ts _ ih]; exact hi, ho⟩
  · intro ha
    induction ha with
    | var hv => exact .var hv
    | held ha hh ih =>
      obtain ⟨i, hi, ho⟩ := hh
      exact .held ih ⟨i, by rw [hc.ts _ ha]; exact hi, ho⟩

theorem Spec.Collected.refl (vars : List Nat) (h : Heap F) : Collected vars h h := ⟨rfl, rfl, rfl, fun _ _ => rfl, fun _ _ => rfl⟩

theorem Spec.Collected.trans {h k l : Heap F} {vars : List Nat} (h1 : Collected vars h k) (h2 : Collected vars k l) : Collected vars h l := by
  refine ⟨h2.tensors.trans h1.tensors, h2.storages.trans h1.storages, h2.version.trans h1.version, fun x ha => ?_, fun d hd => ?_⟩
  · rw [h2.ts x (h1.alive.2 ha), h1.ts x ha]
  · rw [h2.st d ?_, h1.st d hd]
    obtain ⟨x, i, ha, hi, e⟩ := hd
    exact ⟨x, i, h1.alive.2 ha, by rw [h1.ts x ha]; exact hi, e⟩

theorem Spec.Collected.symm {h k : Heap F} {vars : List Nat} (h1 : Collected vars h k) : Collected vars k h := by
  refine ⟨h1.tensors.symm, h1.storages.symm, h1.version.symm, fun x ha => (h1.ts x (h1.alive.1 ha)).symm, fun d hd => (h1.st d ?_).symm⟩
  obtain ⟨x, i, ha, hi, e⟩ := hd
  exact ⟨x, i, h1.alive.1 ha, by rw [← h1.ts x (h1.alive.1 ha)]; exact hi, e⟩

theorem Spec.Collected.mono {h k : Heap F} {vs ws : List Nat} (hc : Collected ws h k) (hs : ∀ x ∈ vs, x ∈ ws) : Collected vs h k :=
  ⟨hc.tensors, hc.storages, hc.version, fun x ha => hc.ts x (ha.mono hs), fun d ⟨x, i, ha, hi⟩ => hc.st d ⟨x, i, ha.mono hs, hi⟩⟩

/-- The objects a program can reach, and those that do not exist yet. -/
def reachT (h : Heap F) (vars : List Nat) (x : Nat) : Prop := Alive h vars x ∨ h.ts.length ≤ x
def reachS (h : Heap F) (vars : List Nat) (d : Nat) : Prop := AliveData h vars d ∨ h.st.length ≤ d

theorem Spec.Collected.sim {h k : Heap F} {vars : List Nat} (hc : Collected vars h k) : Sim (reachT h vars) (reachS h vars) h k := by
  refine ⟨hc.tensors.symm, hc.storages.symm, hc.version.symm, fun x hx => ?_, fun d hd => ?_, fun _ h => .inr h, fun _ h => .inr h, fun x i hx hi => ?_⟩
  · rcases hx with ha | hge
    · exact (hc.ts x ha).symm
    · rw [List.getElem?_eq_none hge, List.getElem?_eq_none (by rw [hc.tensors]; exact hge)]
  · rcases hd with ha | hge
    · exact (hc.st d ha).symm
    · rw [List.getElem?_eq_none hge, List.getElem?_eq_none (by rw [hc.storages]; exact hge)]
  · rcases hx with ha | hge
    · exact ⟨.inl ⟨x, i, ha, hi, rfl⟩, fun y hy => .inl (.held ha ⟨i, hi, hy⟩)⟩
    · have := getElem?_lt hi; omega

theorem Sim.collected {S T : Nat → Prop} {h k : Heap F} (hs : Sim S T h k) {vars : List Nat} (hv : ∀ x ∈ vars, S x) : Collected vars h k := by
  have key : ∀ x, Alive h vars x → S x := fun x ha => by
    induction ha with
    | var h => exact hv _ h
    | held _ hh ih =>
      obtain ⟨i, hi, ho⟩ := hh
      exact (hs.own _ i ih hi).holds _ ho
  refine ⟨hs.tsl.symm, hs.stl.symm, hs.gver.symm, fun x ha => (hs.ts x (key x ha)).symm, ?_⟩
  rintro d ⟨x, i, ha, hi, rfl⟩
  exact (hs.st _ (hs.own x i (key x ha) hi).data).symm

variable [FOps F]

theorem call_both {h k : Heap F} {vars : List Nat} (hc : Collected vars h k) (c : Call F) (ha : ∀ a ∈ args c, a ∈ vars) :
    match c.run h, c.run k with
    | .ok t h', .ok t' k' => t = t' ∧ Collected (t.toList ++ vars) h' k'
    | .throw e h', .throw e' k' => e = e' ∧ Collected vars h' k'
    | .ub u, .ub u' => u = u'
    | _, _ => False := by
  have := loc_run (S := reachT h vars) (T := reachS h vars) c (fun a h => .inl (.var (ha a h))) h k hc.sim
  cases e : c.run h <;> cases e' : c.run k <;> rw [e, e'] at this <;> try exact this.elim
  · refine ⟨this.1, this.2.2.collected fun x hx => ?_⟩
    rcases List.mem_append.1 hx with h | h
    · exact this.2.1 x (by simpa using h)
    · exact .inl (.var h)
  · exact ⟨this.1, this.2.collected fun x hx => .inl (.var hx)⟩
  · exact this

theorem run_collected {k k' : Heap F} {vars vars' : List Nat} {p : List (Stmt F)} {seen : List Seen} (hr : CollectedRun k vars p seen k' vars') :
    ∀ {h : Heap F}, Collected vars h k → ∃ h', Run h vars p seen h' vars' ∧ Collected vars' h' k' := by
  induction hr with
  | done => exact fun hc => ⟨_, .done, hc⟩
  | collect h1 _ ih => exact fun hc => ih (hc.trans h1)
  | @returned k k1 k' vars c t p seen vars' ha e _ ih =>
    intro h hc
    have := call_both hc c ha
    rw [e] at this
    cases e' : c.run h <;> rw [e'] at this <;> try exact this.elim
    obtain ⟨rfl, hc'⟩ := this
    obtain ⟨h', hr, hc'⟩ := ih hc'
    exact ⟨h', .returned ha e' hr, hc'⟩
  | @threw k k1 k' vars c x p seen vars' ha e _ ih =>
    intro h hc
    have := call_both hc c ha
    rw [e] at this
    cases e' : c.run h <;> rw [e'] at this <;> try exact this.elim
    obtain ⟨rfl, hc'⟩ := this
    obtain ⟨h', hr, hc'⟩ := ih hc'
    exact ⟨h', .threw ha e' hr, hc'⟩
  | @undefined k vars c u p ha e =>
    intro h hc
    have := call_both hc c ha
    rw [e] at this
    cases e' : c.run h <;> rw [e'] at this <;> try exact this.elim
    obtain rfl := this
    exact ⟨h, .undefined ha e', hc⟩
  | drop _ ih =>
    intro h hc
    obtain ⟨h', hr, hc'⟩ := ih (hc.mono fun x => List.mem_of_mem_erase)
    exact ⟨h', .drop hr, hc'⟩

theorem Spec.Run.collected {h h' : Heap F} {vars vars' : List Nat} {p : List (Stmt F)} {seen : List Seen} (hr : Run h vars p seen h' vars') :
    CollectedRun h vars p seen h' vars' := by
  induction hr with
  | done => exact .done
  | returned ha e _ ih => exact .returned ha e ih
  | threw ha e _ ih => exact .threw ha e ih
  | undefined ha e => exact .undefined ha e
  | drop _ ih => exact .drop ih

theorem run_unique {h h1 h2 : Heap F} {vars v1 v2 : List Nat} {p : List (Stmt F)} {s1 s2 : List Seen} (r1 : Run h vars p s1 h1 v1) :
    Run h vars p s2 h2 v2 → s1 = s2 ∧ h1 = h2 ∧ v1 = v2 := by
  intro r2
  induction r1 generalizing s2 h2 v2 with
  | done => cases r2; exact ⟨rfl, rfl, rfl⟩
  | returned _ e _ ih =>
    cases r2 with
    | returned _ e' r' => rw [e] at e'; cases e'; obtain ⟨rfl, rfl, rfl⟩ := ih r'; exact ⟨rfl, rfl, rfl⟩
    | threw _ e' _ => rw [e] at e'; cases e'
    | undefined _ e' => rw [e] at e'; cases e'
  | threw _ e _ ih =>
    cases r2 with
    | returned _ e' _ => rw [e] at e'; cases e'
    | threw _ e' r' => rw [e] at e'; cases e'; obtain ⟨rfl, rfl, rfl⟩ := ih r'; exact ⟨rfl, rfl, rfl⟩
    | undefined _ e' => rw [e] at e'; cases e'
  | undefined _ e =>
    cases r2 with
    | returned _ e' _ => rw [e] at e'; cases e'
    | threw _ e' _ => rw [e] at e'; cases e'
    | undefined _ e' => rw [e] at e'; cases e'; exact ⟨rfl, rfl, rfl⟩
  | drop _ ih => cases r2 with | drop r' => exact ih r'

end INNC
