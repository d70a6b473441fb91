import Verif.Lemmas.FeedCalls
import Verif.Lemmas.FeedViews
import Verif.Lemmas.FeedLoop
import Verif.Props.Flags
import Verif.Props.Backward
/-
Programs that compute gradients keep the graph in good order.
-/
namespace INNC
open Spec Tensor
variable {F : Type} [FOps F] {h : Heap F}

omit [FOps F] in
theorem opOf_at {x : Nat} {f : GradFn} (hf : opOf h x = some f) : ∃ i, h.ts[x]? = some i ∧ i.gradFn = some f := by
  unfold Spec.opOf at hf
  cases e : h.ts[x]? with
  | none => rw [e] at hf; simp at hf
  | some i => rw [e] at hf; exact ⟨i, rfl, hf⟩

omit [FOps F] in
theorem Trains.ordered {h' : Heap F} (hk : Trains h h') (ho : Ordered h) : Ordered h' := by
  refine ⟨hk.slots ho.seated, hk.flags ho.flags, fun x f' hf' => ?_, fun x i' hi' hr => ?_⟩
  · obtain ⟨i', hi', hf'⟩ := opOf_at hf'
    cases hx : h.ts[x]? with
    | none => rw [(hk.new x i' hi' hx).1] at hf'; cases hf'
    | some i =>
      obtain ⟨i2, e1, _, e3⟩ := hk.old x i hx
      rw [hi'] at e1
      obtain rfl := Option.some.inj e1
      rw [hf'] at e3
      cases hf : i.gradFn with
      | none => rw [hf] at e3; simp at e3
      | some f =>
        rw [hf] at e3
        simp only [Option.map_some, Option.some.injEq, Prod.mk.injEq] at e3
        exact ((ho.nodes x f (by unfold Spec.opOf; rw [hx]; exact hf)).retains hk.ret).congr e3.1 e3.2
  · cases hx : h.ts[x]? with
    | none => rw [(hk.new x i' hi' hx).2] at hr; cases hr
    | some i =>
      obtain ⟨i2, e1, e2, _⟩ := hk.old x i hx
      rw [hi'] at e1
      obtain rfl := Option.some.inj e1
      exact (ho.reqs x i hx (by rw [← e2]; exact hr)).retains hk.ret

/-- What holds of a program that computes gradients. -/
structure Learns (h : Heap F) (vs : List Nat) : Prop where
  history : History h
  ordered : Ordered h
  vars : ∀ t ∈ vs, Var h t

omit [FOps F] in
theorem Stays.of_some {α : Type} {x : M F α} {f : α → Option Nat} (hx : Stays (x h)) : Stays ((do let a ← x; pure (f a) : M F (Option Nat)) h) := by
  rw [M.bind_def]
  cases e : x h with
  | ok a h' => rw [e] at hx; exact hx
  | throw ex h' => rw [e] at hx; exact hx
  | ub u => trivial

theorem learns_call {vs : List Nat} (hl : Learns h vs) {c : Call F} (hp : Permitted h c) (hin : ∀ a ∈ args c, a ∈ vs) :
    Mem h (c.run h) (fun o h' => ∀ t, o = some t → Var h' t) ∧ Stays (c.run h) := by
  have hval := valid_history hl.history
  have hv : ∀ a ∈ args c, Var h a := fun a ha => hl.vars a (hin a ha)
  have hf : KeepsAt (fun _ h' => FlagOK h') c.run h := by
    have := run_flagOK hl.ordered.flags c
    unfold KeepsAt
    cases e : c.run h with
    | ok r h' => rw [e] at this; exact this.1
    | throw ex h' => rw [e] at this; exact this
    | ub u => trivial
  have plain : Steady c → Allowed h c → Mem h (c.run h) (fun o h' => ∀ t, o = some t → Var h' t) ∧ Stays (c.run h) := fun hs ha =>
    ⟨mem_call hval ha hv, by have := orders_plain hval hl.ordered hs ha hv hf; unfold Orders at this; unfold Stays; exact this⟩
  cases c with
  | backward t =>
    obtain ⟨i, hi, _⟩ := hv t (by simp [args])
    have := train_backward (graph_history hl.history) hl.ordered ⟨i, hi⟩ hp
    show Mem h (none' (backward t) h) _ ∧ Stays (none' (backward t) h)
    unfold none'
    rw [M.bind_def]
    cases e : backward t h with
    | ok r h' => rw [e] at this; exact ⟨⟨this.1.ret, fun t ht => by cases ht⟩, this.1.ordered hl.ordered⟩
    | throw ex h' => rw [e] at this; exact ⟨this.ret, this.ordered hl.ordered⟩
    | ub u => rw [e] at this; exact ⟨this, trivial⟩
  | grad t =>
    obtain ⟨i, hi, _⟩ := hv t (by simp [args])
    have e : (Call.grad t : Call F).run h = .ok i.grad h := by
      show gradOf t h = _
      unfold gradOf
      rw [M.bind_ok (getT_ok hi)]; rfl
    rw [e]
    refine ⟨⟨Retains.refl h, fun g hg => ?_⟩, hl.ordered⟩
    obtain ⟨j, hj, _⟩ := hl.ordered.seated t g i hi hg
    obtain ⟨s, cs, h1, h2⟩ := hp i g j hi hg hj
    have hfed : Fed h t := ⟨i, g, j, s, cs, hi, hg, hj, h1, h2⟩
    obtain ⟨g', _, e1, _, _, _, _, _, e2⟩ := hfed.sits hl.ordered.seated hi
    rw [hg] at e1
    obtain rfl := Option.some.inj e1
    exact e2
  | slice t s => exact ⟨mem_call hval hp.1 hv, Stays.of_some (stays_slice hval hl.ordered (hv t (by simp [args])) hp.2)⟩
  | transpose t a b => exact ⟨mem_call hval hp.1 hv, Stays.of_some (stays_transpose hval hl.ordered (hv t (by simp [args])) hp.2)⟩
  | reshape t s =>
    have hvt := hv t (by simp [args])
    obtain ⟨i, hi, _⟩ := id hvt
    obtain ⟨h1, h2, h3, h4⟩ := hp.1 i hi
    exact ⟨mem_call hval hp.1 hv, Stays.of_some (stays_reshape hval hl.ordered hvt hp.2 hi h1 h2 h3 h4)⟩
  | reshapeAs t u =>
    have hvt := hv t (by simp [args])
    obtain ⟨i, hi, _⟩ := id hvt
    obtain ⟨h1, h2, h3⟩ := hp.1 i hi
    exact ⟨mem_call hval hp.1 hv, Stays.of_some (stays_reshapeAs hval hl.ordered hvt hp.2 (hv u (by simp [args])) hi h1 h2 h3)⟩
  | empty => exact absurd hp (by simp [Permitted, Allowed])
  | release => exact absurd hp (by simp [Permitted, Allowed])
  | _ => exact plain trivial hp

theorem trained_learns {vs : List Nat} (ht : Trained h vs) : Learns h vs := by
  induction ht with
  | start =>
    exact ⟨.start, ⟨fun x g i hi => by simp [Heap.empty] at hi, fun x i hi => by simp [Heap.empty] at hi,
      fun x f hf => by simp [Spec.opOf, Heap.empty] at hf, fun x i hi => by simp [Heap.empty] at hi⟩, by simp⟩
  | @returned h h' vs c o _ hp hin e ih =>
    obtain ⟨h1, h2⟩ := learns_call ih hp hin
    rw [e] at h1 h2
    refine ⟨.returned ih.history e, h2, fun t ht => ?_⟩
    rcases List.mem_append.1 ht with ht | ht
    · exact h1.2 t (by simpa using ht)
    · exact (ih.vars t ht).retains h1.1
  | @threw h h' vs c ex _ hp hin e ih =>
    obtain ⟨h1, h2⟩ := learns_call ih hp hin
    rw [e] at h1 h2
    exact ⟨.threw ih.history e, h2, fun t ht => (ih.vars t ht).retains h1⟩

end INNC
