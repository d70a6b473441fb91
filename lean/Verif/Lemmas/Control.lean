import Verif.Spec.Control
import Verif.Lemmas.ProgramRest
import Verif.Props.Slice
import Verif.Props.Reshape
import Verif.Props.Outcome
import Verif.Props.Cat
import Verif.Props.Init
import Verif.Props.Guards
import Verif.Props.Reduce
import Verif.Props.Accum
/-
Programs with control flow: every step simulates what the abstract memory says.
-/
namespace INNC
open Spec Tensor
variable {F : Type} [FOps F]

section
variable {h : Heap F} {env loc : Nat → Nat} {w : World F}

/-- A call that throws and only adds tensors keeps the simulation. -/
theorem Mirrors.thrown (S : Mirrors h env loc w) {c : Call F} {x : Exc} {h' : Heap F} (e : c.run h = .throw x h') (hx : Extends h h') :
    Mirrors h' env loc w := by
  have hk := ak_run c h
  rw [e] at hk
  exact S.quiet (S.hist.threw e) hk (fun y i hi => ⟨i, hx.ts _ _ hi, rfl, rfl, rfl, rfl⟩) fun d hd _ => by
    rw [hx.st _ _ (List.getElem?_eq_getElem hd), List.getElem?_eq_getElem hd]

theorem some_throw {x : M F Nat} {h h' : Heap F} {e : Exc} (hx : x h = .throw e h') : some' x h = .throw e h' := by
  unfold some'
  rw [M.bind_throw hx]

theorem none_throw {α : Type} {x : M F α} {h h' : Heap F} {e : Exc} (hx : x h = .throw e h') : none' x h = .throw e h' := by
  unfold none'
  rw [M.bind_throw hx]

/-- Every refusal is an exception that changes nothing. -/
theorem Mirrors.refuses (S : Mirrors h env loc w) {c : Call F} (hr : Refuses w c) :
    ∃ x h', (rename (fun v => (w.vars.map env).getD v 0) c).run h = .throw x h' ∧ Mirrors h' env loc w := by
  have here : ∀ {c' : Call F} {x : Exc}, c'.run h = .throw x h → ∃ x h', c'.run h = .throw x h' ∧ Mirrors h' env loc w :=
    fun e => ⟨_, h, e, S⟩
  cases hr with
  | @requiresGrad v r dt f hh hd =>
    obtain ⟨o, i, H⟩ := S.get hh
    simp only [rename]
    rw [H.handle]
    refine here (c' := .setRequiresGrad _ true) (none_throw ((C34_set h (env o) i H.impl).1 ?_))
    rw [H.dtype]
    cases dt <;> first | rfl | cases hd
  | @toType v r dt f to' hh hg hd =>
    obtain ⟨o, i, H⟩ := S.get hh
    simp only [rename]
    rw [H.handle]
    exact here (c' := .toType _ to') (some_throw (C26_grad_rejected H.impl (H.grad.trans hg) hd))
  | @addAssign x y r dt f hh hg =>
    obtain ⟨o, i, H⟩ := S.get hh
    simp only [rename]
    rw [H.handle]
    exact here (c' := .addAssign _ _) (none_throw (C32_requires_grad H.impl (H.grad.trans hg)))
  | @randn rnd s dt hd => exact here (c' := .randn rnd s dt) (some_throw ((C49_randn_partial rnd s h).2 dt hd))
  | @init tree hp hn => exact here (c' := .init tree) (C28_mismatch hp hn h)
  | @transpose v r dt f a b hh hb =>
    obtain ⟨o, i, H⟩ := S.get hh
    simp only [rename]
    rw [H.handle]
    exact here (c' := .transpose _ a b) (some_throw (C10_rejected H.denotes hb))
  | @stride v r dt f hh =>
    obtain ⟨o, i, H⟩ := S.get hh
    simp only [rename]
    rw [H.handle]
    refine here (c' := .stride _) (x := .runtime) (none_throw ?_)
    unfold Tensor.stride
    rw [M.bind_ok (getT_ok H.impl)]
    rfl
  | @max v r dt f hh hm h0 hz hg hf =>
    obtain ⟨o, i, H⟩ := S.get hh
    simp only [rename]
    rw [H.handle]
    obtain ⟨h', e, hx⟩ := H.refuses .ge hm h0 hz hg hf
    have hrun : (Call.max (env o) : Call F).run h = .throw .runtime h' := some_throw e
    exact ⟨_, h', hrun, S.thrown hrun hx⟩
  | @min v r dt f hh hm h0 hz hg hf =>
    obtain ⟨o, i, H⟩ := S.get hh
    simp only [rename]
    rw [H.handle]
    obtain ⟨h', e, hx⟩ := H.refuses .le hm h0 hz hg hf
    have hrun : (Call.min (env o) : Call F).run h = .throw .runtime h' := some_throw e
    exact ⟨_, h', hrun, S.thrown hrun hx⟩
  | @reshape v r dt f s hh h1 h2 h3 h4 =>
    obtain ⟨o, i, H⟩ := S.get hh
    simp only [rename]
    rw [H.handle]
    exact here (c' := .reshape _ _) (some_throw (C11_rejected_partial H.denotes h1 h2 h3 h4))
  | @unknowns v r dt f a b c hh =>
    obtain ⟨o, i, H⟩ := S.get hh
    simp only [rename]
    rw [H.handle]
    exact here (c' := .reshape _ _) (some_throw (C12_two_unknowns H.denotes a b c))
  | @indivisible v r dt f a b hh h1 h2 h3 h4 =>
    obtain ⟨o, i, H⟩ := S.get hh
    simp only [rename]
    rw [H.handle]
    exact here (c' := .reshape _ _) (some_throw (C12_indivisible H.denotes h1 h2 h3 h4))
  | @parts v r dt f str hh h1 h2 =>
    obtain ⟨o, i, H⟩ := S.get hh
    simp only [rename]
    rw [H.handle]
    exact here (c' := .slice _ _) (some_throw (C07_too_many_parts H.denotes h1 h2))
  | @index v r dt f pre n s p u k hh h0 hpre hsel h64 hst hn hp hk hu hor =>
    obtain ⟨o, i, H⟩ := S.get hh
    simp only [rename]
    rw [H.handle]
    have ht := H.tame h0
    refine here (c' := .slice _ _) (some_throw (C05_out_of_range H.denotes ⟨i, H.impl, ht, fun g hg => (valid_history S.hist).grad _ g i H.impl hg⟩ hpre hsel h64 (at_here H ?_) hn hp hk hu hor))
    exact stepsFit_of_short (by rw [H.sizes]; exact hst) H.reads.strides ht
  | @arith op l r a b da db fa fb hl hr hb h0 hm he =>
    obtain ⟨ol, il, Hl⟩ := S.get hl
    obtain ⟨or, ir, Hr⟩ := S.get hr
    have hbr : (rename (fun v => (w.vars.map env).getD v 0) (binary op l r) : Call F) = binary op (env ol) (env or) := by
      rw [← Hl.handle, ← Hr.handle]; cases op <;> rfl
    rw [hbr]
    rcases C60_arith op Hl.denotes Hr.denotes (modest_of_f64 hm _).bytes with ⟨g, hg, _⟩ | ⟨_, _, _, h', e, hx⟩ | ⟨x, hx, hme, _⟩
    · obtain ⟨x, hx, hn⟩ := (C60_rejected a.sizes b.sizes).2 ⟨h0, .inl hb⟩
      exact absurd (hg x hx).1 hn
    · have hrun : (binary op (env ol) (env or) : Call F).run h = .throw .runtime h' := by
        have := some_throw e
        cases op <;> exact this
      exact ⟨_, h', hrun, S.thrown hrun hx⟩
    · exact absurd ⟨hme, he x hx.1 hme⟩ hx.2.1
  | @cmp op l r a b da db fa fb hl hr hb h0 hm =>
    obtain ⟨ol, il, Hl⟩ := S.get hl
    obtain ⟨or, ir, Hr⟩ := S.get hr
    simp only [rename]
    rw [Hl.handle, Hr.handle]
    obtain ⟨x, hx, hn⟩ := (C60_rejected a.sizes b.sizes).2 ⟨h0, .inl hb⟩
    rcases C60_compare op Hl.denotes Hr.denotes (by have := hm.vol; omega) with ⟨hg, _⟩ | ⟨_, h', e, hx⟩
    · exact absurd (hg x hx) hn
    · have hrun : (Call.cmp op (env ol) (env or) : Call F).run h = .throw .runtime h' := some_throw e
      exact ⟨_, h', hrun, S.thrown hrun hx⟩
  | @catAxis v vs r dt f d hh hd =>
    obtain ⟨o, i, H⟩ := S.get hh
    simp only [rename, List.map_cons]
    rw [H.handle]
    exact here (c' := .cat _ d) (some_throw (C29_axis H.impl (by rw [H.sizes]; exact hd)))
  | @cat v vs r dt f d rs hh hrs hbad =>
    obtain ⟨o, i, H⟩ := S.get hh
    simp only [rename, List.map_cons]
    rw [H.handle]
    obtain ⟨is, h1, h2⟩ : ∃ is : List Impl, List.Forall₂ (fun t i => h.ts[t]? = some i) (vs.map fun v => (w.vars.map env).getD v 0) is ∧
        is.map (·.view.sizes) = rs.map (·.sizes) := by
      clear hbad
      induction hrs with
      | nil => exact ⟨[], .nil, rfl⟩
      | cons hx _ ih =>
        obtain ⟨dt, f, hx⟩ := hx
        obtain ⟨o, i, H⟩ := S.get hx
        obtain ⟨is, h1, h2⟩ := ih
        exact ⟨i :: is, .cons (by simp only [H.handle]; exact H.impl) h1, by simp [H.sizes, h2]⟩
    refine here (c' := .cat _ d) (some_throw (C29_mismatch H.impl h1 ?_))
    obtain ⟨x, hx, hb⟩ := hbad
    have : x.sizes ∈ is.map (·.view.sizes) := by rw [h2]; exact List.mem_map_of_mem hx
    obtain ⟨j, hj, e⟩ := List.mem_map.1 this
    refine ⟨j, hj, ?_⟩
    rw [H.sizes, e]
    exact hb

/-- Every question gets the answer that the abstract memory gives. -/
theorem Mirrors.answers (S : Mirrors h env loc w) {q : Question} {a : Answer} (ha : Answers w q a) :
    q.put (w.vars.map env) h = .ok a h := by
  cases ha with
  | text hh =>
    obtain ⟨o, i, H⟩ := S.get hh
    simp only [Question.put]
    rw [H.handle, M.bind_ok (toString_ok H.denotes (addressable H.good.1))]
    rfl
  | size hh =>
    obtain ⟨o, i, H⟩ := S.get hh
    simp only [Question.put]
    rw [H.handle, M.bind_ok (C56_answers H.denotes).1]
    rfl
  | type hh =>
    obtain ⟨o, i, H⟩ := S.get hh
    simp only [Question.put]
    rw [H.handle, M.bind_ok (C56_answers H.denotes).2.1]
    rfl
  | numel hh hv =>
    obtain ⟨o, i, H⟩ := S.get hh
    simp only [Question.put]
    rw [H.handle, M.bind_ok (C56_answers H.denotes).2.2.1, Nat.mod_eq_of_lt hv]
    rfl
  | requiresGrad hh =>
    obtain ⟨o, i, H⟩ := S.get hh
    simp only [Question.put]
    rw [H.handle, M.bind_ok (getT_ok H.impl), H.grad]
    rfl
  | @all v r b f hh h01 hb =>
    obtain ⟨o, i, H⟩ := S.get hh
    obtain ⟨b', e, hb'⟩ := C21_all_partial H.denotes h01
    simp only [Question.put]
    rw [H.handle, M.bind_ok e]
    have : b' = b := Bool.eq_iff_iff.2 (hb'.trans hb.symm)
    rw [this]
    rfl

/-- One step. -/
theorem Mirrors.tick {σ : Type} (S : Mirrors h env loc w) {prog : σ → Action F σ} {s : σ} {inv : σ → World F → Prop}
    (hs : prog s ≠ .stop) (hl : Leads w inv (prog s)) :
    (∃ s' h' w' env' loc', tick prog (s, w.vars.map env) h = .ok (s', w'.vars.map env') h' ∧ inv s' w' ∧ Mirrors h' env' loc' w') ∨
      ∃ v next u, prog s = .command (.attempt v) next ∧ Tensor.backward ((w.vars.map env).getD v 0) h = .ub u := by
  unfold Spec.tick
  simp only
  cases hp : prog s with
  | stop => exact absurd hp hs
  | command c next =>
    rw [hp] at hl
    rcases S.follows [c] hl with ⟨vs, h', w', env', loc', e, hi, S', rfl⟩ | ⟨a, v, b, vs, h', u, e1, e2, e3⟩
    · refine .inl ⟨next, h', w', env', loc', ?_, hi, S'⟩
      simp only
      rw [M.bind_ok e]
      rfl
    · refine .inr ⟨v, next, u, ?_, ?_⟩
      · cases a with
        | nil => simp only [List.nil_append, List.cons.injEq] at e1; rw [e1.1]
        | cons x a => simp only [List.cons_append, List.cons.injEq] at e1; exact absurd e1.2 (by simp)
      · cases a with
        | nil => cases e2; exact e3
        | cons x a => simp only [List.cons_append, List.cons.injEq] at e1; exact absurd e1.2 (by simp)
  | attempt c next caught =>
    rw [hp] at hl
    rcases hl with ⟨Q, hr, hq⟩ | ⟨hr, hi⟩
    · obtain ⟨o, h', w', env', loc', e, q, S', m⟩ := S.call hr
      exact .inl ⟨next, h', w', env', loc', by simp only [e, m], hq w' q, S'⟩
    · obtain ⟨x, h', e, S'⟩ := S.refuses hr
      exact .inl ⟨caught, h', w, env, loc, by simp only [e], hi, S'⟩
  | ask q next =>
    rw [hp] at hl
    obtain ⟨a, ha, hi⟩ := hl
    refine .inl ⟨next a, h, w, env, loc, ?_, hi, S⟩
    simp only
    rw [M.bind_ok (S.answers ha)]
    rfl

end

/-- Any number of steps. -/
theorem ticks_mirrors {σ : Type} {prog : σ → Action F σ} {s0 : σ} {inv : σ → World F → Prop} (hinv : ∀ s w, inv s w → Leads w inv (prog s))
    (h0 : inv s0 World.start) (n : Nat) :
    (∃ s h w env loc, ticks prog s0 n Heap.empty = .ok (s, w.vars.map env) h ∧ inv s w ∧ Mirrors h env loc w) ∨ Stumbles prog s0 n := by
  induction n with
  | zero => exact .inl ⟨s0, _, World.start, _, _, rfl, h0, mirrors_start⟩
  | succ n ih =>
    rcases ih with ⟨s, h, w, env, loc, e, hi, S⟩ | ⟨m, p, h, v, next, u, hm, hr⟩
    · by_cases hs : prog s = .stop
      · refine .inl ⟨s, h, w, env, loc, ?_, hi, S⟩
        rw [ticks, M.bind_ok e, tick]
        simp only [hs]
        rfl
      · rcases S.tick hs (hinv s w hi) with ⟨s', h', w', env', loc', e', hi', S'⟩ | ⟨v, next, u, e1, e2⟩
        · refine .inl ⟨s', h', w', env', loc', ?_, hi', S'⟩
          rw [ticks, M.bind_ok e]
          exact e'
        · exact .inr ⟨n, _, h, v, next, u, by omega, e, e1, e2⟩
    · exact .inr ⟨m, p, h, v, next, u, by omega, hr⟩

theorem ticks_comp {σ : Type} {prog : σ → Action F σ} {s0 : σ} {p : σ × List Nat} {h : Heap F} {n : Nat}
    (e : ticks prog s0 n Heap.empty = .ok p h) : ticks prog s0 (n + 1) Heap.empty = tick prog p h := by
  rw [ticks, M.bind_ok e]

end INNC
