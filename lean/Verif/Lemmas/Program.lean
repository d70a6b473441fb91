import Verif.Spec.Program
import Verif.Lemmas.MemViews
import Verif.Lemmas.Cat
import Verif.Lemmas.Extreme
import Verif.Lemmas.Abs
import Verif.Lemmas.Accum
import Verif.Props.Flags
import Verif.Lemmas.Apart
/-
Programs: the library simulates the abstract memory of Spec/Program.
-/
namespace INNC
open Spec Tensor
variable {F : Type} [FOps F]

/-- A tensor in good order that holds no gradient. -/
def Owned (h : Heap F) (t : Nat) : Prop := Var h t ∧ ValueOf h t

/-- The heap `h` represents the abstract state `w`: object `o` is the tensor `env o`, block `b` is the storage `loc b`. -/
structure Mirrors (h : Heap F) (env loc : Nat → Nat) (w : World F) : Prop where
  hist : History h
  vars : ∀ (v o : Nat), w.vars[v]? = some o → o < w.objs.length
  block : ∀ (b : Nat) (c : Cells F), w.mem[b]? = some c → ∃ s cells, h.st[loc b]? = some s ∧ s.dt = c.dt ∧ s.blob = some cells ∧
    ∀ (p : Nat) (v : Val F), c.vals[p]? = some v → cells[p]? = some (some v)
  obj : ∀ (o : Nat) (r : Ref), w.objs[o]? = some r → ∃ i c, h.ts[env o]? = some i ∧ w.mem[r.block]? = some c ∧ i.data = loc r.block ∧
    i.dtype = c.dt ∧ i.view.sizes = r.sizes ∧ i.requiresGrad = r.grad ∧
    (∀ idx, InBox r.sizes idx → position i.view idx = r.pos idx ∧ r.pos idx < c.vals.length) ∧ Var h (env o)
  envInj : ∀ (o o' : Nat), o < w.objs.length → o' < w.objs.length → env o = env o' → o = o'
  locInj : ∀ (b b' : Nat), b < w.mem.length → b' < w.mem.length → loc b = loc b' → b = b'
  apart : ∀ (b : Nat), b < w.mem.length → ¬ GradIn h (loc b)

/-- What the simulation says about a tensor that a variable holds. -/
structure Here (h : Heap F) (env loc : Nat → Nat) (w : World F) (v : Nat) (r : Ref) (dt : DType) (f : List Nat → Val F) (o : Nat)
    (i : Impl) : Prop where
  var : w.vars[v]? = some o
  at' : w.objs[o]? = some r
  handle : (w.vars.map env).getD v 0 = env o
  impl : h.ts[env o]? = some i
  dtype : i.dtype = dt
  sizes : i.view.sizes = r.sizes
  data : i.data = loc r.block
  grad : i.requiresGrad = r.grad
  reads : Reads h i f
  good : Owned h (env o)
  place : ∀ idx, InBox r.sizes idx → position i.view idx = r.pos idx
  blk : r.block < w.mem.length

theorem Mirrors.get {h : Heap F} {env loc : Nat → Nat} {w : World F} (S : Mirrors h env loc w) {v r dt f} (hh : Carries w v r dt f) :
    ∃ o i, Here h env loc w v r dt f o i := by
  obtain ⟨o, vals, h1, h2, h3, h4⟩ := hh
  obtain ⟨i, c, e1, e2, e3, e4, e5, e6, e7, e8⟩ := S.obj o r h2
  rw [h3] at e2
  obtain rfl := Option.some.inj e2
  obtain ⟨s, cells, g1, g2, g3, g4⟩ := S.block _ _ h3
  refine ⟨o, i, h1, h2, ?_, e1, e4, e5, e3, e6, ?_, ⟨e8, i, e1, by rw [e3]; exact S.apart _ (getElem?_lt h3)⟩, fun idx hb => (e7 idx hb).1, getElem?_lt h3⟩
  · rw [List.getD_eq_getElem?_getD, List.getElem?_map, h1]; rfl
  · obtain ⟨i', hi', hs, _⟩ := e8
    rw [e1] at hi'
    obtain rfl := Option.some.inj hi'
    obtain ⟨f', hf'⟩ := hs.reads
    refine hf'.congr fun idx hb => ?_
    obtain ⟨s', c', k1, k2, k3, k4, k5⟩ := hf'.cells
    rw [e3, g1] at k1
    obtain rfl := Option.some.inj k1
    rw [g3] at k3
    obtain rfl := Option.some.inj k3
    obtain ⟨p, q1, q2⟩ := k5 idx hb
    rw [e5] at hb
    rw [(e7 idx hb).1] at q1
    obtain rfl : r.pos idx = p := by exact_mod_cast q1
    have := g4 _ _ (h4 idx hb)
    rw [q2] at this
    injection this with this
    injection this

theorem Here.denotes {h : Heap F} {env loc : Nat → Nat} {w : World F} {v r dt f o i} (H : Here h env loc w v r dt f o i) :
    Denotes h (env o) dt r.sizes f := ⟨i, H.impl, H.dtype, H.sizes, H.reads⟩

theorem Mirrors.env_lt {h : Heap F} {env loc : Nat → Nat} {w : World F} (S : Mirrors h env loc w) {o : Nat} (ho : o < w.objs.length) :
    env o < h.ts.length := by
  obtain ⟨i, c, e1, _⟩ := S.obj o _ (List.getElem?_eq_getElem ho)
  exact getElem?_lt e1

theorem Mirrors.loc_lt {h : Heap F} {env loc : Nat → Nat} {w : World F} (S : Mirrors h env loc w) {b : Nat} (hb : b < w.mem.length) :
    loc b < h.st.length := by
  obtain ⟨s, c, e1, _⟩ := S.block b _ (List.getElem?_eq_getElem hb)
  exact getElem?_lt e1

theorem Mirrors.apart_keep {h h' : Heap F} {env loc : Nat → Nat} {w : World F} (S : Mirrors h env loc w) (hk : AK false h h') :
    ∀ (b : Nat), b < w.mem.length → ¬ GradIn h' (loc b) := fun b hb hG => by
  rcases hk.grads (valid_history S.hist) _ hG with h1 | ⟨_, h1⟩
  · exact S.apart b hb h1
  · have := S.loc_lt hb; omega

/-- A call that changes no tensor and no storage, and no flag, keeps the simulation, and its result is in good order. -/
theorem Mirrors.keep {h : Heap F} {env loc : Nat → Nat} {w : World F} (S : Mirrors h env loc w) {c : Call F} {x : Option Nat} {h' : Heap F}
    (e : c.run h = .ok x h') (hp : Preserves h h') (hf : flagged c = none) (ha : Allowed h c) (hv : ∀ a ∈ args c, Owned h a) :
    Mirrors h' env loc w ∧ ∀ t, x = some t → Owned h' t := by
  have hm := mem_call (valid_history S.hist) ha fun a h => (hv a h).1
  rw [e] at hm
  have hk := ak_run c h
  rw [e] at hk
  refine ⟨⟨S.hist.returned e, S.vars, fun b c hb => ?_, fun o r ho => ?_, S.envInj, S.locInj, S.apart_keep hk⟩, fun t ht => ⟨hm.2 t ht, ?_⟩⟩
  case refine_3 =>
    subst ht
    exact value_result (valid_history S.hist) (fun t e => by rw [e] at ha; exact ha) (fun a h => (hv a h).2) e
  · obtain ⟨s, cells, g1, g2⟩ := S.block b c hb
    exact ⟨s, cells, hp.st _ _ g1, g2⟩
  · obtain ⟨i, c', e1, e2, e3, e4, e5, e6, e7, e8⟩ := S.obj o r ho
    obtain ⟨i', k1, k2, k3, k4⟩ := hp.ts _ i e1
    refine ⟨i', c', k1, e2, k4.trans e3, k2.trans e4, by rw [k3]; exact e5, ?_, by rw [k3]; exact e7, e8.retains hp.retains⟩
    have := (C35_flags_kept h S.hist c _ i e1 (by rw [hf]; simp)).1 x h' e
    unfold requiresGrad at this
    rw [k1, e1] at this
    simp only [Option.map_some, Option.getD_some] at this
    exact this.trans e6

theorem update_eq_of_lt {f : Nat → Nat} {n x : Nat} {m : Nat} (h : m < n) : Function.update f n x m = f m :=
  Function.update_of_ne (by omega) _ _

theorem map_update {f : Nat → Nat} {n x : Nat} {l : List Nat} (h : ∀ m ∈ l, m < n) : l.map (Function.update f n x) = l.map f :=
  List.map_congr_left fun m hm => update_eq_of_lt (h m hm)

theorem Mirrors.var_lt {h : Heap F} {env loc : Nat → Nat} {w : World F} (S : Mirrors h env loc w) : ∀ o ∈ w.vars, o < w.objs.length := by
  intro o ho
  obtain ⟨v, hv⟩ := List.getElem?_of_mem ho
  exact S.vars v o hv

theorem injOn_update {f : Nat → Nat} {n x : Nat} (hf : ∀ a b, a < n → b < n → f a = f b → a = b) (hx : ∀ a, a < n → f a ≠ x) :
    ∀ a b, a < n + 1 → b < n + 1 → Function.update f n x a = Function.update f n x b → a = b := by
  intro a b ha hb e
  by_cases h1 : a = n <;> by_cases h2 : b = n
  · omega
  · subst h1
    rw [Function.update_self, Function.update_of_ne h2] at e
    exact absurd e.symm (hx b (by omega))
  · subst h2
    rw [Function.update_self, Function.update_of_ne h1] at e
    exact absurd e (hx a (by omega))
  · rw [Function.update_of_ne h1, Function.update_of_ne h2] at e
    exact hf a b (by omega) (by omega) e

/-- A new object on a new block. -/
theorem Mirrors.addNew {h : Heap F} {env loc : Nat → Nat} {w : World F} (S : Mirrors h env loc w) {t : Nat} {j : Impl} {g : List Nat → Val F}
    {s : List Nat} {pos : List Nat → Nat} {vals : List (Val F)} (hj : h.ts[t]? = some j) (hr : Reads h j g) (hs : j.view.sizes = s)
    (hpos : ∀ idx, InBox s idx → position j.view idx = pos idx ∧ vals[pos idx]? = some (g idx))
    (hon : ∀ p, p < vals.length → ∃ idx, InBox s idx ∧ pos idx = p) (hv : Owned h t)
    (ht : ∀ o, o < w.objs.length → env o ≠ t) (hd : ∀ b, b < w.mem.length → loc b ≠ j.data) :
    ∃ env' loc', Mirrors h env' loc' (w.new j.dtype s pos vals j.requiresGrad) ∧
      (w.new j.dtype s pos vals j.requiresGrad).vars.map env' = w.vars.map env ++ [t] := by
  refine ⟨Function.update env w.objs.length t, Function.update loc w.mem.length j.data, ⟨S.hist, ?_, ?_, ?_, ?_, ?_, ?_⟩, ?_⟩
  · intro v o hv
    have := List.mem_of_getElem? hv
    simp only [World.new, List.mem_append, List.mem_singleton, List.length_append, List.length_singleton] at this ⊢
    rcases this with h1 | h1
    · have := S.var_lt o h1; omega
    · omega
  · intro b c hb
    by_cases hlt : b < w.mem.length
    · rw [update_eq_of_lt hlt]
      refine S.block b c ?_
      simpa [World.new, List.getElem?_append_left hlt] using hb
    · have hb' : b = w.mem.length := by
        have := getElem?_lt hb
        simp [World.new] at this
        omega
      subst hb'
      simp only [World.new, List.getElem?_concat_length, Option.some.injEq] at hb
      subst hb
      rw [Function.update_self]
      obtain ⟨st, cells, g1, g2, g3, g4, g5⟩ := hr.cells
      refine ⟨st, cells, g1, g2, g3, fun p v hp => ?_⟩
      obtain ⟨idx, k1, k2⟩ := hon p (getElem?_lt hp)
      obtain ⟨q, q1, q2⟩ := g5 idx (by rw [hs]; exact k1)
      rw [(hpos idx k1).1, k2] at q1
      obtain rfl : p = q := by exact_mod_cast q1
      have := (hpos idx k1).2
      rw [k2, hp] at this
      rw [q2, Option.some.inj this]
  · intro o r ho
    by_cases hlt : o < w.objs.length
    · rw [update_eq_of_lt hlt]
      obtain ⟨i, c, e1, e2, e3, e4⟩ := S.obj o r (by simpa [World.new, List.getElem?_append_left hlt] using ho)
      refine ⟨i, c, e1, ?_, ?_, e4⟩
      · simp only [World.new]
        exact getElem?_append_some e2 _
      · rw [update_eq_of_lt (getElem?_lt e2)]; exact e3
    · have ho' : o = w.objs.length := by
        have := getElem?_lt ho
        simp [World.new] at this
        omega
      subst ho'
      simp only [World.new, List.getElem?_concat_length, Option.some.injEq] at ho
      subst ho
      rw [Function.update_self]
      refine ⟨j, ⟨j.dtype, vals⟩, hj, by simp [World.new], by simp, rfl, hs, rfl, fun idx hb => ?_, hv.1⟩
      exact ⟨(hpos idx hb).1, getElem?_lt (hpos idx hb).2⟩
  · simp only [World.new, List.length_append, List.length_singleton]
    exact injOn_update S.envInj ht
  · simp only [World.new, List.length_append, List.length_singleton]
    exact injOn_update S.locInj hd
  · intro b hb
    simp only [World.new, List.length_append, List.length_singleton] at hb
    by_cases hlt : b < w.mem.length
    · rw [update_eq_of_lt hlt]; exact S.apart b hlt
    · obtain rfl : b = w.mem.length := by omega
      rw [Function.update_self]
      obtain ⟨j', hj', hn⟩ := hv.2
      rw [hj] at hj'
      obtain rfl := Option.some.inj hj'
      exact hn
  · simp only [World.new, List.map_append, List.map_cons, List.map_nil, Function.update_self]
    rw [map_update S.var_lt]

/-- A new object on a block that there is. -/
theorem Mirrors.addView {h : Heap F} {env loc : Nat → Nat} {w : World F} (S : Mirrors h env loc w) {t o : Nat} {i j : Impl} {r : Ref}
    {s : List Nat} {σ : List Nat → List Nat} (ho : w.objs[o]? = some r) (hi : h.ts[env o]? = some i) (hj : h.ts[t]? = some j)
    (hdt : j.dtype = i.dtype) (hd : j.data = i.data) (hs : j.view.sizes = s)
    (hσ : ∀ idx, InBox s idx → InBox r.sizes (σ idx) ∧ position j.view idx = position i.view (σ idx))
    (hv : Var h t) (ht : ∀ o, o < w.objs.length → env o ≠ t) :
    ∃ env', Mirrors h env' loc (w.view r s σ j.requiresGrad) ∧
      (w.view r s σ j.requiresGrad).vars.map env' = w.vars.map env ++ [t] := by
  refine ⟨Function.update env w.objs.length t, ⟨S.hist, ?_, S.block, ?_, ?_, S.locInj, S.apart⟩, ?_⟩
  · intro v o hv
    have := List.mem_of_getElem? hv
    simp only [World.view, List.mem_append, List.mem_singleton, List.length_append, List.length_singleton] at this ⊢
    rcases this with h1 | h1
    · have := S.var_lt o h1; omega
    · omega
  · intro o' r' ho'
    by_cases hlt : o' < w.objs.length
    · rw [update_eq_of_lt hlt]
      exact S.obj o' r' (by simpa [World.view, List.getElem?_append_left hlt] using ho')
    · have hn : o' = w.objs.length := by
        have := getElem?_lt ho'
        simp [World.view] at this
        omega
      subst hn
      simp only [World.view, List.getElem?_concat_length, Option.some.injEq] at ho'
      subst ho'
      rw [Function.update_self]
      obtain ⟨i', c, e1, e2, e3, e4, e5, e6, e7, e8⟩ := S.obj o r ho
      rw [hi] at e1
      obtain rfl := Option.some.inj e1
      refine ⟨j, c, hj, e2, hd.trans e3, hdt.trans e4, hs, rfl, fun idx hb => ?_, hv⟩
      obtain ⟨k1, k2⟩ := hσ idx hb
      rw [k2]
      exact e7 _ k1
  · simp only [World.view, List.length_append, List.length_singleton]
    exact injOn_update S.envInj ht
  · simp only [World.view, List.map_append, List.map_cons, List.map_nil, Function.update_self]
    rw [map_update S.var_lt]

/-- A call on the tensors of `h` does what `Q` says about the abstract state. -/
def Acts (h : Heap F) (env : Nat → Nat) (w : World F) (c : Call F) (Q : World F → Prop) : Prop :=
  ∃ o h' w' env' loc', c.run h = .ok o h' ∧ Q w' ∧ Mirrors h' env' loc' w' ∧ w'.vars.map env' = w.vars.map env ++ o.toList

theorem some_run {x : M F Nat} {h h' : Heap F} {t : Nat} (e : x h = .ok t h') : some' x h = .ok (some t) h' := by
  unfold some'
  rw [M.bind_ok e]
  rfl

theorem none_run {α : Type} {x : M F α} {h h' : Heap F} {a : α} (e : x h = .ok a h') : none' x h = .ok none h' := by
  unfold none'
  rw [M.bind_ok e]
  rfl

/-- Calls that return a new contiguous tensor. -/
theorem Mirrors.newContig {h h' : Heap F} {env loc : Nat → Nat} {w : World F} (S : Mirrors h env loc w) {c : Call F} {t : Nat} {j : Impl}
    {dt : DType} {s : List Nat} {f : List Nat → Val F} {b : Bool}
    (e : c.run h = .ok (some t) h') (hf : flagged c = none) (ha : Allowed h c) (hv : ∀ a ∈ args c, Owned h a)
    (hx : Preserves h h') (hj : h'.ts[t]? = some j) (hr : Reads h' j f) (hdt : j.dtype = dt) (hw : j.view = Layout.contig s)
    (hg : j.requiresGrad = b) (htl : h.ts.length ≤ t) (hd : h.st.length ≤ j.data)
    (hm : vol s < 9223372036854775808) : Acts h env w c (· = w.fresh dt s f b) := by
  obtain ⟨S', hv'⟩ := S.keep e hx hf ha hv
  have hsz : j.view.sizes = s := by rw [hw]; rfl
  obtain ⟨env', loc', S2, hm2⟩ := S'.addNew (t := t) (g := f) (s := s) (pos := rank s) (vals := (rowMajor s).map f) hj hr hsz
    (fun idx hb => ⟨by rw [hw]; exact contig_position hm hb, by rw [List.getElem?_map, rowMajor_getElem? hb]; rfl⟩)
    (fun p hp => by
      rw [List.length_map] at hp
      have hb := mem_rowMajor.1 (List.getElem_mem hp)
      refine ⟨_, hb, ?_⟩
      have h1 := rowMajor_getElem? hb
      have h2 := List.getElem?_eq_getElem hp
      have hlt : rank s (rowMajor s)[p] < (rowMajor s).length := getElem?_lt h1
      rw [List.getElem?_eq_getElem hlt] at h1
      exact (List.Nodup.getElem_inj_iff (nodup_rowMajor s)).1 (Option.some.inj h1))
    (hv' t rfl) (fun o ho he => by have := S.env_lt ho; omega) (fun b hb he => by have := S.loc_lt hb; omega)
  rw [hdt, hg] at S2 hm2
  exact ⟨some t, h', w.fresh dt s f b, env', loc', e, rfl, S2, hm2⟩

theorem Mirrors.built {h h' : Heap F} {env loc : Nat → Nat} {w : World F} (S : Mirrors h env loc w) {c : Call F} {t : Nat}
    {dt : DType} {s : List Nat} {f : List Nat → Val F} {gf : Option GradFn} {b : Bool}
    (e : c.run h = .ok (some t) h') (hb : Built h h' t dt s f gf) (hg : gf.isSome = b) (hf : flagged c = none) (ha : Allowed h c)
    (hv : ∀ a ∈ args c, Owned h a) (hm : vol s < 9223372036854775808) : Acts h env w c (· = w.fresh dt s f b) := by
  obtain ⟨d, hobj, hd⟩ := hb.obj
  obtain ⟨j, hj, e1, e2, hr⟩ := hb.denotes
  rw [hobj] at hj
  obtain rfl := Option.some.inj hj
  exact S.newContig e hf ha hv hb.ext.preserves hobj hr rfl rfl hg hb.fresh.1 hd hm

end INNC
