import Verif.Lemmas.ProgramViews
import Verif.Lemmas.Print
import Verif.Props.BackFrame
import Verif.Props.Noexcept
import Verif.Lemmas.InPlace
/-
Programs: the remaining calls, and whole programs.
-/
namespace INNC
open Spec Tensor
variable {F : Type} [FOps F]

section
variable {h : Heap F} {env loc : Nat → Nat} {w : World F}

theorem Mirrors.abs (S : Mirrors h env loc w) {v r dt f} {g : List Nat → Val F} (hh : Carries w v r dt f)
    (hm : Modest r.sizes dt) (hin : ∀ idx, InBox r.sizes idx → r.pos idx < vol r.sizes)
    (hinj : ∀ a b, InBox r.sizes a → InBox r.sizes b → r.pos a = r.pos b → a = b)
    (hg : ∀ idx, InBox r.sizes idx → elemAbs dt (f idx) = some (g idx)) :
    Acts h env w (rename (fun v => (w.vars.map env).getD v 0) (.abs v)) fun w' => ∃ vals, vals.length = vol r.sizes ∧
      (∀ idx, InBox r.sizes idx → vals[r.pos idx]? = some (g idx)) ∧ w' = w.new dt r.sizes r.pos vals r.grad := by
  classical
  obtain ⟨o, i, H⟩ := S.get hh
  have hpl : ∀ idx, InBox i.view.sizes idx → position i.view idx = r.pos idx := by rw [H.sizes]; exact H.place
  have hd : Dense i.view := by
    refine ⟨H.reads.strides, H.reads.offset, fun idx hb => ?_, fun a b ha hb e => ?_⟩
    · rw [hpl idx hb]
      have := hin idx (H.sizes ▸ hb)
      rw [H.sizes]
      omega
    · rw [hpl a ha, hpl b hb] at e
      exact hinj a b (H.sizes ▸ ha) (H.sizes ▸ hb) (by exact_mod_cast e)
  obtain ⟨h', e, gf, hgf, b⟩ : ∃ h', Tensor.absT (env o) h = .ok h.ts.length h' ∧ ∃ gf : Option GradFn, gf.isSome = r.grad ∧
      BuiltView h h' h.ts.length i.dtype i.view g gf := by
    cases hgr : r.grad with
    | false =>
      obtain ⟨h', e, b⟩ := absT_ok H.impl H.reads hd (by rw [H.sizes, H.dtype]; exact hm.bytes) (by rw [H.grad]; exact hgr)
        (by rw [H.sizes, H.dtype]; exact hg)
      exact ⟨h', e, _, rfl, b⟩
    | true =>
      obtain ⟨h', e, b, _⟩ := absT_grad_ok H.impl H.reads hd (by rw [H.sizes, H.dtype]; exact hm.bytes) (by rw [H.grad]; exact hgr)
        (by rw [H.sizes, H.dtype]; exact hg)
      exact ⟨h', e, _, rfl, b⟩
  obtain ⟨d, hobj, hdl⟩ := b.obj
  obtain ⟨j, hj, e1, e2, hr⟩ := b.denotes
  rw [hobj] at hj
  obtain rfl := Option.some.inj hj
  simp only [rename]
  rw [H.handle]
  have hrun : (Call.abs (env o) : Call F).run h = .ok (some h.ts.length) h' := some_run e
  obtain ⟨S', hv'⟩ := S.keep hrun b.ext.preserves rfl (at_here H ⟨hd, by rw [H.sizes, H.dtype]; exact hm⟩) H.one
  have honto : ∀ p, p < vol r.sizes → ∃ idx, InBox r.sizes idx ∧ r.pos idx = p := fun p hp => by
    obtain ⟨idx, hb, e⟩ := dense_onto hd (p := p) (by rw [H.sizes]; exact hp)
    rw [hpl idx hb] at e
    exact ⟨idx, H.sizes ▸ hb, by exact_mod_cast e⟩
  let vals : List (Val F) := (List.range (vol r.sizes)).map fun p =>
    if hp : ∃ idx, InBox r.sizes idx ∧ r.pos idx = p then g hp.choose else zeroElem dt
  have hvl : vals.length = vol r.sizes := by simp [vals]
  have hval : ∀ idx, InBox r.sizes idx → vals[r.pos idx]? = some (g idx) := fun idx hb => by
    have hex : ∃ idx', InBox r.sizes idx' ∧ r.pos idx' = r.pos idx := ⟨idx, hb, rfl⟩
    simp only [vals, List.getElem?_map, List.getElem?_range (hin idx hb), Option.map_some]
    rw [dif_pos hex, hinj _ _ hex.choose_spec.1 hb hex.choose_spec.2]
  obtain ⟨env', loc', S2, hm2⟩ := S'.addNew (t := h.ts.length) (g := g) (s := r.sizes) (pos := r.pos) (vals := vals) hobj hr H.sizes
    (fun idx hb => ⟨H.place idx hb, hval idx hb⟩) (fun p hp => honto p (by rw [← hvl]; exact hp)) (hv' _ rfl)
    (fun o ho he => by have := S.env_lt ho; omega) (fun b hb he => by have := S.loc_lt hb; simp only at he; omega)
  simp only [H.dtype, hgf] at S2 hm2
  exact ⟨_, h', _, env', loc', hrun, ⟨vals, hvl, hval, rfl⟩, S2, hm2⟩

/-- The index that `max` and `min` record is one of the tensor's unless the first element is the extreme one. -/
theorem best_inBox {keep : COp} {dt : DType} {s : List Nat} {f : List Nat → Val F} (ho : Ordered keep dt s f) (h0 : vol s ≠ 0)
    (hfl : FirstLoses keep dt s f) : InBox s (best keep dt s f (f (s.map fun _ => 0))).2 := by
  rcases foldl_pick keep dt f (rowMajor s) (f (s.map fun _ => 0), []) with e1 | ⟨b, hb, e1⟩
  · have hbe : best keep dt s f (f (s.map fun _ => 0)) = (f (s.map fun _ => 0), []) := e1
    rcases hfl with rfl | ⟨b, hb, hc⟩
    · rw [hbe]; trivial
    · obtain ⟨a, _, h2, _, h4⟩ := best_spec ho (rowMajor s) (s.map fun _ => 0) [] (zeros_inBox h0) fun x hx => mem_rowMajor.1 hx
      have h2 : (best keep dt s f (f (s.map fun _ => 0))).1 = f a := h2
      have := h4 b (mem_rowMajor.2 hb)
      rw [← h2, hbe, hc] at this
      cases this
  · have hbe : best keep dt s f (f (s.map fun _ => 0)) = (f b, b) := e1
    rw [hbe]
    exact mem_rowMajor.1 hb

/-- Nothing is recorded if the first element is the extreme one. -/
theorem best_first {keep : COp} {dt : DType} {s : List Nat} {f : List Nat → Val F}
    (hf : ∀ b, InBox s b → elemCompare keep dt dt (f (s.map fun _ => 0)) (f b) = true) :
    best keep dt s f (f (s.map fun _ => 0)) = (f (s.map fun _ => 0), []) := by
  have H : ∀ l : List (List Nat), (∀ x ∈ l, InBox s x) →
      l.foldl (pick keep dt f) (f (s.map fun _ => 0), []) = (f (s.map fun _ => 0), []) := by
    intro l
    induction l with
    | nil => intro _; rfl
    | cons x l ih =>
      intro hl
      rw [List.foldl_cons, show pick keep dt f (f (s.map fun _ => 0), []) x = (f (s.map fun _ => 0), []) by
        unfold pick; rw [if_pos (hf x (hl x (by simp)))]]
      exact ih fun y hy => hl y (by simp [hy])
  exact H _ fun x hx => mem_rowMajor.1 hx

theorem Here.offset {v r dt f o i} (H : Here h env loc w v r dt f o i) (h0 : vol r.sizes ≠ 0) (hz : r.pos (r.sizes.map fun _ => 0) = 0) :
    i.view.offset = 0 := by
  have h1 := H.place _ (zeros_inBox h0)
  rw [hz] at h1
  unfold position at h1
  have h2 : dot i.view.strides (r.sizes.map fun _ => 0) = 0 := by
    rw [List.map_const']
    exact dot_replicate_zero _ _
  rw [h2] at h1
  omega

/-- `max` and `min` throw if the first element is the extreme one and a gradient is wanted. -/
theorem Here.refuses {v r dt f o i} (H : Here h env loc w v r dt f o i) (keep : COp) (hm : Modest r.sizes dt) (h0 : vol r.sizes ≠ 0)
    (hz : r.pos (r.sizes.map fun _ => 0) = 0) (hgr : r.grad = true) (hfl : ¬ FirstLoses keep dt r.sizes f) :
    ∃ h', Tensor.extreme keep (env o) h = .throw .runtime h' ∧ Extends h h' := by
  have hst := startsWith_of_offset H.reads (H.offset h0 hz) (by rw [H.sizes]; exact h0)
  obtain ⟨_, hth⟩ := extremeGrad_ok (keep := keep) H.impl H.reads hst (by rw [H.grad]; exact hgr)
    (by rw [H.sizes, H.dtype]; exact hm.bytes)
  refine hth ?_
  rw [H.sizes, H.dtype, best_first fun b hb => ?_]
  · intro hl
    exact hfl (.inl (List.length_eq_zero_iff.1 hl.symm))
  · cases hc : elemCompare keep dt dt (f (r.sizes.map fun _ => 0)) (f b) with
    | true => rfl
    | false => exact absurd (.inr ⟨b, hb, hc⟩) hfl

theorem Mirrors.extreme (S : Mirrors h env loc w) (keep : COp) {c : Call F} {v r dt f o i} (H : Here h env loc w v r dt f o i)
    (hm : Modest r.sizes dt) (h0 : vol r.sizes ≠ 0) (hz : r.pos (r.sizes.map fun _ => 0) = 0) (ho : Ordered keep dt r.sizes f)
    (hfl : r.grad = true → FirstLoses keep dt r.sizes f) (hrun : c.run h = some' (Tensor.extreme keep (env o)) h) (hf : flagged c = none) (ha : Allowed h c) (hva : ∀ a ∈ args c, Owned h a) :
    Acts h env w c fun w' => ∃ a, InBox r.sizes a ∧ (∀ b, InBox r.sizes b → elemCompare keep dt dt (f a) (f b) = true) ∧
      w' = w.fresh dt [] (fun _ => f a) r.grad := by
  have hoff := H.offset h0 hz
  have hst := startsWith_of_offset H.reads hoff (by rw [H.sizes]; exact h0)
  obtain ⟨h', e, gf, hgf, b⟩ : ∃ h', Tensor.extreme keep (env o) h = .ok h.ts.length h' ∧ ∃ gf : Option GradFn, gf.isSome = r.grad ∧
      Built h h' h.ts.length i.dtype [] (fun _ => (best keep i.dtype i.view.sizes f (f (i.view.sizes.map fun _ => 0))).1) gf := by
    cases hgr : r.grad with
    | false =>
      obtain ⟨h', e, b⟩ := extreme_ok (keep := keep) H.impl H.reads hst (by rw [H.grad]; exact hgr)
      exact ⟨h', e, _, rfl, b⟩
    | true =>
      obtain ⟨hok, _⟩ := extremeGrad_ok (keep := keep) H.impl H.reads hst (by rw [H.grad]; exact hgr)
        (by rw [H.sizes, H.dtype]; exact hm.bytes)
      obtain ⟨h', e, b, _⟩ := hok (by rw [H.sizes, H.dtype]; exact best_inBox ho h0 (hfl hgr))
      exact ⟨h', e, _, rfl, b⟩
  obtain ⟨a, h1, h2, _, h4⟩ := best_spec ho (rowMajor r.sizes) (r.sizes.map fun _ => 0) [] (zeros_inBox h0)
    fun x hx => mem_rowMajor.1 hx
  have hb : (best keep i.dtype i.view.sizes f (f (i.view.sizes.map fun _ => 0))).1 = f a := by
    rw [H.sizes, H.dtype]; exact h2
  rw [hb, H.dtype] at b
  obtain ⟨x, h2, w', env', loc', a1, a2, a3, a4⟩ := S.built (c := c) (b := r.grad) (hrun.trans (some_run e)) b hgf hf ha hva scalar_vol
  exact ⟨x, h2, w', env', loc', a1, ⟨a, h1, fun b hb => h4 b (mem_rowMajor.2 hb), a2⟩, a3, a4⟩

theorem tracks_here {v r dt f o i} (H : Here h env loc w v r dt f o i) : w.tracks v = i.requiresGrad := by
  unfold World.tracks
  rw [H.var, H.grad]
  simp [H.at']

omit [FOps F] in
theorem set_inj {s s' : List Nat} {d n n' : Nat} (hd : d < s.length) (hd' : d < s'.length) (e : s.set d n = s'.set d n') :
    n = n' ∧ ∀ m, s.set d m = s'.set d m := by
  constructor
  · have := congrArg (·[d]?) e
    simpa [hd, hd'] using this
  · intro m
    have := congrArg (·.set d m) e
    simpa using this

theorem Mirrors.cat (S : Mirrors h env loc w) {vs : List Nat} {d : Nat} {s : List Nat} {bs : List (Block F)}
    (hbs : List.Forall₂ (fun v (b : Block F) => ∃ r, Carries w v r b.dt b.f ∧ r.sizes = s.set d b.n) vs bs) (hne : vs ≠ [])
    (hd : d < s.length) (htot : axisTotal bs < 4611686018427387904) (hm : Modest (s.set d (axisTotal bs)) .f64) :
    Acts h env w (rename (fun v => (w.vars.map env).getD v 0) (.cat vs d))
      (· = w.fresh (latest (bs.map (·.dt))) (s.set d (axisTotal bs)) (catAt d (latest (bs.map (·.dt))) bs) (vs.any w.tracks)) := by
  have key : ∀ {vs : List Nat} {bs : List (Block F)},
      List.Forall₂ (fun v (b : Block F) => ∃ r, Carries w v r b.dt b.f ∧ r.sizes = s.set d b.n) vs bs →
      List.Forall₂ (fun t (b : Block F) => Denotes h t b.dt (s.set d b.n) b.f) (vs.map fun v => (w.vars.map env).getD v 0) bs ∧
      (∀ t ∈ vs.map (fun v => (w.vars.map env).getD v 0), Owned h t) ∧
      (∀ is, List.Forall₂ (fun t i => h.ts[t]? = some i) (vs.map fun v => (w.vars.map env).getD v 0) is →
        is.any (fun i => i.requiresGrad) = vs.any w.tracks) ∧
      (∀ (s' ns : List Nat), d < s'.length → List.Forall₂ (fun t n => shapeOf h t = s'.set d n) (vs.map fun v => (w.vars.map env).getD v 0) ns →
        ns.sum = axisTotal bs ∧ (vs ≠ [] → ∀ m, s'.set d m = s.set d m)) := by
    intro vs bs hb
    induction hb with
    | nil =>
      refine ⟨.nil, by simp, fun is hi => ?_, fun s' ns _ hn => ?_⟩
      · cases hi; rfl
      · cases hn; exact ⟨rfl, fun hc => absurd rfl hc⟩
    | @cons v b vs bs hv hb ih =>
      obtain ⟨r, hc, hs⟩ := hv
      obtain ⟨o, i, H⟩ := S.get hc
      obtain ⟨i1, i2, i3, i4⟩ := ih
      simp only [List.map_cons]
      rw [H.handle]
      refine ⟨.cons (hs ▸ H.denotes) i1, ?_, ?_, ?_⟩
      · intro t ht
        rcases List.mem_cons.1 ht with rfl | ht
        · exact H.good
        · exact i2 t ht
      · intro is hi
        cases hi with
        | @cons _ i' _ is h1 h2 =>
          rw [H.impl] at h1
          obtain rfl := Option.some.inj h1
          rw [List.any_cons, List.any_cons, i3 is h2, tracks_here H]
      · intro s' ns hd' hn
        cases hn with
        | @cons _ n _ ns h1 h2 =>
          rw [shape_here H, hs] at h1
          obtain ⟨q1, q2⟩ := set_inj hd hd' h1
          exact ⟨by rw [List.sum_cons, (i4 s' ns hd' h2).1, axisTotal, q1], fun _ m => (q2 m).symm⟩
  obtain ⟨k1, k2, k3, k4⟩ := key hbs
  obtain ⟨h', is, e1, e2, b, _⟩ := catT_ok k1 (by simpa using hne) hd (by omega) (modest_of_f64 hm _).bytes
  refine S.built (c := .cat _ d) (some_run e2) b (by rw [isSome_ite, k3 is e1]) rfl ⟨by simpa using hne, fun s' ns hd' hn => ?_⟩ k2 (by have := hm.vol; omega)
  obtain ⟨q1, q2⟩ := k4 s' ns hd' hn
  rw [q1, q2 hne]
  exact ⟨htot, hm⟩

/-- A call `x += y` that has changed the elements of the tensor in `x` to `g`. -/
theorem Mirrors.added (S : Mirrors h env loc w) {x y a b da db fa fb} {vals : List (Val F)} {g : List Nat → Val F} {o o' : Nat} {i i' : Impl}
    (H : Here h env loc w x a da fa o i) (H' : Here h env loc w y b db fb o' i') (hvals : w.mem[a.block]? = some ⟨da, vals⟩)
    (hadd : ∃ st cells cells', h.st[i.data]? = some st ∧ st.blob = some cells ∧
      Tensor.addAssign (env o) (env o') h = .ok () (h.setCells i.data cells') ∧ cells'.length = cells.length ∧
      Reads (h.setCells i.data cells') i g ∧
      ∀ q : Nat, (∀ idx, InBox i.view.sizes idx → position i.view idx ≠ q) → cells'[q]? = cells[q]?) :
    Acts h env w (rename (fun v => (w.vars.map env).getD v 0) (.addAssign x y)) fun w' => ∃ vals', vals'.length = vals.length ∧
        (∀ idx, InBox a.sizes idx → vals'[a.pos idx]? = some (g idx)) ∧
        (∀ q, (∀ idx, InBox a.sizes idx → a.pos idx ≠ q) → vals'[q]? = vals[q]?) ∧
        w' = { w with mem := w.mem.set a.block ⟨da, vals'⟩ } := by
  have hpl : ∀ idx, InBox i.view.sizes idx → position i.view idx = a.pos idx := by rw [H.sizes]; exact H.place
  obtain ⟨st, cells, cells', e1, e2, e3, e4, e5, e6⟩ := hadd
  simp only [rename]
  rw [H.handle, H'.handle]
  have hrun : (Call.addAssign (env o) (env o') : Call F).run h = .ok none (h.setCells i.data cells') := none_run e3
  have hva : ∀ t ∈ args (Call.addAssign (env o) (env o') : Call F), Owned h t := by
    intro t ht
    simp only [args, List.mem_cons, List.not_mem_nil, or_false] at ht
    rcases ht with rfl | rfl
    · exact H.good
    · exact H'.good
  have hmem := mem_call (valid_history S.hist) (c := .addAssign (env o) (env o')) trivial fun a h => (hva a h).1
  rw [hrun] at hmem
  obtain ⟨st', cl, g1, g2, g3, g4⟩ := S.block _ _ hvals
  rw [← H.data, e1] at g1
  obtain rfl := Option.some.inj g1
  rw [e2] at g3
  obtain rfl := Option.some.inj g3
  -- the places of the tensor
  have hplace : ∀ idx, InBox a.sizes idx → cells'[a.pos idx]? = some (some (g idx)) := fun idx hb => by
    obtain ⟨st2, c2, q1, q2, q3, q4, q5⟩ := e5.cells
    rw [Heap.setCells_st_self e1] at q1
    obtain rfl := Option.some.inj q1
    simp only [Option.some.injEq] at q3
    subst q3
    obtain ⟨p, p1, p2⟩ := q5 idx (H.sizes.symm ▸ hb)
    rw [H.place idx hb] at p1
    obtain rfl : a.pos idx = p := by exact_mod_cast p1
    exact p2
  have hlt : ∀ idx, InBox a.sizes idx → a.pos idx < vals.length := fun idx hb => by
    obtain ⟨i2, c2, p1, p2, _, _, _, _, p3, _⟩ := S.obj _ _ H.at'
    rw [hvals] at p2
    obtain rfl := Option.some.inj p2
    exact (p3 idx hb).2
  have hfull : ∀ p, p < vals.length → ∃ v, cells'[p]? = some (some v) := fun p hp => by
    by_cases hex : ∃ idx, InBox a.sizes idx ∧ a.pos idx = p
    · obtain ⟨idx, hb, rfl⟩ := hex
      exact ⟨_, hplace idx hb⟩
    · rw [e6 p fun idx hb he => hex ⟨idx, H.sizes ▸ hb, by rw [hpl idx hb] at he; exact_mod_cast he⟩]
      exact ⟨_, g4 p _ (List.getElem?_eq_getElem hp)⟩
  let vals' : List (Val F) := (List.range vals.length).map fun p => (cells'[p]?.join).getD (zeroElem da)
  have hv' : ∀ p, p < vals.length → ∃ v, vals'[p]? = some v ∧ cells'[p]? = some (some v) := fun p hp => by
    obtain ⟨v, hv⟩ := hfull p hp
    refine ⟨v, ?_, hv⟩
    simp only [vals', List.getElem?_map, List.getElem?_range hp, Option.map_some, hv]
    rfl
  have hvl : vals'.length = vals.length := by simp [vals']
  refine ⟨none, _, { w with mem := w.mem.set a.block ⟨da, vals'⟩ }, env, loc, hrun,
    ⟨vals', hvl, fun idx hb => ?_, fun q hq => ?_, rfl⟩, ⟨S.hist.returned hrun, S.vars, fun bk c hbk => ?_, fun ob r hob => ?_, S.envInj, ?_, ?_⟩, by simp⟩
  · obtain ⟨v, k1, k2⟩ := hv' _ (hlt idx hb)
    rw [hplace idx hb] at k2
    rw [k1]
    injection k2 with k2
    exact k2.symm
  · by_cases hlq : q < vals.length
    · obtain ⟨v, k1, k2⟩ := hv' q hlq
      rw [e6 q fun idx hb he => hq idx (H.sizes ▸ hb) (by rw [hpl idx hb] at he; exact_mod_cast he),
        g4 q _ (List.getElem?_eq_getElem hlq)] at k2
      rw [k1, List.getElem?_eq_getElem hlq]
      injection k2 with k2
      exact k2.symm
    · rw [List.getElem?_eq_none (by omega), List.getElem?_eq_none (by omega)]
  · by_cases heq : bk = a.block
    · subst heq
      simp only [List.getElem?_set_self H.blk, Option.some.injEq] at hbk
      subst hbk
      rw [← H.data]
      refine ⟨_, cells', Heap.setCells_st_self e1 cells', g2, rfl, fun p v hp => ?_⟩
      have hpl := getElem?_lt hp
      simp only [hvl] at hpl
      obtain ⟨v', k1, k2⟩ := hv' p hpl
      rw [k2, ← k1]
      simp only at hp
      rw [hp]
    · simp only [List.getElem?_set_ne (Ne.symm heq)] at hbk
      obtain ⟨s1, c1, q1, q2⟩ := S.block bk c hbk
      refine ⟨s1, c1, ?_, q2⟩
      rw [Heap.setCells_st_ne]
      · exact q1
      · rw [H.data]
        exact fun e => heq (S.locInj _ _ (getElem?_lt hbk) H.blk e)
  · obtain ⟨i2, c2, p1, p2, p3, p4, p5, p6, p7, p8⟩ := S.obj ob r hob
    by_cases heq : r.block = a.block
    · rw [heq, hvals] at p2
      obtain rfl := Option.some.inj p2
      exact ⟨i2, ⟨da, vals'⟩, p1, by simp [heq, H.blk], p3, p4, p5, p6, by simp only [hvl]; exact p7, p8.retains hmem.1⟩
    · exact ⟨i2, c2, p1, by simp only [List.getElem?_set_ne (Ne.symm heq)]; exact p2, p3, p4, p5, p6, p7, p8.retains hmem.1⟩
  · simp only [List.length_set]
    exact S.locInj
  · simp only [List.length_set]
    have hk := ak_run (Call.addAssign (env o) (env o')) h
    rw [hrun] at hk
    exact S.apart_keep hk

theorem Mirrors.addAssign (S : Mirrors h env loc w) {x y a b da db fa fb s} {vals : List (Val F)} {g : List Nat → Val F}
    (hx : Carries w x a da fa) (hy : Carries w y b db fb) (hvals : w.mem[a.block]? = some ⟨da, vals⟩) (hbl : a.block ≠ b.block) (hgr : a.grad = false)
    (hinj : ∀ i j, InBox a.sizes i → InBox a.sizes j → a.pos i = a.pos j → i = j)
    (hb : bshape a.sizes b.sizes = some s) (hns : ¬ stretched a.sizes b.sizes)
    (hg : ∀ idx, InBox a.sizes idx → accumAt da db a.sizes b.sizes s fa fb idx = some (g idx)) :
    Acts h env w (rename (fun v => (w.vars.map env).getD v 0) (.addAssign x y)) fun w' => ∃ vals', vals'.length = vals.length ∧
        (∀ idx, InBox a.sizes idx → vals'[a.pos idx]? = some (g idx)) ∧
        (∀ q, (∀ idx, InBox a.sizes idx → a.pos idx ≠ q) → vals'[q]? = vals[q]?) ∧
        w' = { w with mem := w.mem.set a.block ⟨da, vals'⟩ } := by
  obtain ⟨o, i, H⟩ := S.get hx
  obtain ⟨o', i', H'⟩ := S.get hy
  have hne : i.data ≠ i'.data := by
    rw [H.data, H'.data]
    exact fun e => hbl (S.locInj _ _ H.blk H'.blk e)
  have hpl : ∀ idx, InBox i.view.sizes idx → position i.view idx = a.pos idx := by rw [H.sizes]; exact H.place
  exact S.added H H' hvals (addAssign_ok (s := s) (g := g) H.impl H'.impl H.reads H'.reads hne (by rw [H.grad]; exact hgr)
    (by rw [H.sizes, H'.sizes]; exact hb) (by rw [H.sizes, H'.sizes]; exact hns)
    (fun p q hp hq e => by rw [hpl p hp, hpl q hq] at e; exact hinj p q (H.sizes ▸ hp) (H.sizes ▸ hq) (by exact_mod_cast e))
    (by rw [H.sizes, H'.sizes, H.dtype, H'.dtype]; exact hg))

theorem Mirrors.addShared (S : Mirrors h env loc w) {x y a b dt fa fb} {vals : List (Val F)} {m : Nat → Val F}
    (hx : Carries w x a dt fa) (hy : Carries w y b dt fb) (hvals : w.mem[a.block]? = some ⟨dt, vals⟩) (hbl : a.block = b.block) (hgr : a.grad = false)
    (hm : addEach dt dt a.sizes b.sizes a.pos b.pos (rowMajor (maxShape a.sizes b.sizes)) (fun n => vals.getD n (zeroElem dt)) = .done m) :
    Acts h env w (rename (fun v => (w.vars.map env).getD v 0) (.addAssign x y)) fun w' => ∃ vals', vals'.length = vals.length ∧
        (∀ idx, InBox a.sizes idx → vals'[a.pos idx]? = some (m (a.pos idx))) ∧
        (∀ q, (∀ idx, InBox a.sizes idx → a.pos idx ≠ q) → vals'[q]? = vals[q]?) ∧
        w' = { w with mem := w.mem.set a.block ⟨dt, vals'⟩ } := by
  obtain ⟨o, i, H⟩ := S.get hx
  obtain ⟨o', i', H'⟩ := S.get hy
  have hval : ∀ {v r f}, Carries w v r dt f → r.block = a.block → ∀ idx, InBox r.sizes idx → f idx = vals.getD (r.pos idx) (zeroElem dt) := by
    rintro v r f ⟨_, vals2, _, _, k1, k2⟩ hr idx hi
    rw [hr, hvals] at k1
    injection k1 with k1
    injection k1 with _ k1
    subst k1
    rw [List.getD_eq_getElem?_getD, k2 idx hi]
    rfl
  refine S.added H H' hvals (addAssign_shared (p := a.pos) (q := b.pos) (m := fun n => vals.getD n (zeroElem dt)) (m' := m) H.impl H'.impl ?_ ?_
    (by rw [H.data, H'.data, hbl]) (by rw [H.grad]; exact hgr) (by rw [H.sizes]; exact H.place) (by rw [H'.sizes]; exact H'.place)
    (by rw [H.sizes, H'.sizes, H.dtype, H'.dtype]; exact hm))
  · exact H.reads.congr (by rw [H.sizes]; exact hval hx rfl)
  · exact H'.reads.congr (by rw [H'.sizes]; exact hval hy hbl.symm)

/-- Changing flags of the object `o`. -/
theorem Mirrors.flag (S : Mirrors h env loc w) {c : Call F} {v r dt f o i} {b g : Bool} (H : Here h env loc w v r dt f o i)
    (e : c.run h = .ok none { h with ts := h.ts.set (env o) { i with requiresGrad := b, retainGrad := g } }) (ha : Allowed h c)
    (hva : ∀ a ∈ args c, Owned h a) :
    Acts h env w c fun w' => ∃ o, w.vars[v]? = some o ∧ w' = { w with objs := w.objs.set o { r with grad := b } } := by
  have hmem := mem_call (valid_history S.hist) ha fun a h => (hva a h).1
  rw [e] at hmem
  have holt := getElem?_lt H.at'
  have hk := ak_run c h
  rw [e] at hk
  refine ⟨none, _, _, env, loc, e, ⟨o, H.var, rfl⟩, ⟨S.hist.returned e, ?_, S.block, fun ob r' hob => ?_, ?_, S.locInj, S.apart_keep hk⟩, by simp⟩
  · simp only [List.length_set]; exact S.vars
  · by_cases heq : ob = o
    · subst heq
      simp only [List.getElem?_set_self holt, Option.some.injEq] at hob
      subst hob
      obtain ⟨i2, c2, p1, p2, p3, p4, p5, p6, p7, p8⟩ := S.obj ob r H.at'
      rw [H.impl] at p1
      obtain rfl := Option.some.inj p1
      exact ⟨_, c2, List.getElem?_set_self (getElem?_lt H.impl), p2, p3, p4, p5, rfl, p7, p8.retains hmem.1⟩
    · simp only [List.getElem?_set_ne (Ne.symm heq)] at hob
      obtain ⟨i2, c2, p1, p2, p3, p4, p5, p6, p7, p8⟩ := S.obj ob r' hob
      refine ⟨i2, c2, ?_, p2, p3, p4, p5, p6, p7, p8.retains hmem.1⟩
      simp only
      rw [List.getElem?_set_ne]
      · exact p1
      · exact fun he => heq (S.envInj _ _ (getElem?_lt hob) holt he.symm)
  · simp only [List.length_set]; exact S.envInj

omit [FOps F] in
theorem Sits.same {h h' : Heap F} {i : Impl} (hs : Sits h i) (e : h'.st[i.data]? = h.st[i.data]?) : Sits h' i := by
  refine ⟨⟨hs.strides, hs.offset, by rw [e]; exact hs.cells⟩, fun p hp => ?_⟩
  have := hs.full p
  unfold Spot Ready at *
  rw [e] at hp ⊢
  exact this hp

/-- A change of gradients keeps the simulation. -/
theorem Mirrors.quiet (S : Mirrors h env loc w) {h' : Heap F} (hh : History h') (hk : AK false h h')
    (ht : ∀ (x : Nat) (i : Impl), h.ts[x]? = some i → ∃ i', h'.ts[x]? = some i' ∧ i'.dtype = i.dtype ∧ i'.view = i.view ∧ i'.data = i.data ∧
      i'.requiresGrad = i.requiresGrad)
    (hs : ∀ d, d < h.st.length → ¬ GradIn h d → h'.st[d]? = h.st[d]?) : Mirrors h' env loc w := by
  refine ⟨hh, S.vars, fun b c hb => ?_, fun o r ho => ?_, S.envInj, S.locInj, S.apart_keep hk⟩
  · rw [hs _ (S.loc_lt (getElem?_lt hb)) (S.apart _ (getElem?_lt hb))]
    exact S.block b c hb
  · obtain ⟨i, c, e1, e2, e3, e4, e5, e6, e7, j, hj, e8, e9⟩ := S.obj o r ho
    rw [e1] at hj
    obtain rfl := Option.some.inj hj
    obtain ⟨i', k1, k2, k3, k4, k5⟩ := ht _ i e1
    have hb := getElem?_lt e2
    refine ⟨i', c, k1, e2, k4.trans e3, k2.trans e4, by rw [k3]; exact e5, k5.trans e6, by rw [k3]; exact e7, i', k1, ?_, by rw [k3]; exact e9⟩
    exact (e8.same (by rw [e3]; exact hs _ (S.loc_lt hb) (S.apart _ hb))).flags k2 k3 k4

/-- `backward()` keeps the simulation. -/
theorem Mirrors.backward (S : Mirrors h env loc w) {t : Nat} {h' : Heap F} (hp : Propagates t h h') : Mirrors h' env loc w := by
  have hb := backward_frame S.hist hp
  have hk := ak_backward t h
  refine S.quiet ?_ ?_ (fun x i hi => ?_) fun d hd hn => ?_
  · rcases hp with e | ⟨x, e⟩
    · exact S.hist.returned (c := .backward t) (none_run e)
    · refine S.hist.threw (c := .backward t) (e := x) ?_
      simp only [Call.run, none']
      rw [M.bind_def, e]
  · rcases hp with e | ⟨x, e⟩ <;> rw [e] at hk <;> exact hk
  · obtain ⟨i', hi', e1, e2, e3, e4, _⟩ := C52_inside S.hist hp hi
    exact ⟨i', hi', e1, e2, e3, e4⟩
  · refine hb.store d ?_
    rintro (hw | ⟨y, _, hg⟩)
    · omega
    · exact hn ⟨y, hg⟩

theorem addressable {t : Nat} (hv : Var h t) : Addressable h t := by
  obtain ⟨i, hi, hs, _⟩ := hv
  obtain ⟨s, c, h1, h2, h3, h4, h5⟩ := hs.cells
  intro j hj idx hb
  rw [hi] at hj
  obtain rfl := Option.some.inj hj
  obtain ⟨p, e, hp⟩ := h5 idx hb
  have := Nat.mul_le_mul_right i.dtype.size (Nat.le_of_lt hp)
  rw [e]
  have : ((p * i.dtype.size : Nat) : Int) < 9223372036854775808 := by omega
  simpa using this

/-- Every call simulates its rule. -/
theorem Mirrors.call (S : Mirrors h env loc w) {c : Call F} {Q : World F → Prop} (hr : Rule w c Q) :
    Acts h env w (rename (fun v => (w.vars.map env).getD v 0) c) Q := by
  cases hr with
  | arith hl hr hb hns hm hg => exact S.arith hl hr hb hns hm hg
  | neg hh hm hg => exact S.neg hh hm hg
  | toType hh hne hgr hm hg => exact S.toType hh hne hgr hm hg
  | sameType hh hgr hm => exact S.sameType hh hgr
  | pos hh =>
    obtain ⟨o, i, H⟩ := S.get hh
    simp only [rename]
    rw [H.handle]
    exact S.same H rfl
  | abs hh hm hin hinj hg => exact S.abs hh hm hin hinj hg
  | max hh hm h0 hz ho hfl =>
    obtain ⟨o, i, H⟩ := S.get hh
    simp only [rename]
    rw [H.handle]
    exact S.extreme .ge H hm h0 hz ho hfl rfl rfl (at_here H (by rw [H.sizes, H.dtype]; exact ⟨h0, hm⟩)) H.one
  | min hh hm h0 hz ho hfl =>
    obtain ⟨o, i, H⟩ := S.get hh
    simp only [rename]
    rw [H.handle]
    exact S.extreme .le H hm h0 hz ho hfl rfl rfl (at_here H (by rw [H.sizes, H.dtype]; exact ⟨h0, hm⟩)) H.one
  | cat hbs hne hd ht hm => exact S.cat hbs hne hd ht hm
  | slice hh h0 hsp hsel h64 hst => exact S.slice hh h0 hsp hsel h64 hst
  | transpose hh h0 ha hb hab => exact S.transpose hh h0 ha hb hab
  | reshape hh h0 hm ha hv hns => exact S.reshape hh h0 hm ha hv hns
  | reshapeAs hh hu h0 hm hv hns => exact S.reshapeAs hh hu h0 hm hv hns
  | detach hh => exact S.detach hh
  | addAssign hx hy hv hb hg hi hs hn ha => exact S.addAssign hx hy hv hb hg hi hs hn ha
  | addShared hx hy hv hb hg hm => exact S.addShared hx hy hv hb hg hm
  | @requiresGrad v r dt f b hh hb =>
    obtain ⟨o, i, H⟩ := S.get hh
    simp only [rename]
    rw [H.handle]
    refine S.flag (g := i.retainGrad) H (none_run (a := ()) ?_) trivial H.one
    have hs := C34_set h (env o) i H.impl
    cases b
    · exact hs.2.2
    · refine hs.2.1 ?_
      have := hb rfl
      rw [H.dtype]
      cases dt <;> first | rfl | cases this
  | @retainGrad v r dt f b hh =>
    obtain ⟨o, i, H⟩ := S.get hh
    simp only [rename]
    rw [H.handle]
    have e : Tensor.setRetainGrad (env o) b h = .ok () { h with ts := h.ts.set (env o) { i with requiresGrad := i.requiresGrad, retainGrad := b } } := by
      unfold Tensor.setRetainGrad
      rw [M.bind_ok (getT_ok H.impl)]
      rfl
    obtain ⟨x, h', w', env', loc', a1, ⟨o', a2, a3⟩, a4⟩ := S.flag (c := .setRetainGrad (env o) b) H (none_run e) trivial H.one
    rw [H.var] at a2
    obtain rfl := Option.some.inj a2
    refine ⟨x, h', w', env', loc', a1, ?_, a4⟩
    rw [a3]
    have : w.objs.set o { r with grad := i.requiresGrad } = w.objs := by
      rw [H.grad]
      refine List.ext_getElem? fun k => ?_
      rw [List.getElem?_set]
      split
      · next hk => subst hk; rw [if_pos (getElem?_lt H.at'), H.at']
      · rfl
    rw [this]
  | zeroGrad hh =>
    obtain ⟨o, i, H⟩ := S.get hh
    simp only [rename]
    rw [H.handle]
    obtain ⟨h', e, ets, est⟩ := C56_zero_grad S.hist (getElem?_lt H.impl)
    have hrun : (Call.zeroGrad (env o) : Call F).run h = .ok none h' := none_run e
    have hk := ak_run (Call.zeroGrad (env o)) h
    rw [hrun] at hk
    refine ⟨none, h', w, env, loc, hrun, rfl, ?_, by simp⟩
    exact S.quiet (S.hist.returned hrun) hk (fun x i hi => ⟨i, by rw [ets]; exact hi, rfl, rfl, rfl, rfl⟩) fun d _ hn => est d fun e => hn ⟨_, e⟩
  | toString hh =>
    obtain ⟨o, i, H⟩ := S.get hh
    simp only [rename]
    rw [H.handle]
    exact S.reads (none_run (toString_ok H.denotes (addressable H.good.1)))
  | query hh =>
    obtain ⟨o, i, H⟩ := S.get hh
    simp only [rename]
    rw [H.handle]
    exact S.reads (none_run (getT_ok H.impl))
  | scalar a => exact S.makes (.scalar a) trivial
  | init a b c d => exact S.makes (.init a b c d) trivial
  | zeros a => exact S.makes (.zeros a) trivial
  | ones a => exact S.makes (.ones a) trivial
  | zerosLike a b => exact S.makes (.zerosLike a b) trivial
  | onesLike a b => exact S.makes (.onesLike a b) trivial
  | fullInt a b c => exact S.makes (.fullInt a b c) trivial
  | fullReal a b => exact S.makes (.fullReal a b) trivial
  | eye a => exact S.makes (.eye a) trivial
  | fromBlob a b c d => exact S.makes (.fromBlob a b c d) trivial
  | randn a => exact S.makes (.randn a) trivial
  | randnLike a b => exact S.makes (.randnLike a b) trivial
  | clone a b => exact S.makes (.clone a b) trivial
  | contiguous a b => exact S.makes (.contiguous a b) trivial
  | cmp a b c d e => exact S.makes (.cmp a b c d e) trivial
  | sum a b c => exact S.makes (.sum a b c) trivial
  | mean a b c => exact S.makes (.mean a b c) trivial

/-- Every program simulates its meaning. -/
theorem Mirrors.follows (p : List (Command F)) : ∀ {h : Heap F} {env loc : Nat → Nat} {w : World F}, Mirrors h env loc w →
    ∀ {P : World F → Prop}, Follows p w P →
    (∃ vs h' w' env' loc', perform p (w.vars.map env) h = .ok vs h' ∧ P w' ∧ Mirrors h' env' loc' w' ∧ vs = w'.vars.map env') ∨
      Breaks p (w.vars.map env) h := by
  induction p with
  | nil => intro h env loc w S P hp; exact .inl ⟨_, h, w, env, loc, rfl, hp, S, rfl⟩
  | cons s p ih =>
    intro h env loc w S P hp
    -- one command that takes the program to another state
    have step : ∀ {h1 : Heap F} {env1 loc1 : Nat → Nat} {w1 : World F}, Mirrors h1 env1 loc1 w1 → Follows p w1 P →
        (∀ q, perform (s :: q) (w.vars.map env) h = perform q (w1.vars.map env1) h1) →
        (∃ vs h' w' env' loc', perform (s :: p) (w.vars.map env) h = .ok vs h' ∧ P w' ∧ Mirrors h' env' loc' w' ∧ vs = w'.vars.map env') ∨
          Breaks (s :: p) (w.vars.map env) h := fun S1 hf e => by
      rcases ih S1 hf with ⟨vs, h2, w2, env2, loc2, e2, q2, S2, m2⟩ | ⟨a, v, b, vs, h2, u, e1, e2, e3⟩
      · exact .inl ⟨vs, h2, w2, env2, loc2, by rw [e, e2], q2, S2, m2⟩
      · exact .inr ⟨s :: a, v, b, vs, h2, u, by rw [e1]; rfl, by rw [e, e2], e3⟩
    cases s with
    | call c =>
      obtain ⟨Q, hr, hq⟩ := hp
      obtain ⟨o, h1, w1, env1, loc1, e1, q1, S1, m1⟩ := S.call hr
      refine step S1 (hq w1 q1) fun q => ?_
      rw [perform, M.bind_ok e1, ← m1]
    | copy v =>
      obtain ⟨o, ho, hp⟩ := hp
      refine step (S.again ho) hp fun q => ?_
      rw [perform]
      simp only [List.map_append, List.map_cons, List.map_nil]
      rw [List.getD_eq_getElem?_getD, List.getElem?_map, ho]
      rfl
    | assign v u =>
      obtain ⟨o, ho, hv, hp⟩ := hp
      have S1 : Mirrors h env loc { w with vars := w.vars.set v o } := by
        refine ⟨S.hist, fun x y hxy => ?_, S.block, S.obj, S.envInj, S.locInj, S.apart⟩
        by_cases hvx : v = x
        · subst hvx
          simp only [List.getElem?_set_self hv, Option.some.injEq] at hxy
          subst hxy
          exact S.vars u _ ho
        · simp only [List.getElem?_set_ne hvx] at hxy
          exact S.vars x y hxy
      refine step S1 hp fun q => ?_
      rw [perform]
      simp only [List.map_set]
      rw [List.getD_eq_getElem?_getD, List.getElem?_map, ho]
      rfl
    | attempt v =>
      obtain ⟨hv, hp⟩ := hp
      cases hb : Tensor.backward ((w.vars.map env).getD v 0) h with
      | ok a h1 => exact step (S.backward (.inl hb)) hp fun q => by rw [perform]; simp only [hb]
      | throw x h1 => exact step (S.backward (.inr ⟨x, hb⟩)) hp fun q => by rw [perform]; simp only [hb]
      | ub u => exact .inr ⟨[], v, p, _, h, u, rfl, rfl, hb⟩

/-- Every program without `backward` simulates its meaning, and is defined. -/
theorem Mirrors.program (p : List (Command F)) : ∀ {h : Heap F} {env loc : Nat → Nat} {w : World F}, Mirrors h env loc w →
    ∀ {P : World F → Prop}, Means p w P →
    ∃ vs h' w' env' loc', perform p (w.vars.map env) h = .ok vs h' ∧ P w' ∧ Mirrors h' env' loc' w' ∧ vs = w'.vars.map env' := by
  induction p with
  | nil => intro h env loc w S P hp; exact ⟨_, h, w, env, loc, rfl, hp, S, rfl⟩
  | cons s p ih =>
    intro h env loc w S P hp
    cases s with
    | call c =>
      obtain ⟨Q, hr, hq⟩ := hp
      obtain ⟨o, h1, w1, env1, loc1, e1, q1, S1, m1⟩ := S.call hr
      obtain ⟨vs, h2, w2, env2, loc2, e2, q2, S2, m2⟩ := ih S1 (hq w1 q1)
      refine ⟨vs, h2, w2, env2, loc2, ?_, q2, S2, m2⟩
      unfold perform
      rw [M.bind_ok e1, ← m1]
      exact e2
    | copy v =>
      obtain ⟨o, ho, hp⟩ := hp
      obtain ⟨vs, h2, w2, env2, loc2, e2, q2, S2, m2⟩ := ih (S.again ho) hp
      refine ⟨vs, h2, w2, env2, loc2, ?_, q2, S2, m2⟩
      unfold perform
      rw [← e2]
      simp only [List.map_append, List.map_cons, List.map_nil]
      rw [List.getD_eq_getElem?_getD, List.getElem?_map, ho]
      rfl
    | assign v u =>
      obtain ⟨o, ho, hv, hp⟩ := hp
      have S1 : Mirrors h env loc { w with vars := w.vars.set v o } := by
        refine ⟨S.hist, fun x y hxy => ?_, S.block, S.obj, S.envInj, S.locInj, S.apart⟩
        by_cases hvx : v = x
        · subst hvx
          simp only [List.getElem?_set_self hv, Option.some.injEq] at hxy
          subst hxy
          exact S.vars u _ ho
        · simp only [List.getElem?_set_ne hvx] at hxy
          exact S.vars x y hxy
      obtain ⟨vs, h2, w2, env2, loc2, e2, q2, S2, m2⟩ := ih S1 hp
      refine ⟨vs, h2, w2, env2, loc2, ?_, q2, S2, m2⟩
      unfold perform
      rw [← e2]
      simp only [List.map_set]
      rw [List.getD_eq_getElem?_getD, List.getElem?_map, ho]
      rfl
    | attempt v => exact absurd hp id

/-- If a call of `backward` is undefined, so is the program. -/
theorem breaks_ub {p : List (Command F)} {vs : List Nat} {h : Heap F} (hb : Breaks p vs h) : ∃ u, perform p vs h = .ub u := by
  obtain ⟨a, v, b, vs', h', u, e1, e2, e3⟩ := hb
  have key : ∀ (a : List (Command F)) (vs0 : List Nat) (h0 : Heap F), perform a vs0 h0 = .ok vs' h' →
      perform (a ++ .attempt v :: b) vs0 h0 = .ub u := by
    intro a
    induction a with
    | nil => intro vs0 h0 e; cases e; simp only [List.nil_append, perform, e3]
    | cons c a ih =>
      intro vs0 h0 e
      cases c with
      | call c =>
        simp only [List.cons_append, perform, M.bind_def] at e ⊢
        cases hc : (rename (fun v => vs0.getD v 0) c).run h0 with
        | ok o h1 => rw [hc] at e; exact ih _ _ e
        | throw x h1 => rw [hc] at e; cases e
        | ub u => rw [hc] at e; cases e
      | copy x => exact ih _ _ e
      | assign x y => exact ih _ _ e
      | attempt x =>
        simp only [List.cons_append, perform] at e ⊢
        cases hc : Tensor.backward (vs0.getD x 0) h0 with
        | ok o h1 => simp only [hc] at e ⊢; exact ih _ _ e
        | throw y h1 => simp only [hc] at e ⊢; exact ih _ _ e
        | ub u => simp only [hc] at e; cases e
  exact ⟨u, by rw [e1]; exact key a _ _ e2⟩

omit [FOps F] in
theorem getElem?_map' {α β : Type} {f : α → β} {l : List α} {k : Nat} {x : α} (h : l[k]? = some x) : (l.map f)[k]? = some (f x) := by
  rw [List.getElem?_map, h]; rfl

theorem Mirrors.represents (S : Mirrors h env loc w) : Represents h (w.vars.map env) w where
  length := by simp
  holds := fun v hv => by
    have ho := List.getElem?_eq_getElem hv
    have hlt := S.vars v _ ho
    have hr := List.getElem?_eq_getElem hlt
    obtain ⟨i, c, e1, e2, e3, e4, e5, e6, e7, e8⟩ := S.obj _ _ hr
    refine ⟨_, c.dt, fun idx => (c.vals[(w.objs[w.vars[v]]).pos idx]?).getD (zeroElem c.dt), _, c.vals, ho, hr, e2, fun idx hb => ?_⟩
    have := (e7 idx hb).2
    simp only at this ⊢
    rw [List.getElem?_eq_getElem this]
    rfl
  denotes := fun v r dt f hh => by
    obtain ⟨o, i, H⟩ := S.get hh
    exact ⟨env o, i, getElem?_map' H.var, H.impl, H.denotes, H.grad⟩
  object := fun v u hv hu => by
    have hv' := List.getElem?_eq_getElem hv
    have hu' := List.getElem?_eq_getElem hu
    rw [getElem?_map' hv', getElem?_map' hu', hv', hu']
    simp only [Option.some.injEq]
    exact ⟨fun e => S.envInj _ _ (S.vars _ _ hv') (S.vars _ _ hu') e, fun e => by rw [e]⟩
  place := fun v r dt f u r' dt' f' t t' k k' hh hh' ht ht' hk hk' => by
    obtain ⟨o, i, H⟩ := S.get hh
    obtain ⟨o', i', H'⟩ := S.get hh'
    rw [getElem?_map' H.var] at ht
    rw [getElem?_map' H'.var] at ht'
    obtain rfl := Option.some.inj ht
    obtain rfl := Option.some.inj ht'
    constructor
    · rintro ⟨j, j', q1, q2, q3, q4, q5, q6⟩
      rw [H.impl] at q1
      obtain rfl := Option.some.inj q1
      rw [H'.impl] at q2
      obtain rfl := Option.some.inj q2
      rw [H.data, H'.data] at q3
      rw [H.place k hk, H'.place k' hk'] at q6
      exact ⟨S.locInj _ _ H.blk H'.blk q3, by exact_mod_cast q6⟩
    · rintro ⟨e1, e2⟩
      refine ⟨i, i', H.impl, H'.impl, by rw [H.data, H'.data, e1], H.sizes.symm ▸ hk, H'.sizes.symm ▸ hk', ?_⟩
      rw [H.place k hk, H'.place k' hk', e2]

theorem mirrors_start : Mirrors (Heap.empty : Heap F) (fun _ => 0) (fun _ => 0) World.start where
  hist := .start
  vars := fun v o hv => by simp [World.start] at hv
  block := fun b c hb => by simp [World.start] at hb
  obj := fun o r ho => by simp [World.start] at ho
  envInj := fun o o' ho => by simp [World.start] at ho
  locInj := fun o o' ho => by simp [World.start] at ho
  apart := fun b hb => by simp [World.start] at hb

end
end INNC
