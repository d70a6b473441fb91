import Verif.Lemmas.ProgramCalls
/-
Programs: calls that return views or the same object, and calls that change something.
-/
namespace INNC
open Spec Tensor
variable {F : Type} [FOps F]

section
variable {h : Heap F} {env loc : Nat → Nat} {w : World F}

theorem Mirrors.again (S : Mirrors h env loc w) {v o : Nat} (hv : w.vars[v]? = some o) :
    Mirrors h env loc { w with vars := w.vars ++ [o] } := by
  refine ⟨S.hist, fun v' o' h' => ?_, S.block, S.obj, S.envInj, S.locInj, S.apart⟩
  have := List.mem_of_getElem? h'
  simp only [List.mem_append, List.mem_singleton] at this
  rcases this with h1 | rfl
  · exact S.var_lt o' h1
  · exact S.vars v _ hv

theorem Mirrors.same (S : Mirrors h env loc w) {c : Call F} {v : Nat} {r dt f o i} (H : Here h env loc w v r dt f o i)
    (e : c.run h = .ok (some (env o)) h) : Acts h env w c (Again w v) :=
  ⟨_, h, { w with vars := w.vars ++ [o] }, env, loc, e, ⟨o, H.var, rfl⟩, S.again H.var, by simp⟩

/-- Calls that return a view. -/
theorem Mirrors.viewed (S : Mirrors h env loc w) {c : Call F} {h' : Heap F} {t : Nat} {v : Nat} {r dt f o i} {j : Impl}
    {s : List Nat} {σ : List Nat → List Nat} {b : Bool} (H : Here h env loc w v r dt f o i)
    (e : c.run h = .ok (some t) h') (hf : flagged c = none) (ha : Allowed h c) (hv : ∀ a ∈ args c, Owned h a)
    (hx : Preserves h h') (hj : h'.ts[t]? = some j) (hdt : j.dtype = i.dtype) (hd : j.data = i.data) (hs : j.view.sizes = s)
    (hσ : ∀ idx, InBox s idx → InBox r.sizes (σ idx) ∧ position j.view idx = position i.view (σ idx)) (hg : j.requiresGrad = b)
    (htl : h.ts.length ≤ t) : Acts h env w c (· = w.view r s σ b) := by
  obtain ⟨S', hv'⟩ := S.keep e hx hf ha hv
  obtain ⟨i', hi', e1, e2, e3⟩ := hx.ts _ _ H.impl
  obtain ⟨env', S2, hm⟩ := S'.addView (t := t) (i := i') (j := j) (s := s) (σ := σ) H.at' hi' hj (hdt.trans e1.symm) (hd.trans e3.symm) hs
    (by rw [e2]; exact hσ) (hv' t rfl).1 (fun o ho he => by have := S.env_lt ho; omega)
  subst hg
  exact ⟨some t, h', _, env', loc, e, rfl, S2, hm⟩

omit [FOps F] in
theorem stepsFit_of_short : ∀ {specs : List AxisSpec} {sizes : List Nat} {strides : List Int}, ShortSteps specs sizes →
    strides.length = sizes.length → Tame sizes strides → StepsFit specs strides
  | [], _, _, _, _, _ => by simp [StepsFit]
  | x :: ss, [], [], _, _, _ => by cases x <;> simp [StepsFit]
  | _ :: _, [], _ :: _, _, hl, _ => by simp at hl
  | _ :: _, _ :: _, [], _, hl, _ => by simp at hl
  | .index k :: ss, n :: ns, st :: sts, hs, hl, ht => by
    simp only [StepsFit]
    exact stepsFit_of_short (by simpa [ShortSteps] using hs) (by simpa using hl) ht.2.2.2
  | .range a b none :: ss, n :: ns, st :: sts, hs, hl, ht => by
    simp only [StepsFit]
    exact stepsFit_of_short (by simpa [ShortSteps] using hs) (by simpa using hl) ht.2.2.2
  | .range a b (some k) :: ss, n :: ns, st :: sts, hs, hl, ht => by
    simp only [ShortSteps] at hs
    obtain ⟨hk, hs⟩ := hs
    obtain ⟨h1, h2, h3, h4⟩ := ht
    simp only [StepsFit]
    refine ⟨?_, ?_, stepsFit_of_short hs (by simpa using hl) h4⟩
    · rcases hk with rfl | hk <;> omega
    · rcases hk with rfl | hk
      · simpa using h2
      · have h5 : k.natAbs * st.natAbs ≤ st.natAbs * (n - 1) := by
          rw [Nat.mul_comm]; exact Nat.mul_le_mul_left _ (by omega)
        have h6 : (k * st).natAbs = k.natAbs * st.natAbs := Int.natAbs_mul _ _
        unfold IsI64
        omega

theorem Here.tame {v r dt f o i} (H : Here h env loc w v r dt f o i) (h0 : vol r.sizes ≠ 0) : Tame i.view.sizes i.view.strides := by
  obtain ⟨i', hi', _, ht⟩ := H.good.1
  rw [H.impl] at hi'
  obtain rfl := Option.some.inj hi'
  exact ht (by rw [H.sizes]; exact h0)

theorem Here.one {v r dt f o i} (H : Here h env loc w v r dt f o i) : ∀ x ∈ [env o], Owned h x :=
  fun x hx => by simp only [List.mem_singleton] at hx; subst hx; exact H.good

theorem Mirrors.slice (S : Mirrors h env loc w) {v r dt f str specs} (hh : Carries w v r dt f) (h0 : vol r.sizes ≠ 0)
    (hsp : Spells specs str) (hsel : Selects specs r.sizes) (h64 : ∀ x ∈ specs, x.Is64) (hst : ShortSteps specs r.sizes) :
    Acts h env w (rename (fun v => (w.vars.map env).getD v 0) (.slice v str))
      (· = w.view r (selShape specs r.sizes) (selIndex specs r.sizes) r.grad) := by
  obtain ⟨o, i, H⟩ := S.get hh
  have ht := H.tame h0
  obtain ⟨lv, e, e1, _, sv⟩ := slice_view H.impl H.reads ht hsp (by rw [H.sizes]; exact hsel) h64
    (stepsFit_of_short (by rw [H.sizes]; exact hst) H.reads.strides ht)
  rw [H.sizes] at e1 sv
  obtain ⟨h', e2, vm⟩ := makeView_ok H.impl (fun _ g hg => (valid_history S.hist).grad _ g i H.impl hg) i.dtype lv i.data
  obtain ⟨j, hj, d1, d2, d3, d4, _⟩ := vm.obj
  simp only [rename]
  rw [H.handle]
  refine S.viewed H (some_run (e.trans e2)) rfl trivial H.one vm.pres hj d1 d3 (by rw [d2, e1]) (fun idx hb => ?_) (d4.trans H.grad) (Nat.le_refl _)
  have := sv.pos idx (by rw [e1]; exact hb)
  rw [d2]
  exact ⟨H.sizes ▸ this.1, this.2⟩

theorem Mirrors.transpose (S : Mirrors h env loc w) {v r dt f a b} (hh : Carries w v r dt f) (h0 : vol r.sizes ≠ 0)
    (ha : a < r.sizes.length) (hb : b < r.sizes.length) (hab : a ≠ b) :
    Acts h env w (rename (fun v => (w.vars.map env).getD v 0) (.transpose v a b))
      (· = w.view r (swapped r.sizes a b) (fun idx => swapped idx a b) r.grad) := by
  obtain ⟨o, i, H⟩ := S.get hh
  obtain ⟨lv, e, e1, _, sv⟩ := transpose_view H.impl H.reads (H.tame h0) (by rw [H.sizes]; exact ha) (by rw [H.sizes]; exact hb) hab
  rw [H.sizes] at e1
  obtain ⟨h', e2, vm⟩ := makeView_ok H.impl (fun _ g hg => (valid_history S.hist).grad _ g i H.impl hg) i.dtype lv i.data
  obtain ⟨j, hj, d1, d2, d3, d4, _⟩ := vm.obj
  simp only [rename]
  rw [H.handle]
  refine S.viewed H (some_run (e.trans e2)) rfl trivial H.one vm.pres hj d1 d3 (by rw [d2, e1]) (fun idx hb => ?_) (d4.trans H.grad) (Nat.le_refl _)
  have := sv.pos idx (by rw [e1]; exact hb)
  rw [d2]
  exact ⟨by rw [← H.sizes]; exact this.1, this.2⟩

theorem Mirrors.detach (S : Mirrors h env loc w) {v r dt f} (hh : Carries w v r dt f) :
    Acts h env w (rename (fun v => (w.vars.map env).getD v 0) (.detach v)) (· = w.view r r.sizes id false) := by
  obtain ⟨o, i, H⟩ := S.get hh
  simp only [rename]
  rw [H.handle]
  have e : Tensor.detach (env o) h =
      .ok h.ts.length { h with ts := h.ts ++ [⟨i.dtype, i.view, i.data, none, false, false, none⟩] } := by
    unfold Tensor.detach
    rw [M.bind_ok (getT_ok H.impl)]
    rfl
  have hx : (h.ts ++ [(⟨i.dtype, i.view, i.data, none, false, false, none⟩ : Impl)])[h.ts.length]? =
      some ⟨i.dtype, i.view, i.data, none, false, false, none⟩ := by simp
  exact S.viewed H (some_run e) rfl trivial H.one
    ⟨fun u k hk => ⟨k, getElem?_append_some hk _, rfl, rfl, rfl⟩, fun d s hs => hs⟩ hx rfl rfl H.sizes (fun idx hb => ⟨hb, rfl⟩) rfl (Nat.le_refl _)

theorem Mirrors.reshapes (S : Mirrors h env loc w) {v : Nat} {r dt f o i} {c : Call F} {s : List Nat} (H : Here h env loc w v r dt f o i)
    (h0 : vol r.sizes ≠ 0) (hm : Modest r.sizes dt) (hv : vol s = vol r.sizes) (hns : r.grad = true → (r.sizes = [] ↔ s = []))
    (hrun : c.run h = some' (Tensor.reshapeSizes (env o) s) h) (hf : flagged c = none) (ha : Allowed h c) (hva : ∀ a ∈ args c, Owned h a) :
    Acts h env w c (Reshapes w r dt f s) := by
  obtain ⟨t, h', e, rs⟩ := reshapeSizes_ok (s' := s) H.impl H.reads (H.tame h0) (by rw [H.sizes]; exact hv)
    (by rw [H.sizes, H.dtype]; exact hm.bytes) (fun _ g hg => (valid_history S.hist).grad _ g i H.impl hg)
    (by rw [H.grad, H.sizes]; exact hns)
  obtain ⟨k, hk, k1, k2⟩ := rs.lay
  obtain ⟨j, hj, d1, d2, d3, d4, d5, d6⟩ := rs.obj
  rw [hk] at hj
  obtain rfl := Option.some.inj hj
  have hsp : ∀ idx, InBox s idx → InBox r.sizes (reindex r.sizes s idx) ∧ rank r.sizes (reindex r.sizes s idx) = rank s idx :=
    fun idx hb => ⟨reindex_inBox hv hb, rank_reindex hv hb⟩
  rw [H.sizes] at d3
  by_cases hown : (¬ ∃ c, Scaled c i.view.sizes i.view.strides) ∧ ¬ (vol i.view.sizes = 1 ∧ i.requiresGrad = false)
  · obtain ⟨x, h2, w', env', loc', a1, a2, a3, a4⟩ := S.newContig (s := s) (dt := dt) (b := r.grad) (hrun.trans (some_run e)) hf ha hva rs.pres hk d3 (d1.trans H.dtype) (k2 hown) (d4.trans H.grad) rs.new
      (d6 hown) (by have := hm.vol; omega)
    exact ⟨x, h2, w', env', loc', a1, ⟨_, hsp, .inr a2⟩, a3, a4⟩
  · obtain ⟨x, h2, w', env', loc', a1, a2, a3, a4⟩ := S.viewed (s := s) (σ := reindex r.sizes s) (b := r.grad) H (hrun.trans (some_run e)) hf ha hva rs.pres hk d1
      (d5 hown) d2 (fun idx hb => ⟨(hsp idx hb).1, H.sizes ▸ ((k1 hown).pos idx (by rw [d2]; exact hb)).2⟩) (d4.trans H.grad) rs.new
    exact ⟨x, h2, w', env', loc', a1, ⟨_, hsp, .inl a2⟩, a3, a4⟩

theorem Mirrors.reshape (S : Mirrors h env loc w) {v r dt f req s} (hh : Carries w v r dt f) (h0 : vol r.sizes ≠ 0) (hm : Modest r.sizes dt)
    (hask : Asks req s) (hv : vol s = vol r.sizes) (hns : r.grad = true → (r.sizes = [] ↔ s = [])) :
    Acts h env w (rename (fun v => (w.vars.map env).getD v 0) (.reshape v req)) (Reshapes w r dt f s) := by
  obtain ⟨o, i, H⟩ := S.get hh
  have hvl := hm.vol
  have hle : ∀ k ∈ s, k < 18446744073709551616 := fun k hk => by
    have := le_vol (by rw [hv]; exact h0) hk
    omega
  have hnil : req = [] ↔ s = [] := by
    rcases hask with rfl | ⟨a, m, b, rfl, _, rfl⟩
    · simp
    · simp
  have hreg : regularizeSize req (numel i.view.sizes) = .ok s := by
    rw [numel_eq_vol (by rw [H.sizes]; omega), H.sizes]
    rcases hask with rfl | ⟨a, m, b, rfl, h5, rfl⟩
    · exact regularizeSize_known hle fun hn => by rw [← hv, hn]; rfl
    · have hv' : m * vol (a ++ b) = vol r.sizes := by
        rw [← hv, vol_append, vol_append]
        show _ = vol a * (m * vol b)
        ring
      have hm0 : 0 < m := Nat.pos_of_ne_zero fun hc => h0 (by rw [← hv', hc, Nat.zero_mul])
      refine regularizeSize_infer (fun k hk => hle k ?_) h5 ?_ hv' (hle m (by simp))
      · simp only [List.mem_append, List.mem_cons] at hk ⊢; tauto
      · have := Nat.le_mul_of_pos_left (vol (a ++ b)) hm0
        omega
  simp only [rename]
  rw [H.handle]
  refine S.reshapes (c := .reshape (env o) req) H h0 hm hv hns ?_ rfl (at_here H ⟨by rw [H.sizes, H.dtype]; exact hm, ?_, ?_, fun hg => ?_⟩) H.one
  · show some' (Tensor.reshape (env o) req) h = _
    unfold some'
    show M.bind _ _ h = M.bind _ _ h
    unfold M.bind
    have : Tensor.reshape (env o) req h = Tensor.reshapeSizes (env o) s h := by
      unfold Tensor.reshape
      rw [M.bind_ok (getT_ok H.impl), hreg, M.bind_ok (M.lift_ok _ _)]
    rw [this]
  · intro z hz
    rcases hask with rfl | ⟨a, m, b, rfl, h5, rfl⟩
    · simp only [List.mem_map] at hz
      obtain ⟨n, _, rfl⟩ := hz
      omega
    · simp only [List.mem_append, List.mem_map, List.mem_cons] at hz
      rcases hz with ⟨n, _, rfl⟩ | rfl | ⟨n, _, rfl⟩ <;> omega
  · have key : ∀ u : List Nat, vol u ≤ vol s → Modest u .i8 := fun u hu => by
      unfold Modest
      rw [show DType.i8.size = 1 from rfl]
      omega
    rcases hask with rfl | ⟨a, m, b, rfl, h5, rfl⟩
    · rw [filter_known]; exact key _ (Nat.le_refl _)
    · rw [filter_infer]
      refine key _ ?_
      have hv' : m * vol (a ++ b) = vol (a ++ m :: b) := by
        rw [vol_append, vol_append]
        show _ = vol a * (m * vol b)
        ring
      have hm0 : 0 < m := Nat.pos_of_ne_zero fun hc => h0 (by rw [← hv, ← hv', hc, Nat.zero_mul])
      have := Nat.le_mul_of_pos_left (vol (a ++ b)) hm0
      omega
  · rw [H.sizes]; exact (hns (by rw [← H.grad]; exact hg)).trans hnil.symm

theorem Mirrors.reshapeAs (S : Mirrors h env loc w) {v r dt f u r' dt' f'} (hh : Carries w v r dt f) (hu : Carries w u r' dt' f')
    (h0 : vol r.sizes ≠ 0) (hm : Modest r.sizes dt) (hv : vol r'.sizes = vol r.sizes) (hns : r.grad = true → (r.sizes = [] ↔ r'.sizes = [])) :
    Acts h env w (rename (fun v => (w.vars.map env).getD v 0) (.reshapeAs v u)) (Reshapes w r dt f r'.sizes) := by
  obtain ⟨o, i, H⟩ := S.get hh
  obtain ⟨o', i', H'⟩ := S.get hu
  have hvl := hm.vol
  simp only [rename]
  rw [H.handle, H'.handle]
  refine S.reshapes (c := .reshapeAs (env o) (env o')) H h0 hm hv hns ?_ rfl
    (at_here H ⟨by rw [H.sizes, H.dtype]; exact hm, ?_, fun hg => ?_⟩) ?_
  · show some' (Tensor.reshapeAs (env o) (env o')) h = _
    unfold some'
    show M.bind _ _ h = M.bind _ _ h
    unfold M.bind
    have : Tensor.reshapeAs (env o) (env o') h = Tensor.reshapeSizes (env o) r'.sizes h := by
      unfold Tensor.reshapeAs
      rw [M.bind_ok (getT_ok H'.impl), H'.sizes]
    rw [this]
  · rw [shape_here H']
    unfold Modest
    rw [show DType.i8.size = 1 from rfl]
    omega
  · rw [H.sizes, shape_here H']; exact hns (by rw [← H.grad]; exact hg)
  · intro x hx
    simp only [args, List.mem_cons, List.not_mem_nil, or_false] at hx
    rcases hx with rfl | rfl
    · exact H.good
    · exact H'.good

/-- A call that changes nothing. -/
theorem Mirrors.reads (S : Mirrors h env loc w) {c : Call F} (e : c.run h = .ok none h) : Acts h env w c (· = w) :=
  ⟨none, h, w, env, loc, e, rfl, S, by simp⟩

theorem Mirrors.toType (S : Mirrors h env loc w) {v r dt f to' g} (hh : Carries w v r dt f) (hne : to' ≠ dt)
    (hgr : r.grad = true → isInteger to' = false) (hm : Modest r.sizes to')
    (hg : ∀ idx, InBox r.sizes idx → convert dt to' (f idx) = some (g idx)) :
    Acts h env w (rename (fun v => (w.vars.map env).getD v 0) (.toType v to')) (· = w.fresh to' r.sizes g r.grad) := by
  obtain ⟨o, i, H⟩ := S.get hh
  obtain ⟨h', e, b⟩ := toType_ok (dt := to') H.impl H.reads (by rw [H.dtype]; exact hne)
    (fun hc => by have := hgr (by rw [← H.grad]; exact hc.1); rw [hc.2] at this; cases this) (by rw [H.sizes]; exact hm.bytes)
    (by rw [H.sizes, H.dtype]; exact hg)
  rw [H.sizes] at b
  simp only [rename]
  rw [H.handle]
  exact S.built (some_run e) b (by rw [isSome_ite, H.grad]) rfl (by show Modest (shapeOf h (env o)) to'; rw [shape_here H]; exact hm) H.one
    (by have := hm.vol; omega)

theorem Mirrors.sameType (S : Mirrors h env loc w) {v r dt f} (hh : Carries w v r dt f) (hgr : r.grad = true → isInteger dt = false) :
    Acts h env w (rename (fun v => (w.vars.map env).getD v 0) (.toType v dt)) (Again w v) := by
  obtain ⟨o, i, H⟩ := S.get hh
  simp only [rename]
  rw [H.handle]
  refine S.same H (some_run ?_)
  unfold Tensor.toType
  rw [M.bind_ok (getT_ok H.impl)]
  have : (i.requiresGrad && dt.isInt) = false := by
    rw [H.grad]
    cases hr : r.grad
    · rfl
    · have := hgr hr
      cases dt <;> first | rfl | cases this
  rw [this, if_neg (by simp), if_pos H.dtype.symm]
  rfl

end
end INNC
