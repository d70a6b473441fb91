import Verif.Lemmas.Watch
import Verif.Spec.Order
/-
Two computations on the same variables, in either order.
-/
namespace INNC
open Spec Tensor
section
variable {F : Type}

theorem Carried.trans {W W' W'' : Naming F} {h h' h'' k k' k'' : Heap F} (M : Carried W W' h h' k k') (N : Carried W' W'' h' h'' k' k'') :
    Carried W W'' h h'' k k'' where
  inside := N.inside
  tlen := M.tlen.trans N.tlen
  slen := M.slen.trans N.slen
  old x hx := (N.old x (hx.trans_le M.tlen)).trans (M.old x hx)
  oldS x hx := (N.oldS x (hx.trans_le M.slen)).trans (M.oldS x hx)
  new x hx := by
    by_cases hx' : x < h'.ts.length
    · rw [N.old x hx']; exact M.new x hx
    · have := N.new x (Nat.not_lt.1 hx'); have := M.grow; have := M.tlen; omega
  newS x hx := by
    by_cases hx' : x < h'.st.length
    · rw [N.oldS x hx']; exact M.newS x hx
    · have := N.newS x (Nat.not_lt.1 hx'); have := M.growS; have := M.slen; omega
  rest y hy hn := by
    refine (N.rest y (by have := M.grow; have := M.tlen; omega) fun x hx => ?_).trans (M.rest y hy hn)
    by_cases hx' : x < h.ts.length
    · rw [M.old x hx']; exact hn x hx'
    · have := M.new x (Nat.not_lt.1 hx'); omega
  restS y hy hn := by
    refine (N.restS y (by have := M.growS; have := M.slen; omega) fun x hx => ?_).trans (M.restS y hy hn)
    by_cases hx' : x < h.st.length
    · rw [M.oldS x hx']; exact hn x hx'
    · have := M.newS x (Nat.not_lt.1 hx'); omega
  later := M.later.trans N.later
  shift j := by
    by_cases hx' : h.ts.length + j < h'.ts.length
    · rw [N.old _ hx']; exact M.shift j
    · have := N.shift (h.ts.length + j - h'.ts.length)
      rw [show h'.ts.length + (h.ts.length + j - h'.ts.length) = h.ts.length + j by omega] at this
      have := M.grow
      omega
  shiftS j := by
    by_cases hx' : h.st.length + j < h'.st.length
    · rw [N.oldS _ hx']; exact M.shiftS j
    · have := N.shiftS (h.st.length + j - h'.st.length)
      rw [show h'.st.length + (h.st.length + j - h'.st.length) = h.st.length + j by omega] at this
      have := M.growS
      omega
  grow := by have := M.grow; have := N.grow; omega
  growS := by have := M.growS; have := N.growS; omega

/-- Two copies of one tensor. -/
theorem twinImpl_span {W W1 W2 : Naming F} {V V1 V2 : Clocks} {h : Heap F} (E : Existing h) {x : Nat} {i i1 i2 : Impl}
    (hi : h.ts[x]? = some i) (ht : ∀ x, x < h.ts.length → W.t (W2.t x) = W1.t x) (hs : ∀ x, x < h.st.length → W.s (W2.s x) = W1.s x)
    (H2 : TwinImpl W2 V2 i i2) (H1 : TwinImpl W1 V1 i i1) (hv : ∀ g, i2.gradFn = some g → g.backVersion ≤ V.hv)
    (kv : ∀ g, i1.gradFn = some g → g.backVersion ≤ V.kv) (hn : ¬ V.sync) : TwinImpl W V i2 i1 := by
  obtain ⟨f2, hf2, rfl⟩ := H2
  obtain ⟨f1, hf1, rfl⟩ := H1
  refine ⟨f1, ?_, ?_⟩
  · show Option.Rel _ f2 f1
    cases hfn : i.gradFn with
    | none => rw [hfn] at hf1 hf2; cases hf1; cases hf2; exact .none
    | some g =>
      rw [hfn] at hf1 hf2
      cases hf1 with
      | some h1 =>
        cases hf2 with
        | some h2 =>
          refine .some ⟨?_, ?_, h1.nOutway.trans h2.nOutway.symm, h1.accOutway.trans h2.accOutway.symm, hv _ rfl, kv _ rfl, fun h => (hn h).elim⟩
          · rw [h1.kind, h2.kind]
            cases hk : g.kind with
            | knownGrad a => exact congrArg BackKind.knownGrad (ht a (E.slopes x i g a hi hfn hk)).symm
            | _ => rfl
          · rw [h1.inputs, h2.inputs, List.map_map]
            exact List.map_congr_left fun y hy => (ht y (E.inputs x i g y hi hfn hy)).symm
  · show Impl.mk i.dtype i.view (W1.s i.data) (i.grad.map W1.t) i.requiresGrad i.retainGrad f1 = Impl.mk i.dtype i.view (W.s (W2.s i.data)) ((i.grad.map W2.t).map W.t) i.requiresGrad i.retainGrad f1
    rw [hs _ (E.data x i hi)]
    cases hg : i.grad with
    | none => rfl
    | some g => simp only [Option.map_some, ht g (E.grad x i g hi hg)]

variable [FOps F]

theorem execAll_carried : ∀ (p : List (HStmt F)) {W : Naming F} {h k : Heap F} {vs vs' : List (Option Nat)} {h' : Heap F},
    Inside W h k → History h → Held h vs → execAll p vs h = .ok vs' h' →
    ∃ W' k', execAll p (vs.map (Option.map W.t)) k = .ok (vs'.map (Option.map W'.t)) k' ∧ Carried W W' h h' k k' ∧ History h' ∧ Held h' vs'
  | [], W, h, k, vs, vs', h', hW, hh, hv, e => by
    cases e
    exact ⟨_, k, by rw [map_held hv (f := W.t) fun x hx => (extend_old hW hx).symm]; rfl, hW.stay (existing_history hh), hh, hv⟩
  | s :: p, W, h, k, vs, vs', h', hW, hh, hv, e => by
    unfold execAll at e
    rw [INNC.M.bind_def] at e
    cases hs : s.exec vs h with
    | throw x h1 => rw [hs] at e; cases e
    | ub u => rw [hs] at e; cases e
    | ok vs1 h1 =>
      rw [hs] at e
      obtain ⟨W1, k1, he, M, hh1, hv1⟩ := exec_moved hW hh hv s hs
      obtain ⟨W', k', hr, N, hH, hV⟩ := execAll_carried p M.inside hh1 hv1 e
      refine ⟨W', k', ?_, M.trans N, hH, hV⟩
      unfold execAll
      rw [INNC.M.bind_def, he]
      exact hr

/-- What an evaluation leaves. -/
structure Leaves (h0 : Heap F) (A : List (HStmt F)) (vs0 : List (Option Nat)) (h : Heap F) (vs : List (Option Nat)) (m : Created) : Prop where
  run : execAll A vs0 h0 = .ok vs h
  past : History h
  held : Held h vs
  spares : Spares ⟨fun _ => False, fun _ => False⟩ h0 h
  ts : ∀ t, m.ts t → h0.ts.length ≤ t
  st : ∀ d, m.st d → h0.st.length ≤ d

theorem evaluates_leaves {h0 : Heap F} {vs0 : List (Option Nat)} (hh : History h0) (hv : Held h0 vs0) {A : List (HStmt F)} {h : Heap F}
    {vs : List (Option Nat)} {m : Created} (H : Evaluates h0 vs0 A h vs m) : Leaves h0 A vs0 h vs m := by
  induction H with
  | start => exact ⟨rfl, hh, hv, .refl _ _, fun _ h => h.elim, fun _ h => h.elim⟩
  | @step A h vs m s vs' h' _ hl e ih =>
    obtain ⟨h1, h2, h3, h4⟩ := exec_history ih.past ih.held s e
    have S := spares_exec hl e
    refine ⟨?_, h1, h2, ⟨ih.spares.tlen.trans h3, ih.spares.slen.trans h4, fun t ht hm => ?_, fun d hd hm => ?_⟩, fun t ht => ?_, fun d hd => ?_⟩
    · rw [execAll_snoc, INNC.M.bind_def, ih.run]; exact e
    · exact (S.ts t (ht.trans_le ih.spares.tlen) fun hc => by have := ih.ts t hc; omega).trans (ih.spares.ts t ht hm)
    · exact (S.st d (hd.trans_le ih.spares.slen) fun hc => by have := ih.st d hc; omega).trans (ih.spares.st d hd hm)
    · rcases ht with ht | ht
      · exact ih.ts t ht
      · exact ih.spares.tlen.trans ht.1
    · rcases hd with hd | hd
      · exact ih.st d hd
      · exact ih.spares.slen.trans hd.1

theorem version_le {h : Heap F} (hh : History h) {x : Nat} {i : Impl} (hi : h.ts[x]? = some i) {g : GradFn} (hg : i.gradFn = some g) :
    g.backVersion ≤ h.gver :=
  (graph_history hh).version x g (by unfold opOf; rw [hi]; exact hg)

theorem twin_self {h : Heap F} (hh : History h) (W : Naming F) (hW : W.t = id) (hS : W.s = id) {x : Nat} {i : Impl} (hi : h.ts[x]? = some i) :
    TwinImpl W (apartClocks h h) i i := by
  refine ⟨i.gradFn, ?_, ?_⟩
  · cases hf : i.gradFn with
    | none => exact .none
    | some g =>
      have hv := version_le hh hi hf
      refine .some ⟨?_, by rw [hW]; exact (List.map_id _).symm, rfl, rfl, hv, hv, False.elim⟩
      cases hk : g.kind <;> first | rfl | exact congrArg BackKind.knownGrad (by rw [hW]; rfl)
  · show i = Impl.mk i.dtype i.view (W.s i.data) (i.grad.map W.t) i.requiresGrad i.retainGrad i.gradFn
    rw [hW, hS, Option.map_id]; rfl

/-- A state that has only grown. -/
theorem Spares.inside {m : Created} {h k : Heap F} (hh : History h) (hk : History k) (hm : ∀ t, t < h.ts.length → ¬ m.ts t)
    (hd : ∀ d, d < h.st.length → ¬ m.st d) (S : Spares m h k) : Inside (Naming.any h) h k := by
  refine ⟨fun x i hi => ?_, fun d h1 => S.st d h1 (hd d h1)⟩
  have hx := lt_of_get hi
  have hi' := (S.ts x hx (hm x hx)).trans hi
  refine ⟨i, hi', twinImpl_span (existing_history hh) hi (fun _ _ => rfl) (fun _ _ => rfl) (twin_self hh (Naming.any h) rfl rfl hi)
    (twin_self hh (Naming.any h) rfl rfl hi) (fun g => version_le hh hi) (fun g => version_le hk hi') id⟩

/-- The names of the objects after `A`, `B` in the state after `B`, `A`: `n` objects before, `a` of `A`, `b` of `B`. -/
def swapName (n a b x : Nat) : Nat := if x < n then x else if x < n + a then x + b else if x < n + a + b then x - a else x

theorem swapName_inj (n a b : Nat) : Function.Injective (swapName n a b) := by
  intro x y e
  unfold swapName at e
  split at e <;> split at e <;> (try split at e) <;> (try split at e) <;> (try split at e) <;> (try split at e) <;> omega

def swapNaming (h : Heap F) (h1 h2 : Heap F) : Naming F where
  t := swapName h.ts.length (h1.ts.length - h.ts.length) (h2.ts.length - h.ts.length)
  s := swapName h.st.length (h1.st.length - h.st.length) (h2.st.length - h.st.length)
  tinj := swapName_inj _ _ _
  sinj := swapName_inj _ _ _
  base := h

/-- The state after `A`, `B` and the state after `B`, `A`. -/
theorem swap_inside {h hA hB hAB hBA : Heap F} (hh : History h) (kA : History hA) (kB : History hB) (kAB : History hAB) (kBA : History hBA)
    (SA : Spares ⟨fun _ => False, fun _ => False⟩ h hA) (SB : Spares ⟨fun _ => False, fun _ => False⟩ h hB) {WA WB : Naming F}
    (MA : Carried (Naming.any h) WA h hA hB hBA) (MB : Carried (Naming.any h) WB h hB hA hAB) : Inside (swapNaming h hA hB) hAB hBA := by
  have lA := SA.tlen
  have lB := SB.tlen
  have gA := MA.grow
  have gB := MB.grow
  have lA' := SA.slen
  have lB' := SB.slen
  have gA' := MA.growS
  have gB' := MB.growS
  -- the names
  have a1 : ∀ x, x < h.ts.length → WA.t x = x := fun x hx => MA.old x hx
  have a2 : ∀ x, h.ts.length ≤ x → WA.t x = hB.ts.length + (x - h.ts.length) := fun x hx => by
    have := MA.shift (x - h.ts.length); rwa [Nat.add_sub_cancel' hx] at this
  have b1 : ∀ x, x < h.ts.length → WB.t x = x := fun x hx => MB.old x hx
  have b2 : ∀ x, h.ts.length ≤ x → WB.t x = hA.ts.length + (x - h.ts.length) := fun x hx => by
    have := MB.shift (x - h.ts.length); rwa [Nat.add_sub_cancel' hx] at this
  have a1' : ∀ x, x < h.st.length → WA.s x = x := fun x hx => MA.oldS x hx
  have a2' : ∀ x, h.st.length ≤ x → WA.s x = hB.st.length + (x - h.st.length) := fun x hx => by
    have := MA.shiftS (x - h.st.length); rwa [Nat.add_sub_cancel' hx] at this
  have b1' : ∀ x, x < h.st.length → WB.s x = x := fun x hx => MB.oldS x hx
  have b2' : ∀ x, h.st.length ≤ x → WB.s x = hA.st.length + (x - h.st.length) := fun x hx => by
    have := MB.shiftS (x - h.st.length); rwa [Nat.add_sub_cancel' hx] at this
  have w : ∀ x, (swapNaming h hA hB).t x = swapName h.ts.length (hA.ts.length - h.ts.length) (hB.ts.length - h.ts.length) x := fun _ => rfl
  have w' : ∀ x, (swapNaming h hA hB).s x = swapName h.st.length (hA.st.length - h.st.length) (hB.st.length - h.st.length) x := fun _ => rfl
  have w1 : ∀ x, x < h.ts.length → (swapNaming h hA hB).t x = x := fun x hx => by rw [w]; unfold swapName; rw [if_pos hx]
  have w2 : ∀ x, x < hA.ts.length → (swapNaming h hA hB).t x = WA.t x := fun x hx => by
    by_cases h0 : x < h.ts.length
    · rw [w1 x h0, a1 x h0]
    · rw [w, a2 x (by omega)]; unfold swapName; rw [if_neg h0, if_pos (by omega)]; omega
  have w3 : ∀ x, x < hB.ts.length → (swapNaming h hA hB).t (WB.t x) = x := fun x hx => by
    by_cases h0 : x < h.ts.length
    · rw [b1 x h0, w1 x h0]
    · rw [b2 x (by omega), w]; unfold swapName; rw [if_neg (by omega), if_neg (by omega), if_pos (by omega)]; omega
  have w1' : ∀ x, x < h.st.length → (swapNaming h hA hB).s x = x := fun x hx => by rw [w']; unfold swapName; rw [if_pos hx]
  have w2' : ∀ x, x < hA.st.length → (swapNaming h hA hB).s x = WA.s x := fun x hx => by
    by_cases h0 : x < h.st.length
    · rw [w1' x h0, a1' x h0]
    · rw [w', a2' x (by omega)]; unfold swapName; rw [if_neg h0, if_pos (by omega)]; omega
  have w3' : ∀ x, x < hB.st.length → (swapNaming h hA hB).s (WB.s x) = x := fun x hx => by
    by_cases h0 : x < h.st.length
    · rw [b1' x h0, w1' x h0]
    · rw [b2' x (by omega), w']; unfold swapName; rw [if_neg (by omega), if_neg (by omega), if_pos (by omega)]; omega
  refine ⟨fun x i hi => ?_, fun d hd => ?_⟩
  · have hx := lt_of_get hi
    by_cases h0 : x < h.ts.length
    · -- a tensor that was there before
      have e0 := List.getElem?_eq_getElem h0
      obtain ⟨j1, hj1, t1⟩ := MA.inside.ts x _ ((SA.ts x h0 id).trans e0)
      obtain ⟨j2, hj2, t2⟩ := MB.inside.ts x _ ((SB.ts x h0 id).trans e0)
      rw [b1 x h0, hi] at hj2
      cases hj2
      rw [w1 x h0, ← a1 x h0]
      exact ⟨j1, hj1, twinImpl_span (existing_history hh) e0 (fun y hy => by rw [b1 y hy, w1 y hy, a1 y hy])
        (fun y hy => by rw [b1' y hy, w1' y hy, a1' y hy]) t2 t1 (fun g => version_le kAB hi) (fun g => version_le kBA hj1) id⟩
    · by_cases h1 : x < hA.ts.length
      · -- a tensor of `A`
        have e1 : hA.ts[x]? = some i := (MB.rest x h1 fun y hy e => h0 (e ▸ hy)).symm.trans hi
        obtain ⟨j1, hj1, t1⟩ := MA.inside.ts x _ e1
        rw [w2 x h1]
        exact ⟨j1, hj1, twinImpl_span (existing_history kA) e1 (fun y hy => w2 y hy) (fun y hy => w2' y hy)
          (twin_self kA (Naming.any hA) rfl rfl e1) t1 (fun g => version_le kAB hi) (fun g => version_le kBA hj1) id⟩
      · -- a tensor of `B`
        have hy : h.ts.length + (x - hA.ts.length) < hB.ts.length := by omega
        have hxy : WB.t (h.ts.length + (x - hA.ts.length)) = x := by rw [b2 _ (by omega)]; omega
        have e2 := List.getElem?_eq_getElem hy
        obtain ⟨j2, hj2, t2⟩ := MB.inside.ts _ _ e2
        rw [hxy, hi] at hj2
        cases hj2
        have e3 := (MA.rest _ hy fun z hz e => by have : z = _ := e; omega).trans e2
        rw [← hxy, w3 _ hy]
        exact ⟨_, e3, twinImpl_span (existing_history kB) e2 (fun y hy => w3 y hy) (fun y hy => w3' y hy) t2
          (twin_self kB (Naming.any hB) rfl rfl e2) (fun g => version_le kAB hi) (fun g => version_le kBA e3) id⟩
  · by_cases h0 : d < h.st.length
    · have q1 := MA.inside.st d (by omega)
      have q2 := MB.inside.st d (by omega)
      rw [a1' d h0] at q1
      rw [b1' d h0] at q2
      rw [w1' d h0, q1, q2, SA.st d h0 id, SB.st d h0 id]
    · by_cases h1 : d < hA.st.length
      · rw [w2' d h1, MA.inside.st d h1]
        exact (MB.restS d h1 fun y hy e => h0 (e ▸ hy)).symm
      · have hy : h.st.length + (d - hA.st.length) < hB.st.length := by omega
        have hxy : WB.s (h.st.length + (d - hA.st.length)) = d := by rw [b2' _ (by omega)]; omega
        have q2 := MB.inside.st _ hy
        rw [hxy] at q2
        have hw := w3' _ hy
        rw [hxy] at hw
        rw [hw, q2]
        exact MA.restS _ hy fun z hz e => by have : z = _ := e; omega

theorem swap_names {h hA hB hAB hBA : Heap F} {WA WB : Naming F} (MA : Carried (Naming.any h) WA h hA hB hBA)
    (MB : Carried (Naming.any h) WB h hB hA hAB) (SA : Spares ⟨fun _ => False, fun _ => False⟩ h hA)
    (SB : Spares ⟨fun _ => False, fun _ => False⟩ h hB) :
    (∀ x, x < hA.ts.length → (swapNaming h hA hB).t x = WA.t x) ∧ ∀ x, x < hB.ts.length → (swapNaming h hA hB).t (WB.t x) = x := by
  have lA := SA.tlen
  have lB := SB.tlen
  refine ⟨fun x hx => ?_, fun x hx => ?_⟩
  · show swapName _ _ _ x = _
    unfold swapName
    by_cases h0 : x < h.ts.length
    · rw [if_pos h0]; exact (MA.old x h0).symm
    · have := MA.shift (x - h.ts.length)
      rw [Nat.add_sub_cancel' (by omega)] at this
      rw [if_neg h0, if_pos (by omega)]; omega
  · show swapName _ _ _ _ = _
    unfold swapName
    by_cases h0 : x < h.ts.length
    · have : WB.t x = x := MB.old x h0
      rw [this, if_pos h0]
    · have := MB.shift (x - h.ts.length)
      rw [Nat.add_sub_cancel' (by omega)] at this
      rw [this, if_neg (by omega), if_neg (by omega), if_pos (by omega)]; omega

theorem execAll_history {p : List (HStmt F)} {h h' : Heap F} {vs vs' : List (Option Nat)} (hh : History h) (hv : Held h vs)
    (e : execAll p vs h = .ok vs' h') : History h' ∧ Held h' vs' := by
  obtain ⟨_, _, _, _, h1, h2⟩ := execAll_carried p (inside_self hh) hh hv e
  exact ⟨h1, h2⟩

theorem Inside.endAlike {W : Naming F} {h k : Heap F} (H : Inside W h k) (hh : History h) {vs : List (Option Nat)} (hv : Held h vs)
    (q : List (HStmt F)) : EndAlike (execAll q vs h) (execAll q (vs.map (Option.map W.t)) k) := by
  cases e : execAll q vs h with
  | ok vs' h' =>
    obtain ⟨W', k', he, M, h1, h2⟩ := execAll_carried q H hh hv e
    rw [he]
    exact M.inside.vars (existing_history h1) h2
  | throw x h' =>
    obtain ⟨k', he⟩ := execAll_throws q H hh hv e
    rw [he]
    exact rfl
  | ub u =>
    rw [execAll_ub q H hh hv e]
    exact rfl

end
end INNC
