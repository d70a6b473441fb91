import Verif.Spec.Again
import Verif.Lemmas.BackFrame
import Verif.Lemmas.GraphOrder
import Verif.Lemmas.ForwardBack
import Verif.Props.Frame
import Verif.Props.Backward
/-
A graph that has been back-propagated is not back-propagated again: the arrivals counted the first time stay.
-/
namespace INNC
open Spec Tensor
variable {F : Type}

/-- The operations of the first `n` tensors are the same, and their counts of arrivals have not fallen. -/
def Aged (n : Nat) (h h' : Heap F) : Prop := ∀ x, x < n →
  (opOf h' x).map (·.inputs) = (opOf h x).map (·.inputs) ∧
  ∀ g g', opOf h x = some g → opOf h' x = some g' → g.accOutway ≤ g'.accOutway

theorem Aged.refl (n : Nat) (h : Heap F) : Aged n h h := fun x _ => ⟨rfl, fun g g' e1 e2 => by
  rw [e1] at e2; rw [Option.some.inj e2]⟩

theorem Aged.trans {n : Nat} {a b c : Heap F} (h1 : Aged n a b) (h2 : Aged n b c) : Aged n a c := fun x hx => by
  obtain ⟨e1, f1⟩ := h1 x hx
  obtain ⟨e2, f2⟩ := h2 x hx
  refine ⟨e2.trans e1, fun g g'' k1 k2 => ?_⟩
  rw [k1] at e1
  cases hb : opOf b x with
  | none => rw [hb] at e1; simp at e1
  | some g' => exact Nat.le_trans (f1 g g' k1 hb) (f2 g' g'' hb k2)

theorem Aged.mono {n m : Nat} {a b : Heap F} (h1 : Aged n a b) (hm : m ≤ n) : Aged m a b := fun x hx => h1 x (by omega)

theorem NoOp.aged {h h' : Heap F} (hn : NoOp h h') (n : Nat) : Aged n h h' := fun x _ => by
  constructor
  · cases ho : opOf h' x with
    | some g' =>
      obtain ⟨g, e1, _, e3, _⟩ := hn.ops x g' ho
      rw [e1]; simp [e3]
    | none =>
      cases hh : opOf h x with
      | none => rfl
      | some g =>
        obtain ⟨g', e1, _⟩ := hn.keep x g hh
        rw [ho] at e1; simp at e1
  · intro g g' e1 e2
    obtain ⟨g'', f1, f2⟩ := hn.keep x g e1
    rw [e2] at f1
    rw [Option.some.inj f1]; exact f2

theorem aged_of_eq {n : Nat} {h h' : Heap F} (he : ∀ x, x < n → h'.ts[x]? = h.ts[x]?) : Aged n h h' := fun x hx => by
  have : opOf h' x = opOf h x := by unfold opOf; rw [he x hx]
  rw [this]
  exact ⟨rfl, fun g g' e1 e2 => by rw [e1] at e2; rw [Option.some.inj e2]⟩

theorem aged_of_extends {h h' : Heap F} (he : Extends h h') : Aged h.ts.length h h' := aged_of_eq fun x hx => by
  rw [he.ts x _ (List.getElem?_eq_getElem hx), List.getElem?_eq_getElem hx]

theorem flagInv_aged (h0 : Heap F) : FlagInv h0 fun h => Preserves h0 h ∧ Aged h0.ts.length h0 h where
  st_len := fun h => (frameInv_preserves h0).st_len h.1
  ts_len := fun h => (frameInv_preserves h0).ts_len h.1
  mono := fun h h1 h2 => ⟨(frameInv_preserves h0).mono h.1 h1 h2, h.2.trans (aged_of_eq h1)⟩
  flags := fun {h t i j} hh hi e1 e2 e3 e4 => by
    refine ⟨(flagInv_preserves h0).flags hh.1 hi e1 e2 e3 e4, hh.2.trans ?_⟩
    rcases e4 with e4 | e4
    · exact aged_of_eq fun x hx => List.getElem?_set_ne (by omega)
    · intro x _
      have : opOf { h with ts := h.ts.set t j } x = opOf h x := by
        rw [opOf_set (getElem?_lt hi)]
        split
        · next hx => rw [hx, opOf_some hi, e4]
        · rfl
      rw [this]
      exact ⟨rfl, fun g g' e1 e2 => by rw [e1] at e2; rw [Option.some.inj e2]⟩

theorem keeps_post {α : Type} {x : M F α} {h : Heap F} {R : Heap F → Heap F → Prop} (hx : Keeps R x) :
    Post (R h) (x h) fun _ _ => True := by
  have := hx h
  unfold Post
  cases hxh : x h with
  | ok a h' => rw [hxh] at this; exact ⟨this, trivial⟩
  | throw e h' => rw [hxh] at this; exact this
  | ub u => trivial

theorem post_imp {α : Type} {I J : Heap F → Prop} {o : Out (Heap F) α} {Q : α → Heap F → Prop} (h : Post I o Q) (hIJ : ∀ h, I h → J h) :
    Post J o fun _ _ => True := by
  unfold Post at *
  split at h
  · exact ⟨hIJ _ h.1, trivial⟩
  · exact hIJ _ h
  · trivial

variable [FOps F]

theorem run_aged (c : Call F) (h : Heap F) : Post (Aged h.ts.length h) (c.run h) fun _ _ => True := by
  have noop : ∀ {α : Type} {x : M F α}, Keeps NoOp x → Post (Aged h.ts.length h) (none' x h) fun _ _ => True := fun hx =>
    post_true (post_none' (post_imp (keeps_post hx) fun _ hn => hn.aged _))
  by_cases hc : Computes c = true
  · exact post_imp (computes_post (frameInv_extends h) hc (Extends.refl h)) fun _ => aged_of_extends
  by_cases hq : Queries c = true
  · exact post_imp (keeps_post (queries_keeps (R := fun a b : Heap F => b = a) hq)) fun _ e => by subst e; exact Aged.refl _ _
  by_cases hv : ViewsOrFlags c = true
  · exact post_imp (views_post (flagInv_aged h) hv ⟨Preserves.refl h, Aged.refl _ h⟩) fun _ hn => hn.2
  cases c <;> first | (simp [Computes] at hc; done) | (simp [Queries] at hq; done) | (simp [ViewsOrFlags] at hv; done) | skip
  case toType t dt =>
    exact post_imp (post_some' (post_true ((frameInv_extends h).toType (Extends.refl h) t dt))) fun _ => aged_of_extends
  case addAssign t r => exact noop (noOp_addAssign t r)
  case backward t => exact noop (noOp_backward t)
  case zeroGrad t => exact noop (noOp_zeroGrad t)
  case release t => exact noop (noOp_release t)

theorem post_outcome {α : Type} {I : Heap F → Prop} {o : Out (Heap F) α} {Q : α → Heap F → Prop} (h : Post I o Q) :
    (∀ a h', o = .ok a h' → I h') ∧ ∀ e h', o = .throw e h' → I h' := by
  unfold Post at h
  constructor
  · intro a h' e; subst e; exact h.1
  · intro e h' eq; subst eq; exact h

theorem run_grows (c : Call F) {h : Heap F} : Post (fun h' => h.ts.length ≤ h'.ts.length) (c.run h) fun _ _ => True :=
  post_imp (keeps_post (grows_run c)) fun _ hg => hg.2

theorem later_aged {h h' : Heap F} (hl : Later h h') : h.ts.length ≤ h'.ts.length ∧ Aged h.ts.length h h' := by
  induction hl with
  | now => exact ⟨Nat.le_refl _, Aged.refl _ _⟩
  | @returned h1 h2 c r _ hr ih =>
    have a := (post_outcome (run_aged c h1)).1 _ _ hr
    have b := (post_outcome (run_grows c)).1 _ _ hr
    exact ⟨Nat.le_trans ih.1 b, ih.2.trans (a.mono ih.1)⟩
  | @threw h1 h2 c r _ hr ih =>
    have a := (post_outcome (run_aged c h1)).2 _ _ hr
    have b := (post_outcome (run_grows c)).2 _ _ hr
    exact ⟨Nat.le_trans ih.1 b, ih.2.trans (a.mono ih.1)⟩

theorem later_history {h h' : Heap F} (hh : History h) (hl : Later h h') : History h' := by
  induction hl with
  | now => exact hh
  | returned _ hr ih => exact ih.returned hr
  | threw _ hr ih => exact ih.threw hr

/-! ### Graphs that have been back-propagated -/

section
omit [FOps F]

/-- All uses of the operands of `t` within its graph have arrived before. -/
def Spent (h : Heap F) (t : Nat) : Prop := ∃ R : List Nat, R.Nodup ∧ (∀ x, x ∈ R ↔ From h t x ∧ Interior h x) ∧
  ∀ y g, Uses h t y → opOf h y = some g → indeg h R y ≤ g.accOutway

theorem operands_map (h : Heap F) (x : Nat) : operands h x = ((opOf h x).map (·.inputs)).getD [] := by
  unfold operands
  cases opOf h x <;> rfl

theorem interior_map (h : Heap F) (x : Nat) : Interior h x ↔ ((opOf h x).map (·.inputs)).isSome = true := by
  unfold Interior
  cases opOf h x <;> simp

theorem Aged.operands {n : Nat} {h h' : Heap F} (ha : Aged n h h') {x : Nat} (hx : x < n) : operands h' x = operands h x := by
  rw [operands_map, operands_map, (ha x hx).1]

theorem Aged.interior {n : Nat} {h h' : Heap F} (ha : Aged n h h') {x : Nat} (hx : x < n) : Interior h' x ↔ Interior h x := by
  rw [interior_map, interior_map, (ha x hx).1]

theorem Aged.from {n : Nat} {h h' : Heap F} (ha : Aged n h h') (hg : Graph h) {t : Nat} (ht : t < n) (x : Nat) :
    From h' t x ↔ From h t x := by
  constructor
  · intro hf
    induction hf with
    | root => exact .root
    | @step x y _ hu ih =>
      refine .step ih ?_
      unfold Uses at *
      rwa [ha.operands (Nat.lt_of_le_of_lt (ih.le hg) ht)] at hu
  · intro hf
    induction hf with
    | root => exact .root
    | @step x y hf hu ih =>
      refine .step ih ?_
      unfold Uses at *
      rwa [ha.operands (Nat.lt_of_le_of_lt (hf.le hg) ht)]

theorem Spent.aged {n : Nat} {h h' : Heap F} (hs : Spent h t) (hg : Graph h) (ha : Aged n h h') (ht : t < n) : Spent h' t := by
  obtain ⟨R, hR, hall, hle⟩ := hs
  have hlt : ∀ x, From h t x → x < n := fun x hx => Nat.lt_of_le_of_lt (hx.le hg) ht
  refine ⟨R, hR, fun x => ?_, fun y g' hu hg' => ?_⟩
  · rw [hall, ha.from hg ht]
    constructor
    · rintro ⟨h1, h2⟩; exact ⟨h1, (ha.interior (hlt x h1)).2 h2⟩
    · rintro ⟨h1, h2⟩; exact ⟨h1, (ha.interior (hlt x h1)).1 h2⟩
  · have hu0 : Uses h t y := by unfold Uses at *; rwa [ha.operands ht] at hu
    have hy := hlt y (.step .root hu0)
    obtain ⟨e1, e2⟩ := ha y hy
    rw [hg'] at e1
    cases ho : opOf h y with
    | none => rw [ho] at e1; simp at e1
    | some g =>
      have : indeg h' R y = indeg h R y := by
        unfold indeg
        congr 1
        refine List.map_congr_left fun p hp => ?_
        rw [ha.operands (hlt p ((hall p).1 hp).1)]
      rw [this]
      exact Nat.le_trans (hle y g hu0 ho) (e2 g g' ho hg')

end

theorem spent_backward {h H : Heap F} {t : Nat} (hg : Graph h) (hU : Unused h t) (hb : backward t h = .ok () H) : Spent H t := by
  obtain ⟨i, hi, hr, hf, hn⟩ := backward_started hb
  obtain ⟨h1, n, v, _, _, l, _, _, hsch, _, hend⟩ := backward_order hg hi hr hf hn
  obtain ⟨R, hR, hall, hp⟩ := hend H hb
  obtain ⟨acc, ver, hpr, _, hacc⟩ := hp.ex
  have hs := hsch hU
  have hops : ∀ x, opOf H x = (opOf h x).map fun g => { g with nOutway := n x, accOutway := acc x, backVersion := ver x } := by
    intro x
    cases hx : h.ts[x]? with
    | some k => rw [opOf_some hx, opOf_some (hpr.at_ x k hx)]
    | none =>
      have hle : h.ts.length ≤ x := List.getElem?_eq_none_iff.1 hx
      have e : opOf h x = none := by unfold opOf; rw [hx]; rfl
      rw [e]
      cases hH : H.ts[x]? with
      | none => unfold opOf; rw [hH]; rfl
      | some k => rw [opOf_some hH, hpr.new x k hle hH]; rfl
  have hin : ∀ x, (opOf H x).map (·.inputs) = (opOf h x).map (·.inputs) := fun x => by
    rw [hops, Option.map_map]; rfl
  have hopd : ∀ x, operands H x = operands h x := fun x => by rw [operands_map, operands_map, hin]
  have hfrom : ∀ x, From H t x ↔ From h t x := fun x => by
    constructor
    · intro hf
      induction hf with
      | root => exact .root
      | step _ hu ih => exact .step ih (by unfold Uses at *; rwa [hopd] at hu)
    · intro hf
      induction hf with
      | root => exact .root
      | step _ hu ih => exact .step ih (by unfold Uses at *; rwa [hopd])
  refine ⟨l, hs.once, fun x => ?_, fun y g' hu hg' => ?_⟩
  · rw [hs.all, hfrom, interior_map, interior_map, hin]
  · have hu0 : Uses h t y := by unfold Uses at *; rwa [hopd] at hu
    have hlt := hg.older t y hu0
    rw [hops] at hg'
    cases ho : opOf h y with
    | none => rw [ho] at hg'; simp at hg'
    | some g =>
      rw [ho] at hg'
      obtain rfl := Option.some.inj hg'
      have hyi : Interior h y := by unfold Interior; rw [ho]; rfl
      obtain ⟨k, gk, hk, hgk⟩ := hyi.obj
      have hgg : g = gk := by rw [opOf_some hk, hgk] at ho; exact (Option.some.inj ho).symm
      subst hgg
      have hreq := (hU y g (.step .root hu0) (by omega) ho).2 k hk
      have := hacc y k g hk hgk hreq
      have e : indeg H l y = indeg h l y := by
        unfold indeg
        congr 1
        exact List.map_congr_left fun p _ => by rw [hopd]
      show indeg H l y ≤ acc y
      rw [e]; omega

/-- A graph that has been back-propagated: propagation stops after the root. -/
theorem spent_visits {h : Heap F} {t : Nat} {i : Impl} (hg : Graph h) (hi : h.ts[t]? = some i) (hr : i.requiresGrad = true)
    (hf : i.gradFn.isSome = true) (hn : numel i.view.sizes = 1) (hs : Spent h t)
    (hreq : ∀ y j, Uses h t y → Interior h y → h.ts[y]? = some j → j.requiresGrad = true) :
    ∃ h1 n v, Stamped h h1 n v ∧ backward t h = (seed t >>= fun _ => visits backVisit [t]) h1 := by
  have ht : Interior h t := by unfold Interior; rw [opOf_some hi]; exact hf
  obtain ⟨h1, R, n, v, hre, hst, hV, hv, hR, hall, hcnt⟩ := refresh_ok hg ht
  refine ⟨h1, n, v, hst, ?_⟩
  rw [backward_unfold hi hr hf hn hre]
  cases hsd : seed t h1 with
  | throw e h2 => rw [M.bind_throw hsd, M.bind_throw hsd]
  | ub u => rw [M.bind_ub hsd, M.bind_ub hsd]
  | ok a h2 =>
    rw [M.bind_ok hsd, M.bind_ok hsd]
    have hpass := seed_pass hg ht hst (by rw [hV]; exact hv) hR hall hsd
    unfold queueLoop
    rw [visits_cons]
    cases hvis : backVisit t h2 with
    | throw e h3 => rw [M.bind_throw hvis, M.bind_throw hvis]
    | ub u => rw [M.bind_ub hvis, M.bind_ub hvis]
    | ok new h3 =>
      rw [M.bind_ok hvis, M.bind_ok hvis]
      have hnew := (pass_step hg hR hall hcnt hpass hvis).2
      have : new = [] := by
        refine List.eq_nil_iff_forall_not_mem.2 fun y hy => ?_
        obtain ⟨hu, hyi, e⟩ := hnew y hy
        obtain ⟨k, gk, hk, hgk⟩ := hyi.obj
        have ho : opOf h y = some gk := by rw [opOf_some hk, hgk]
        have h3 := e k gk hk hgk (hreq y k hu hyi hk)
        obtain ⟨R', hR', hall', hle⟩ := hs
        have h4 := hle y gk hu ho
        have h5 : indeg h R y ≤ indeg h R' y := indeg_le hR hR' (fun x hx => (hall' x).2 ((hall x).1 hx)) y
        have h6 : 0 < indeg h ([] ++ [t]) y := by
          rw [List.nil_append, indeg_singleton]; exact List.count_pos_iff.2 hu
        have h7 := hcnt y ((hall y).2 ⟨.step .root hu, hyi⟩)
        omega
      subst this
      cases h.ts.length <;> rfl

/-! ### What a second back-propagation leaves unchanged -/

theorem backward_guards {h H : Heap F} {t : Nat} (hp : Propagates t h H) :
    H = h ∨ ∃ i, h.ts[t]? = some i ∧ i.requiresGrad = true ∧ i.gradFn.isSome = true ∧ numel i.view.sizes = 1 := by
  cases hi : h.ts[t]? with
  | none =>
    have e : backward t h = .ub .nullptr := by
      unfold backward
      exact M.bind_ub (by unfold getT; rw [hi])
    unfold Propagates at hp
    rw [e] at hp
    rcases hp with hp | ⟨e, hp⟩ <;> cases hp
  | some i =>
    by_cases hr : i.requiresGrad = true ∧ i.gradFn.isSome = true ∧ numel i.view.sizes = 1
    · exact .inr ⟨i, rfl, hr⟩
    · left
      have e : backward t h = .throw .runtime h := by
        unfold backward
        rw [M.bind_ok (getT_ok hi)]
        cases h1 : i.requiresGrad with
        | false => exact M.bind_throw rfl
        | true =>
          rw [M.bind_ok (show (expect true : M F Unit) h = .ok () h from rfl)]
          cases h2 : i.gradFn.isSome with
          | false => exact M.bind_throw rfl
          | true =>
            rw [M.bind_ok (show (expect true : M F Unit) h = .ok () h from rfl)]
            have h3 : decide (numel i.view.sizes = 1) = false := decide_eq_false fun h3 => hr ⟨h1, h2, h3⟩
            rw [h3]
            exact M.bind_throw rfl
      unfold Propagates at hp
      rw [e] at hp
      rcases hp with hp | ⟨e, hp⟩
      · cases hp
      · injection hp with _ hp; exact hp.symm

theorem BFrame.seed {h0 H : Heap F} {S : Nat → Prop} (hc : GradsIn h0 S) (hb : BFrame h0 S H) {t : Nat} (ht : S t)
    (hop : ∀ y, Uses h0 t y → S y) {i0 : Impl} (hi0 : h0.ts[t]? = some i0) (hs0 : i0.gradFn.isSome = true) :
    Post (BFrame h0 S) (INNC.seed t H) fun _ _ => True := by
  unfold INNC.seed
  refine post_bind (hb.of_extends ((frameInv_extends H).onesLike (extends_refl H) _)) fun o h3 hh3 ho => ?_
  obtain ⟨he, ho1, jo, ho2, ho3⟩ := ho
  refine post_bind (post_getT hh3) fun i' h4 hh4 hi' => ?_
  obtain ⟨rfl, hi'⟩ := hi'
  have hs' : i'.gradFn.isSome = true := by
    obtain ⟨j2, g1, g2⟩ := hh4.skel t i0 hi0
    rw [hi'] at g1
    obtain rfl := Option.some.inj g1
    have := skel_gradFn g2
    cases hx : i'.gradFn with
    | none =>
      rw [hx] at this
      cases hy : i0.gradFn with
      | none => rw [hy] at hs0; simp at hs0
      | some _ => rw [hy] at this; simp at this
    | some _ => rfl
  have l1 := hb.tlen
  have l2 := hb.slen
  refine post_bind (hh4.upd (k := { i' with grad := some o }) hi' ht (hc.lt t ht) (by simp [INNC.skel])
    (.inr (.inl ⟨hs', fun g hg => by
      obtain rfl := Option.some.inj hg
      exact ⟨by omega, jo, ho2, by omega⟩⟩))) fun _ h1 hh1 _ => ?_
  refine post_bind hh1.bumpVersion fun v h1 hh1 _ => ?_
  refine post_bind (hh1.getGradFn hc ht hop) fun g h2 hh2 hg => ?_
  obtain ⟨rfl, ⟨i, hi, hg⟩, _⟩ := hg
  exact hh2.setGF hc ht hi hg rfl rfl

theorem again_frame {h H : Heap F} {t : Nat} {i : Impl} (hh : History h) (hi : h.ts[t]? = some i) (hr : i.requiresGrad = true)
    (hf : i.gradFn.isSome = true) (hn : numel i.view.sizes = 1) (hs : Spent h t)
    (hreq : ∀ y j, Uses h t y → Interior h y → h.ts[y]? = some j → j.requiresGrad = true) (hp : Propagates t h H) :
    ∃ h1 n v, Stamped h h1 n v ∧ BFrame h1 (fun x => x = t ∨ Uses h t x) H := by
  have hg := graph_history hh
  obtain ⟨h1, n, v, hst, e⟩ := spent_visits hg hi hr hf hn hs hreq
  refine ⟨h1, n, v, hst, ?_⟩
  have ht := getElem?_lt hi
  have hi1 := hst.at_ t i hi
  have hc : GradsIn h1 (fun x => x = t ∨ Uses h t x) := by
    refine ⟨fun x hx => ?_, fun x g k hx hk hgk => ?_⟩
    · rw [hst.len]
      rcases hx with rfl | hx
      · exact ht
      · have := hg.older t x hx; omega
    · rw [hst.len]
      cases hx0 : h.ts[x]? with
      | none => rw [hst.none hx0] at hk; simp at hk
      | some k0 =>
        rw [hst.at_ x k0 hx0] at hk
        obtain rfl := Option.some.inj hk
        exact (valid_history hh).grad x g k0 hx0 hgk
  have hop : ∀ y, Uses h1 t y → y = t ∨ Uses h t y := fun y hy => by
    right
    unfold Uses operands at *
    rw [opOf_some hi1] at hy
    rw [opOf_some hi]
    cases hgf : i.gradFn with
    | none => rw [hgf] at hy; simp at hy
    | some g => rw [hgf] at hy; exact hy
  have hpost : Post (BFrame h1 (fun x => x = t ∨ Uses h t x)) ((seed t >>= fun _ => visits backVisit [t]) h1) fun _ _ => True := by
    refine post_bind (BFrame.seed hc (BFrame.refl _ _) (.inl rfl) hop hi1 (by simpa using hf)) fun _ h2 hh2 _ => ?_
    rw [visits_cons]
    exact post_bind (hh2.backVisit hc (.inl rfl) hop) fun l h3 hh3 _ => post_pure hh3 trivial
  rw [← e] at hpost
  rcases hp with hp | ⟨x, hp⟩ <;> rw [hp] at hpost
  · exact hpost.1
  · exact hpost

theorem Stamped.gradStore {h h1 : Heap F} {n v : Nat → Nat} (hs : Stamped h h1 n v) (x : Nat) : gradStore h1 x = gradStore h x := by
  unfold Spec.gradStore
  cases hx : h.ts[x]? with
  | none => rw [hs.none hx]; rfl
  | some i =>
    rw [hs.at_ x i hx, Option.bind_some, Option.bind_some]
    cases hgi : i.grad with
    | none => rfl
    | some g =>
      rw [Option.bind_some, Option.bind_some]
      cases hg : h.ts[g]? with
      | none => rw [hs.none hg]
      | some j => rw [hs.at_ g j hg]; rfl

end INNC
