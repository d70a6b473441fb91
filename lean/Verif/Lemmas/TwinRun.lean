import Verif.Lemmas.TwinCalls
import Mathlib.Data.Fintype.Card
/-
The same initialiser list, the same `backward` and the same call in two states (see `Twin`).
-/
namespace INNC
open Spec Tensor
section
variable {F : Type} {W : Naming F} {V V' V'' : Clocks}

/-! ### Initialiser lists -/

theorem createImpl_twin (a : TInit F) : MTwin W V V (fun x y => y = x.map W.t) (createImpl a) (createImpl a) := by
  unfold createImpl
  refine MTwin.ite (fun _ => MTwin.pure rfl) fun _ => ?_
  cases a.dtype with
  | none => exact MTwin.undef _
  | some dt =>
    refine (create_twin _ _ _).bindId fun t => twin_get fun i f _ => (getS_twin _).bindEq fun s => ?_
    exact (setS_twin _ _).bindEq fun _ => MTwin.pure rfl

theorem ofInit_twin (x : InitTree F) : MTwin W V V (fun x y => y = x.map W.t) (ofInit x) (ofInit x) :=
  (MTwin.lift _).bindEq fun _ => createImpl_twin _

/-! ### Backward -/

theorem derefGrad_twin (t : Nat) : MTwin W V V W.Id (derefGrad t) (derefGrad (W.t t)) := by
  unfold derefGrad
  refine twin_get fun i f _ => ?_
  rcases i with ⟨dt, v, d, _ | g, rg, re, fn⟩
  · exact MTwin.undef _
  · exact MTwin.ret _

theorem inputAt_twin {g g' : GradFn} (hg : TwinFn W V g g') (k : Nat) : MTwin W V V W.Id (inputAt g k) (inputAt g' k) := by
  unfold inputAt vecAt
  rw [hg.inputs, List.getElem?_map]
  cases g.inputs[k]? with
  | none => exact MTwin.undef _
  | some x => exact MTwin.ret _

theorem getGradFn_twin (t : Nat) : MTwin W V V (TwinFn W V) (getGradFn t) (getGradFn (W.t t)) := by
  unfold getGradFn
  refine twin_get fun i f hf => ?_
  revert hf
  cases i.gradFn with
  | none =>
    cases f with
    | none => exact fun _ => MTwin.undef _
    | some g => intro h; cases h
  | some g =>
    intro hf
    cases hf with
    | some h => exact MTwin.pure h

theorem setGF_twin (t : Nat) {g g' : GradFn} (hg : TwinFn W V g g') : MTwin W V V Eq (setGF t g) (setGF (W.t t) g') :=
  twin_get fun _ _ _ => setT_twin _ ⟨_, .some hg, rfl⟩

theorem bumpVersion_twin : MTwin W V V.bump (fun a b => a = V.bump.hv ∧ b = V.bump.kv) bumpVersion bumpVersion := by
  intro h k hh
  refine ⟨⟨congrArg (· + 1) hh.hv, congrArg (· + 1) hh.kv⟩, congrArg (· + 1) hh.hv, congrArg (· + 1) hh.kv,
    hh.later.trans (Nat.le_succ _), hh.newT, hh.newS, fun x => ?_, hh.st, hh.restT, hh.restS⟩
  have := hh.ts x
  dsimp only
  revert this
  cases h.ts[x]? <;> cases k.ts[W.t x]? <;> intro this
  · exact .none
  · cases this
  · cases this
  · cases this with
    | some this =>
      obtain ⟨f, hf, rfl⟩ := this
      refine .some ⟨f, ?_, rfl⟩
      revert hf
      rename_i i
      cases i.gradFn <;> cases f <;> intro hf
      · exact .none
      · cases hf
      · cases hf
      · cases hf with
        | some hf =>
          exact .some ⟨hf.kind, hf.inputs, hf.nOutway, hf.accOutway, hf.hv.trans (Nat.le_succ _), hf.kv.trans (Nat.le_succ _),
            fun _ => ⟨fun _ => Nat.lt_succ_of_le hf.kv, fun _ => Nat.lt_succ_of_le hf.hv⟩⟩

theorem getVersion_twin : MTwin W V V (fun a b => a = V.hv ∧ b = V.kv) getVersion getVersion := fun _ _ hh => ⟨⟨hh.hv, hh.kv⟩, hh⟩

theorem Twin.le {h k : Heap F} (hh : Twin W V h k) : h.ts.length ≤ k.ts.length := by
  have := Fintype.card_le_of_injective (fun x : Fin h.ts.length => (⟨W.t x, hh.lt.1 x.2⟩ : Fin k.ts.length))
    fun a b e => Fin.ext (W.tinj (Fin.mk.inj_iff.1 e))
  simpa using this

theorem heapSize_twin : MTwin W V V (· ≤ ·) heapSize heapSize := fun _ _ hh => ⟨hh.le, hh⟩

/-- The same tensors under their other names. -/
def Naming.Ids (W : Naming F) (l l' : List Nat) : Prop := l' = l.map W.t

theorem queueLoop_twin {f f' : Nat → M F (List Nat)} (hf : ∀ t, MTwin W V V W.Ids (f t) (f' (W.t t))) :
    ∀ n n' q, n ≤ n' → MTwin W V V Eq (queueLoop f n q) (queueLoop f' n' (q.map W.t)) := by
  intro n
  induction n with
  | zero =>
    intro n' q _
    cases q with
    | nil => cases n' <;> exact MTwin.pure rfl
    | cons t q => exact MTwin.fuel _
  | succ n ih =>
    intro n' q hn
    obtain ⟨n', rfl⟩ : ∃ m, n' = m + 1 := ⟨n' - 1, by omega⟩
    cases q with
    | nil => exact MTwin.pure rfl
    | cons t q =>
      refine (hf t).bind fun l l' hl => ?_
      rw [show l' = l.map W.t from hl, ← List.map_append]
      exact ih n' _ (by omega)

theorem MTwin.cons {x y : M F (List Nat)} (h : MTwin W V V W.Ids x y) (t : Nat) :
    MTwin W V V W.Ids (do let r ← x; return t :: r) (do let r ← y; return W.t t :: r) :=
  h.bind fun l l' e => MTwin.pure (by rw [show l' = l.map W.t from e]; rfl)

theorem resetInputs_twin (hs : V.sync) : ∀ l : List Nat, MTwin W V V W.Ids (resetInputs l) (resetInputs (l.map W.t))
  | [] => MTwin.pure rfl
  | x :: l => by
    have ih := resetInputs_twin hs l
    refine twin_get fun i f hf => getVersion_twin.bind fun v v' e => ?_
    obtain ⟨rfl, rfl⟩ := e
    revert hf
    dsimp only
    cases i.gradFn <;> cases f <;> intro hf
    · exact ih
    · cases hf
    · cases hf
    · cases hf with
      | some hf =>
        rename_i g g'
        dsimp only
        rw [if_congr (hf.sync hs).symm rfl rfl]
        refine MTwin.ite (fun _ => (setGF_twin _ ?_).bindEq fun _ => ih.cons _) fun _ => ih
        exact ⟨hf.kind, hf.inputs, rfl, hf.accOutway, le_rfl, le_rfl, fun _ => by simp⟩

theorem countInputs_twin (hs : V.sync) : ∀ l : List Nat, MTwin W V V W.Ids (countInputs l) (countInputs (l.map W.t))
  | [] => MTwin.pure rfl
  | x :: l => by
    have ih := countInputs_twin hs l
    refine twin_get fun i f hf => getVersion_twin.bind fun v v' e => ?_
    obtain ⟨rfl, rfl⟩ := e
    revert hf
    dsimp only
    cases i.gradFn <;> cases f <;> intro hf
    · exact ih
    · cases hf
    · cases hf
    · cases hf with
      | some hf =>
        rename_i g g'
        dsimp only
        rw [if_congr (hf.sync hs).symm rfl rfl]
        refine MTwin.ite (fun _ => (setGF_twin _ ?_).bindEq fun _ => ih.cons _) fun _ => (setGF_twin _ ?_).bindEq fun _ => ih
        · exact ⟨hf.kind, hf.inputs, congrArg (· + 1) hf.nOutway, hf.accOutway, le_rfl, le_rfl, fun _ => by simp⟩
        · exact ⟨hf.kind, hf.inputs, congrArg (· + 1) hf.nOutway, hf.accOutway, hf.hv, hf.kv, hf.sync⟩

theorem readyInputs_twin (hs : V.sync) : ∀ l : List Nat, MTwin W V V W.Ids (readyInputs l) (readyInputs (l.map W.t))
  | [] => MTwin.pure rfl
  | x :: l => by
    have ih := readyInputs_twin hs l
    refine twin_get fun i f hf => getVersion_twin.bind fun v v' e => ?_
    obtain ⟨rfl, rfl⟩ := e
    revert hf
    dsimp only
    cases i.gradFn <;> cases f <;> intro hf
    · exact ih
    · cases hf
    · cases hf
    · cases hf with
      | some hf =>
        rename_i g g'
        dsimp only
        rw [hf.nOutway, hf.accOutway, if_congr (and_congr_left' (hf.sync hs).symm) rfl rfl]
        refine MTwin.ite (fun _ => (setGF_twin _ ?_).bindEq fun _ => ih.cons _) fun _ => ih
        exact ⟨hf.kind, hf.inputs, rfl, rfl, le_rfl, le_rfl, fun _ => by simp⟩

theorem refreshNOutway_twin (t : Nat) : MTwin W V V.bump.bump Eq (refreshNOutway t) (refreshNOutway (W.t t)) := by
  unfold refreshNOutway
  refine heapSize_twin.bind fun n n' hn => bumpVersion_twin.bind fun v v' e => (getGradFn_twin t).bind fun g g' hg => ?_
  obtain ⟨rfl, rfl⟩ := e
  refine MTwin.step (setGF_twin _ ?_) fun _ => ?_
  · exact ⟨hg.kind, hg.inputs, rfl, hg.accOutway, le_rfl, le_rfl, fun _ => by simp⟩
  refine (queueLoop_twin (fun x => ?_) _ _ [t] (Nat.succ_le_succ hn)).bindEq fun _ => ?_
  · refine (getGradFn_twin x).bind fun g g' hg => ?_
    rw [hg.inputs]
    exact resetInputs_twin trivial _
  refine bumpVersion_twin.bind fun v v' e => (getGradFn_twin t).bind fun g g' hg => ?_
  obtain ⟨rfl, rfl⟩ := e
  refine MTwin.step (setGF_twin _ ?_) fun _ => ?_
  · exact ⟨hg.kind, hg.inputs, hg.nOutway, hg.accOutway, le_rfl, le_rfl, fun _ => by simp⟩
  refine queueLoop_twin (fun x => ?_) _ _ [t] (Nat.succ_le_succ hn)
  refine (getGradFn_twin x).bind fun g g' hg => ?_
  rw [hg.inputs]
  exact countInputs_twin trivial _

variable [FOps F]

theorem tryAccUpdate_twin (p : Nat) : MTwin W V V Eq (tryAccUpdate p) (tryAccUpdate (W.t p)) := by
  unfold tryAccUpdate
  refine twin_get fun i f hf => MTwin.ite (fun _ => MTwin.pure rfl) fun _ => ?_
  have rest : MTwin W V V Eq (match i.grad with
    | none => (do
      let g ← create i.dtype i.view true
      let i ← getT p
      setT p { i with grad := some g }
      let gi ← getT g
      zeroS gi.data : M F Unit)
    | some g => do
      let gi ← getT g
      let al ← isAllocS gi.data
      if !al then do
        allocS gi.data
        zeroS gi.data
      else pure ()) (match i.grad.map W.t with
    | none => (do
      let g ← create i.dtype i.view true
      let i ← getT (W.t p)
      setT (W.t p) { i with grad := some g }
      let gi ← getT g
      zeroS gi.data : M F Unit)
    | some g => do
      let gi ← getT g
      let al ← isAllocS gi.data
      if !al then do
        allocS gi.data
        zeroS gi.data
      else pure ()) := by
    cases i.grad with
    | none =>
      refine (create_twin _ _ _).bindId fun g => twin_get fun j fj hj => MTwin.step (setT_twin _ ?_) fun _ => ?_
      · exact ⟨fj, hj, rfl⟩
      exact twin_get fun _ _ _ => zeroS_twin _
    | some g =>
      refine twin_get fun j _ _ => (isAllocS_twin _).bindEq fun al => MTwin.ite (fun _ => ?_) fun _ => MTwin.pure rfl
      exact (allocS_twin _).bindEq fun _ => zeroS_twin _
  revert hf
  dsimp only
  cases hi : i.gradFn <;> cases f <;> intro hf
  · exact rest
  · cases hf
  · cases hf
  · cases hf with
    | some hf =>
      refine (setT_twin _ ⟨_, .some ?_, rfl⟩).bindEq fun _ => rest
      exact ⟨hf.kind, hf.inputs, hf.nOutway, congrArg (· + 1) hf.accOutway, hf.hv, hf.kv, hf.sync⟩

theorem mulAddF_twin (d a b : Nat) : MTwin W V V Eq (mulAddF d a b) (mulAddF (W.t d) (W.t a) (W.t b)) := by
  unfold mulAddF
  refine twin_get fun i f _ => twin_get fun j g _ => twin_get fun k e _ => ?_
  exact MTwin.ite (fun _ => tensorMulAccF_twin _ _ _ (located i f) (located j g) (located k e)) fun _ => MTwin.undef _

theorem tryAccGrad_twin (p : Nat) (w o : Option Nat) : MTwin W V V Eq (tryAccGrad p w o) (tryAccGrad (W.t p) (w.map W.t) (o.map W.t)) := by
  unfold tryAccGrad
  refine twin_get fun i _ _ => MTwin.ite (fun _ => MTwin.pure rfl) fun _ => (tryAccUpdate_twin p).bindEq fun _ => ?_
  cases w <;> cases o
  · exact MTwin.pure rfl
  · exact MTwin.undef _
  · exact (derefGrad_twin p).bindId fun g => addAssign_twin _ _
  · refine twin_get fun wi _ _ => (derefGrad_twin p).bindId fun g => ?_
    exact MTwin.ite (fun _ => mulAddF_twin _ _ _) fun _ => mulAddF_twin _ _ _

theorem catBackGo_twin (t d : Nat) : ∀ (l : List Nat) (s : Nat), MTwin W V V Eq (catBackGo t d s l) (catBackGo (W.t t) d s (l.map W.t))
  | [], _ => MTwin.pure rfl
  | x :: l, s => twin_get fun i _ _ => twin_get fun xi _ _ => (MTwin.lift _).bindEq fun st =>
      (derefGrad_twin t).bindId fun g => twin_get fun gi _ _ => (createOn_twin _ _ _).bindId fun r =>
      (tryAccGrad_twin x (some r) none).bindEq fun _ => twin_get fun xi _ _ => (MTwin.lift _).bindEq fun d' =>
      catBackGo_twin t d l _

theorem divBackNum_twin (d o n : Nat) : MTwin W V V Eq (divBackNum d o n) (divBackNum (W.t d) (W.t o) (W.t n)) := by
  unfold divBackNum
  refine twin_get fun i f _ => twin_get fun j g _ => twin_get fun k e _ => ?_
  exact MTwin.ite (fun _ => tensorDivBackNum_twin _ _ _ (located i f) (located j g) (located k e)) fun _ => MTwin.undef _

theorem divBackDen_twin (t d : Nat) : MTwin W V V Eq (divBackDen t d) (divBackDen (W.t t) (W.t d)) := by
  unfold divBackDen
  refine twin_get fun i f _ => twin_get fun j g _ => MTwin.ite (fun _ => ?_) fun _ => MTwin.undef _
  refine (derefGrad_twin d).bindId fun x => (derefGrad_twin t).bindId fun y => twin_get fun gi e _ => ?_
  exact twin_get fun oi e' _ => tensorDivBackDen_twin _ _ (located gi e) (located oi e') (located j g) (located i f)

theorem stepBack_twin (t : Nat) {g g' : GradFn} (hg : TwinFn W V g g') : MTwin W V V Eq (stepBack t g) (stepBack (W.t t) g') := by
  unfold stepBack
  rw [hg.kind]
  have two : ∀ (x : Nat) (k : Nat), MTwin W V V Eq (tryAccGrad (F := F) x (some k) none) (tryAccGrad (W.t x) (some (W.t k)) none) :=
    fun x k => tryAccGrad_twin x (some k) none
  have three : ∀ (x y k : Nat), MTwin W V V Eq (tryAccGrad (F := F) x (some y) (some k))
      (tryAccGrad (W.t x) (some (W.t y)) (some (W.t k))) := fun x y k => tryAccGrad_twin x (some y) (some k)
  cases g.kind with
  | add =>
    exact (inputAt_twin hg 0).bindId fun x => (derefGrad_twin t).bindId fun k => (two _ _).bindEq fun _ =>
      (inputAt_twin hg 1).bindId fun x => (derefGrad_twin t).bindId fun k => two _ _
  | sub =>
    exact (inputAt_twin hg 0).bindId fun x => (derefGrad_twin t).bindId fun k => (two _ _).bindEq fun _ =>
      (createScalar_twin _ _).bindId fun m =>
      (inputAt_twin hg 1).bindId fun x => (derefGrad_twin t).bindId fun k => three _ _ _
  | mul =>
    exact (inputAt_twin hg 0).bindId fun x => (inputAt_twin hg 1).bindId fun y => (derefGrad_twin t).bindId fun k =>
      (three _ _ _).bindEq fun _ => (inputAt_twin hg 1).bindId fun x => (inputAt_twin hg 0).bindId fun y =>
      (derefGrad_twin t).bindId fun k => three _ _ _
  | div =>
    exact (inputAt_twin hg 0).bindId fun a => (inputAt_twin hg 1).bindId fun b => (tryAccUpdate_twin a).bindEq fun _ =>
      (derefGrad_twin a).bindId fun ga => (derefGrad_twin t).bindId fun k => (divBackNum_twin _ _ _).bindEq fun _ =>
      (tryAccUpdate_twin b).bindEq fun _ => divBackDen_twin _ _
  | sum =>
    exact (inputAt_twin hg 0).bindId fun a => (onesLike_twin a).bindId fun w => (derefGrad_twin t).bindId fun k => three _ _ _
  | mean =>
    exact (inputAt_twin hg 0).bindId fun a => twin_get fun i _ _ => (full_twin _ _ _ _).bindId fun w => two _ _
  | noBack => exact (inputAt_twin hg 0).bindId fun a => tryAccGrad_twin a none none
  | clone => exact (inputAt_twin hg 0).bindId fun a => (derefGrad_twin t).bindId fun k => two _ _
  | cat d =>
    show MTwin W V V Eq (catBackGo t d 0 g.inputs) (catBackGo (W.t t) d 0 g'.inputs)
    rw [hg.inputs]
    exact catBackGo_twin _ _ _ _
  | knownGrad k => exact (inputAt_twin hg 0).bindId fun a => (derefGrad_twin t).bindId fun _ => three _ _ _

theorem backVisit_twin (hs : V.sync) (t : Nat) : MTwin W V V W.Ids (backVisit t) (backVisit (W.t t)) := by
  unfold backVisit
  have rest : MTwin W V V W.Ids (do readyInputs (← getGradFn t).inputs : M F (List Nat))
      (do readyInputs (← getGradFn (W.t t)).inputs : M F (List Nat)) :=
    (getGradFn_twin t).bind fun g g' hg => by rw [hg.inputs]; exact readyInputs_twin hs _
  refine (getGradFn_twin t).bind fun g g' hg => (stepBack_twin t hg).bindEq fun _ => twin_get fun i f hf => ?_
  refine MTwin.ite (fun _ => MTwin.step (setT_twin _ ?_) fun _ => rest) fun _ => rest
  exact ⟨f, hf, rfl⟩

theorem backward_twin (t : Nat) : MTwin W V V.bump.bump.bump Eq (Tensor.backward t) (Tensor.backward (W.t t)) := by
  unfold Tensor.backward
  refine twin_get fun i f hf => (MTwin.expect _).bindEq fun _ => ?_
  have he : (W.im i f).gradFn.isSome = i.gradFn.isSome := by
    revert hf
    cases i.gradFn <;> cases f <;> intro hf <;> first | rfl | cases hf
  rw [he]
  refine (MTwin.expect _).bindEq fun _ => (MTwin.expect _).bindEq fun _ => heapSize_twin.bind fun n n' hn => ?_
  refine (refreshNOutway_twin t).bindEq fun _ => (onesLike_twin t).bindId fun o => twin_get fun i f hf => ?_
  refine MTwin.step (setT_twin _ ?_) fun _ => ?_
  · exact ⟨f, hf, rfl⟩
  refine bumpVersion_twin.bind fun v v' e => (getGradFn_twin t).bind fun g g' hg => ?_
  obtain ⟨rfl, rfl⟩ := e
  refine MTwin.step (setGF_twin _ ?_) fun _ => ?_
  · exact ⟨hg.kind, hg.inputs, hg.nOutway, hg.accOutway, le_rfl, le_rfl, fun _ => by simp⟩
  exact queueLoop_twin (fun x => backVisit_twin trivial x) _ _ [t] (Nat.succ_le_succ hn)

/-! ### Calls -/

/-- The returned tensor under its other name. -/
def Naming.Ret (W : Naming F) (a b : Option Nat) : Prop := b = a.map W.t

omit [FOps F] in
theorem some'_twin {x y : M F Nat} (h : MTwin W V V' W.Id x y) : MTwin W V V' W.Ret (some' x) (some' y) :=
  h.bind fun a b e => MTwin.pure (by rw [show b = W.t a from e]; rfl)

omit [FOps F] in
theorem none'_twin {α β : Type} {Q : α → β → Prop} {x : M F α} {y : M F β} (h : MTwin W V V' Q x y) :
    MTwin W V V' W.Ret (none' x) (none' y) := h.bind fun _ _ _ => MTwin.pure rfl

/-- The same call, other than `backward`, on the same tensors under their other names. -/
theorem other_twin (c : Call F) (hc : ∀ t, c ≠ .backward t) : MTwin W V V W.Ret c.run (c.on W.t).run := by
  cases c with
  | scalar dt v => exact some'_twin (createScalar_twin _ _)
  | empty s dt => exact some'_twin (emptyTensor_twin s dt)
  | init tree => exact ofInit_twin tree
  | ones s dt => exact some'_twin (ones_twin s dt)
  | zeros s dt => exact some'_twin (zeros_twin s dt)
  | onesLike t => exact some'_twin (onesLike_twin t)
  | zerosLike t => exact some'_twin (zerosLike_twin t)
  | fullInt s n dt => exact some'_twin (full_twin s _ _ dt)
  | fullReal s x dt => exact some'_twin (full_twin s _ _ dt)
  | eye n m dt => exact some'_twin (eye_twin n m dt)
  | fromBlob d s dt => exact some'_twin (fromBlob_twin d s dt)
  | randn r s dt => exact some'_twin (randn_twin r s dt)
  | randnLike r t => exact twin_get fun _ _ _ => some'_twin (randn_twin r _ _)
  | slice t s => exact some'_twin (slice_twin t s)
  | transpose t a b => exact some'_twin (transpose_twin t a b)
  | reshape t s => exact some'_twin (reshape_twin t s)
  | reshapeAs t u => exact some'_twin (reshapeAs_twin t u)
  | detach t => exact some'_twin (detach_twin t)
  | clone t => exact some'_twin (clone_twin t)
  | contiguous t => exact some'_twin (clone_twin t)
  | toType t dt => exact some'_twin (toType_twin t dt)
  | add l r => exact some'_twin (addT_twin l r)
  | sub l r => exact some'_twin (subT_twin l r)
  | mul l r => exact some'_twin (mulT_twin l r)
  | div l r => exact some'_twin (divT_twin l r)
  | pos t => exact some'_twin (MTwin.ret t)
  | neg t => exact some'_twin (negT_twin t)
  | cmp op l r => exact some'_twin (cmp_twin op l r)
  | sum t => exact some'_twin (sumT_twin t)
  | mean t => exact some'_twin (meanT_twin t)
  | abs t => exact some'_twin (absT_twin t)
  | max t => exact some'_twin (extreme_twin _ t)
  | min t => exact some'_twin (extreme_twin _ t)
  | cat l d => exact some'_twin (catT_twin l d)
  | addAssign t r => exact none'_twin (addAssign_twin t r)
  | setRequiresGrad t b => exact none'_twin (setRequiresGrad_twin t b)
  | setRetainGrad t b => exact none'_twin (setRetainGrad_twin t b)
  | zeroGrad t => exact none'_twin (zeroGrad_twin t)
  | release t => exact none'_twin (release_twin t)
  | backward t => exact absurd rfl (hc t)
  | grad t => exact gradOf_twin t
  | all t => exact none'_twin (allT_twin t)
  | toString t => exact none'_twin (toString_twin t)
  | stride t => exact none'_twin (stride_twin t)
  | query t => exact twin_get fun _ _ _ => MTwin.pure rfl

/-- The same call on the same tensors under their other names. -/
theorem call_twin (c : Call F) : ∃ V', MTwin W V V' W.Ret c.run (c.on W.t).run := by
  by_cases hc : ∃ t, c = .backward t
  · obtain ⟨t, rfl⟩ := hc
    exact ⟨_, none'_twin (backward_twin t)⟩
  · exact ⟨V, other_twin c fun t e => hc ⟨t, e⟩⟩

end
end INNC
