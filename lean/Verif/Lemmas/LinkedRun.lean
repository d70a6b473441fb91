import Verif.Lemmas.LinkedCalls
/-
Linked runs of initialiser lists, of `backward` and of whole sessions.
-/
namespace INNC
open Spec Tensor
section
variable {F G : Type} {R : DType → F → G → Prop}

/-! ### Initialiser lists -/

/-- Evaluated initialisers of the same form. -/
structure LinkedInit (R : DType → F → G → Prop) (a : TInit F) (b : TInit G) : Prop where
  data : ∀ dt, a.dtype = some dt → List.Forall₂ (LinkedVal R dt) a.data b.data
  shape : a.shape = b.shape
  dtype : a.dtype = b.dtype

theorem sameSpec_link {a x : TInit F} {b y : TInit G} (hab : LinkedInit R a b) (hxy : LinkedInit R x y) :
    sameSpec a x = sameSpec b y := by
  unfold sameSpec
  rw [hab.shape, hab.dtype, hxy.shape, hxy.dtype]

theorem allSame_link {a : TInit F} {b : TInit G} (hab : LinkedInit R a b) {l : List (TInit F)} {l' : List (TInit G)}
    (hl : List.Forall₂ (LinkedInit R) l l') : allSame a l = allSame b l' := by
  induction hl with
  | nil => rfl
  | cons hx _ ih =>
    unfold allSame
    rw [sameSpec_link hx hab, ih]

theorem allSame_dtype {a : TInit F} {dt : DType} (ha : a.dtype = some dt) : ∀ {l : List (TInit F)}, allSame a l = .ok true →
    ∀ x ∈ l, x.dtype = some dt := by
  intro l
  induction l with
  | nil => simp
  | cons x l ih =>
    intro h
    unfold allSame sameSpec at h
    rw [ha] at h
    by_cases hs : x.shape = a.shape
    · cases hx : x.dtype with
      | none => simp [hs, hx, bind, Res.bind] at h
      | some d =>
        by_cases hd : d = dt
        · subst hd
          have : allSame a l = .ok true := by simpa [hs, hx, bind, Res.bind] using h
          intro y hy
          rcases List.mem_cons.mp hy with rfl | hy
          · exact hx
          · exact ih this y hy
        · simp [hs, hx, hd, bind, Res.bind, pure] at h
    · simp [hs, bind, Res.bind, pure] at h

theorem flatMap_link {dt : DType} {l : List (TInit F)} {l' : List (TInit G)} (hl : List.Forall₂ (LinkedInit R) l l')
    (hd : ∀ x ∈ l, x.dtype = some dt) : List.Forall₂ (LinkedVal R dt) (l.flatMap (·.data)) (l'.flatMap (·.data)) := by
  induction hl with
  | nil => exact .nil
  | cons hx _ ih => exact List.rel_append (hx.data dt (hd _ (by simp))) (ih fun x h => hd x (by simp [h]))

theorem initNode_link {l : List (TInit F)} {l' : List (TInit G)} (hl : List.Forall₂ (LinkedInit R) l l') :
    ResLink (LinkedInit R) (initNode l) (initNode l') := by
  cases hl with
  | nil => exact ⟨fun _ h => (by cases h), rfl, rfl⟩
  | cons hx hr =>
    rename_i a b l l'
    show ResLink (LinkedInit R) (do
      let c ← allSame a (a :: l)
      if c then .ok (TInit.mk ((a :: l).flatMap (·.data)) ((l.length + 1) :: a.shape) a.dtype) else .throw .invalidArgument) (do
      let c ← allSame b (b :: l')
      if c then .ok (TInit.mk ((b :: l').flatMap (·.data)) ((l'.length + 1) :: b.shape) b.dtype) else .throw .invalidArgument)
    rw [← allSame_link hx (.cons hx hr)]
    cases hs : allSame a (a :: l) with
    | ub u => exact trivial
    | throw e => exact rfl
    | ok c =>
    refine ResLink.ite (fun hc => ⟨fun dt hd => ?_, ?_, hx.dtype⟩) fun _ => rfl
    · subst hc
      exact flatMap_link (.cons hx hr) (allSame_dtype (a := a) hd hs)
    show (l.length + 1) :: a.shape = (l'.length + 1) :: b.shape
    rw [hr.length_eq, hx.shape]

theorem initEval_link {x : InitTree F} {y : InitTree G} (h : LinkedTree R x y) : ResLink (LinkedInit R) (initEval x) (initEval y) ∧
    ∀ l l', x = .node l → y = .node l' → ResLink (List.Forall₂ (LinkedInit R)) (initEval.evalList l) (initEval.evalList l') := by
  induction h with
  | leaf hv =>
    refine ⟨?_, fun _ _ e => by cases e⟩
    unfold initEval
    exact ⟨fun _ e => (by cases e; exact hv), by rw [hv.length_eq], rfl⟩
  | nil =>
    have h0 : ResLink (List.Forall₂ (LinkedInit R)) (initEval.evalList ([] : List (InitTree F)))
        (initEval.evalList ([] : List (InitTree G))) := by
      unfold initEval.evalList
      exact .nil
    refine ⟨?_, fun _ _ e e' => by cases e; cases e'; exact h0⟩
    unfold initEval
    exact h0.bind fun _ _ hl => initNode_link hl
  | cons hx hl ihx ihl =>
    rename_i x x' l l'
    have h0 : ResLink (List.Forall₂ (LinkedInit R)) (initEval.evalList (x :: l)) (initEval.evalList (x' :: l')) := by
      unfold initEval.evalList
      exact ihx.1.bind fun a b hab => (ihl.2 l l' rfl rfl).bind fun as bs hs => .cons hab hs
    refine ⟨?_, fun _ _ e e' => by cases e; cases e'; exact h0⟩
    unfold initEval
    exact h0.bind fun _ _ hl => initNode_link hl

theorem createImpl_link {a : TInit F} {b : TInit G} (h : LinkedInit R a b) : MLink R Eq (createImpl a) (createImpl b) := by
  unfold createImpl
  rw [h.shape, ← h.dtype]
  refine MLink.ite (fun _ => MLink.pure rfl) fun _ => ?_
  cases hd : a.dtype with
  | none => exact MLink.undef _ _
  | some dt =>
    refine MLink.create fun t _ _ hh hc => getT_at hh fun i hi => getS_at hh fun s s' hs' hs => ?_
    have hb : List.Forall₂ (LinkedCell R s.dt) (a.data.map some) (b.data.map some) := by
      rw [(hc i hi).2 s hs']
      exact forall₂_map (h.data dt hd) fun _ _ hv => hv
    exact ((setS_link _ (s := { s with blob := some (a.data.map some) }) (s' := { s' with blob := some (b.data.map some) })
      ⟨hs.dt, hs.size, .some hb⟩).bindEq fun _ => MLink.pure rfl : MLink R Eq _ _) _ _ hh

theorem ofInit_link {x : InitTree F} {y : InitTree G} (h : LinkedTree R x y) : MLink R Eq (ofInit x) (ofInit y) :=
  (MLink.lift (initEval_link h).1).bind fun _ _ hi => createImpl_link hi

/-! ### Backward -/

theorem derefGrad_link (t : Nat) : MLink R Eq (derefGrad t) (derefGrad t) := by
  unfold derefGrad
  refine (getT_link t).bindEq fun i => ?_
  cases i.grad with
  | none => exact MLink.undef _ _
  | some g => exact MLink.pure rfl

theorem inputAt_link (g : GradFn) (k : Nat) : MLink R Eq (inputAt g k) (inputAt g k) := MLink.liftSame _

theorem getGradFn_link (t : Nat) : MLink R Eq (getGradFn t) (getGradFn t) := by
  unfold getGradFn
  refine (getT_link t).bindEq fun i => ?_
  cases i.gradFn with
  | none => exact MLink.undef _ _
  | some g => exact MLink.pure rfl

theorem setGF_link (t : Nat) (g : GradFn) : MLink R Eq (setGF t g) (setGF t g) :=
  (getT_link t).bindEq fun _ => setT_link _ _

theorem bumpVersion_link : MLink R Eq bumpVersion bumpVersion :=
  fun h h' hh => ⟨by show h.gver + 1 = h'.gver + 1; rw [hh.gver], hh.st, hh.ts, by show h.gver + 1 = h'.gver + 1; rw [hh.gver]⟩

theorem getVersion_link : MLink R Eq getVersion getVersion := fun _ _ hh => ⟨hh.gver, hh⟩

theorem heapSize_link : MLink R Eq heapSize heapSize :=
  fun h h' hh => ⟨by show h.ts.length = h'.ts.length; rw [hh.ts], hh⟩

theorem queueLoop_link {f : Nat → M F (List Nat)} {f' : Nat → M G (List Nat)} (hf : ∀ t, MLink R Eq (f t) (f' t)) :
    ∀ n q, MLink R Eq (queueLoop f n q) (queueLoop f' n q) := by
  intro n
  induction n with
  | zero =>
    intro q
    cases q with
    | nil => exact MLink.pure rfl
    | cons t q => exact MLink.undef _ _
  | succ n ih =>
    intro q
    cases q with
    | nil => exact MLink.pure rfl
    | cons t q => exact (hf t).bindEq fun _ => ih _

theorem resetInputs_link : ∀ l : List Nat, MLink R Eq (resetInputs l) (resetInputs l)
  | [] => MLink.pure rfl
  | x :: l => by
    have ih := resetInputs_link l
    refine (getT_link x).bindEq fun i => getVersion_link.bindEq fun v => ?_
    cases i.gradFn with
    | none => exact ih
    | some g => exact MLink.ite (fun _ => (setGF_link _ _).bindEq fun _ => ih.bindEq fun _ => MLink.pure rfl) fun _ => ih

theorem countInputs_link : ∀ l : List Nat, MLink R Eq (countInputs l) (countInputs l)
  | [] => MLink.pure rfl
  | x :: l => by
    have ih := countInputs_link l
    refine (getT_link x).bindEq fun i => getVersion_link.bindEq fun v => ?_
    cases i.gradFn with
    | none => exact ih
    | some g =>
      exact MLink.ite (fun _ => (setGF_link _ _).bindEq fun _ => ih.bindEq fun _ => MLink.pure rfl)
        fun _ => (setGF_link _ _).bindEq fun _ => ih

theorem readyInputs_link : ∀ l : List Nat, MLink R Eq (readyInputs l) (readyInputs l)
  | [] => MLink.pure rfl
  | x :: l => by
    have ih := readyInputs_link l
    refine (getT_link x).bindEq fun i => getVersion_link.bindEq fun v => ?_
    cases i.gradFn with
    | none => exact ih
    | some g => exact MLink.ite (fun _ => (setGF_link _ _).bindEq fun _ => ih.bindEq fun _ => MLink.pure rfl) fun _ => ih

theorem refreshNOutway_link (t : Nat) : MLink R Eq (refreshNOutway t) (refreshNOutway t) := by
  unfold refreshNOutway
  refine heapSize_link.bindEq fun n => bumpVersion_link.bindEq fun v => (getGradFn_link t).bindEq fun g => ?_
  refine (setGF_link _ _).bindEq fun _ => (queueLoop_link (fun x => ?_) _ _).bindEq fun _ => ?_
  · exact (getGradFn_link x).bindEq fun g => resetInputs_link _
  refine bumpVersion_link.bindEq fun v => (getGradFn_link t).bindEq fun g => ?_
  refine (setGF_link _ _).bindEq fun _ => queueLoop_link (fun x => ?_) _ _
  exact (getGradFn_link x).bindEq fun g => countInputs_link _

variable [FOps F] [FOps G]

theorem tryAccUpdate_link (P : Preserved R) (p : Nat) : MLink R Eq (tryAccUpdate p) (tryAccUpdate p) := by
  unfold tryAccUpdate
  refine (getT_link p).bindEq fun i => MLink.ite (fun _ => MLink.pure rfl) fun _ => ?_
  have rest : MLink R Eq (match i.grad with
    | none => (do
      let g ← create i.dtype i.view true
      let i ← getT p
      setT p { i with grad := some g }
      let gi ← getT g
      zeroS gi.data : M F Unit)
    | some g => do
      let gi ← getT g
      let al ← isAllocS gi.data
      if !al then do
        allocS gi.data
        zeroS gi.data
      else pure ()) (match i.grad with
    | none => (do
      let g ← create i.dtype i.view true
      let i ← getT p
      setT p { i with grad := some g }
      let gi ← getT g
      zeroS gi.data : M G Unit)
    | some g => do
      let gi ← getT g
      let al ← isAllocS gi.data
      if !al then do
        allocS gi.data
        zeroS gi.data
      else pure ()) := by
    cases i.grad with
    | none => link
    | some g => link
  cases i.gradFn with
  | none => exact rest
  | some g => exact (setT_link _ _).bindEq fun _ => rest

theorem mulAddF_link (P : Preserved R) (d a b : Nat) : MLink R Eq (mulAddF d a b) (mulAddF d a b) := by
  unfold mulAddF
  refine (getT_link d).bindEq fun i => (getT_link a).bindEq fun j => (getT_link b).bindEq fun k => ?_
  exact MLink.ite (fun _ => tensorMulAccF_link P _ _ _ _ _ _) fun _ => MLink.undef _ _

theorem tryAccGrad_link (P : Preserved R) (p : Nat) (w o : Option Nat) : MLink R Eq (tryAccGrad p w o) (tryAccGrad p w o) := by
  unfold tryAccGrad
  refine (getT_link p).bindEq fun i => MLink.ite (fun _ => MLink.pure rfl) fun _ => (tryAccUpdate_link P p).bindEq fun _ => ?_
  cases w <;> cases o
  · exact MLink.pure rfl
  · exact MLink.undef _ _
  · exact (derefGrad_link p).bindEq fun g => addAssign_link P _ _
  · refine (getT_link _).bindEq fun wi => (derefGrad_link p).bindEq fun g => ?_
    exact MLink.ite (fun _ => mulAddF_link P _ _ _) fun _ => mulAddF_link P _ _ _

theorem catBackGo_link (P : Preserved R) (t d : Nat) : ∀ (l : List Nat) (s : Nat), MLink R Eq (catBackGo t d s l) (catBackGo t d s l)
  | [], _ => MLink.pure rfl
  | x :: l, s => (getT_link t).bindEq fun i => (getT_link x).bindEq fun xi => (MLink.liftSame _).bindEq fun st =>
      (derefGrad_link t).bindEq fun g => (getT_link g).bindEq fun gi => (createOn_link _ _ _).bindEq fun r =>
      (tryAccGrad_link P _ _ _).bindEq fun _ => (getT_link x).bindEq fun xi => (MLink.liftSame _).bindEq fun d' =>
      catBackGo_link P t d l _

theorem meanCoef_link (P : Preserved R) (n : Nat) : LinkedVal R .f64 (meanCoef n) (meanCoef n) :=
  ⟨rfl, P.div _ _ _ _ _ (P.ofInt _ _) (P.ofInt _ _)⟩

theorem divBackNum_link (P : Preserved R) (d o n : Nat) : MLink R Eq (divBackNum d o n) (divBackNum d o n) := by
  unfold divBackNum
  refine (getT_link d).bindEq fun i => (getT_link o).bindEq fun j => (getT_link n).bindEq fun k => ?_
  exact MLink.ite (fun _ => tensorDivBackNum_link P _ _ _ _ _ _) fun _ => MLink.undef _ _

theorem divBackDen_link (P : Preserved R) (t d : Nat) : MLink R Eq (divBackDen t d) (divBackDen t d) := by
  unfold divBackDen
  refine (getT_link d).bindEq fun i => (getT_link t).bindEq fun j => MLink.ite (fun _ => ?_) fun _ => MLink.undef _ _
  refine (derefGrad_link d).bindEq fun g => (derefGrad_link t).bindEq fun og => (getT_link g).bindEq fun gi => ?_
  exact (getT_link og).bindEq fun oi => tensorDivBackDen_link P _ _ _ _ _ _

theorem stepBack_link (P : Preserved R) (t : Nat) (g : GradFn) : MLink R Eq (stepBack t g) (stepBack t g) := by
  unfold stepBack
  have two : ∀ (x : Nat) (k : Nat), MLink R Eq (tryAccGrad (F := F) x (some k) none) (tryAccGrad x (some k) none) :=
    fun x k => tryAccGrad_link P _ _ _
  cases g.kind with
  | add =>
    exact (inputAt_link g 0).bindEq fun x => (derefGrad_link t).bindEq fun k => (two _ _).bindEq fun _ =>
      (inputAt_link g 1).bindEq fun x => (derefGrad_link t).bindEq fun k => two _ _
  | sub =>
    exact (inputAt_link g 0).bindEq fun x => (derefGrad_link t).bindEq fun k => (two _ _).bindEq fun _ =>
      (createScalar_link _ (linkedInt _ _)).bindEq fun m =>
      (inputAt_link g 1).bindEq fun x => (derefGrad_link t).bindEq fun k => tryAccGrad_link P _ _ _
  | mul =>
    exact (inputAt_link g 0).bindEq fun x => (inputAt_link g 1).bindEq fun y => (derefGrad_link t).bindEq fun k =>
      (tryAccGrad_link P _ _ _).bindEq fun _ => (inputAt_link g 1).bindEq fun x => (inputAt_link g 0).bindEq fun y =>
      (derefGrad_link t).bindEq fun k => tryAccGrad_link P _ _ _
  | div =>
    exact (inputAt_link g 0).bindEq fun a => (inputAt_link g 1).bindEq fun b => (tryAccUpdate_link P a).bindEq fun _ =>
      (derefGrad_link a).bindEq fun ga => (derefGrad_link t).bindEq fun k => (divBackNum_link P _ _ _).bindEq fun _ =>
      (tryAccUpdate_link P b).bindEq fun _ => divBackDen_link P _ _
  | sum =>
    exact (inputAt_link g 0).bindEq fun a => (onesLike_link P a).bindEq fun w => (derefGrad_link t).bindEq fun k =>
      tryAccGrad_link P _ _ _
  | mean =>
    exact (inputAt_link g 0).bindEq fun a => (getT_link a).bindEq fun i => (full_link P _ _ (meanCoef_link P _) _).bindEq fun w =>
      tryAccGrad_link P _ _ _
  | noBack => exact (inputAt_link g 0).bindEq fun a => tryAccGrad_link P _ _ _
  | clone => exact (inputAt_link g 0).bindEq fun a => (derefGrad_link t).bindEq fun k => two _ _
  | cat d => exact catBackGo_link P _ _ _ _
  | knownGrad k => exact (inputAt_link g 0).bindEq fun a => (derefGrad_link t).bindEq fun k => tryAccGrad_link P _ _ _

theorem backVisit_link (P : Preserved R) (t : Nat) : MLink R Eq (backVisit t) (backVisit t) := by
  unfold backVisit
  have rest : MLink R Eq (do readyInputs (← getGradFn t).inputs : M F (List Nat)) (do readyInputs (← getGradFn t).inputs : M G (List Nat)) :=
    (getGradFn_link t).bindEq fun g => readyInputs_link _
  refine (getGradFn_link t).bindEq fun g => (stepBack_link P t g).bindEq fun _ => (getT_link t).bindEq fun i => ?_
  exact MLink.ite (fun _ => (setT_link _ _).bindEq fun _ => rest) fun _ => rest

theorem backward_link (P : Preserved R) (t : Nat) : MLink R Eq (Tensor.backward t) (Tensor.backward t) := by
  unfold Tensor.backward
  refine (getT_link t).bindEq fun i => (MLink.expect _).bindEq fun _ => (MLink.expect _).bindEq fun _ => ?_
  refine (MLink.expect _).bindEq fun _ => heapSize_link.bindEq fun n => (refreshNOutway_link t).bindEq fun _ => ?_
  refine (onesLike_link P t).bindEq fun o => (getT_link t).bindEq fun i => (setT_link _ _).bindEq fun _ => ?_
  refine bumpVersion_link.bindEq fun v => (getGradFn_link t).bindEq fun g => (setGF_link _ _).bindEq fun _ => ?_
  exact queueLoop_link (fun x => backVisit_link P x) _ _

/-! ### Calls and sessions -/

omit [FOps F] [FOps G] in
theorem some'_link {x : M F Nat} {y : M G Nat} (h : MLink R Eq x y) : MLink R Eq (some' x) (some' y) :=
  h.bindEq fun _ => MLink.pure rfl

omit [FOps F] [FOps G] in
theorem none'_link {α β : Type} {Q : α → β → Prop} {x : M F α} {y : M G β} (h : MLink R Q x y) : MLink R Eq (none' x) (none' y) :=
  h.bind fun _ _ _ => MLink.pure rfl

theorem call_link (P : Preserved R) {c : Call F} {c' : Call G} (h : LinkedCall R c c') : MLink R Eq c.run c'.run := by
  cases h with
  | scalar hv => exact some'_link (createScalar_link _ hv)
  | empty s dt => exact some'_link (emptyTensor_link s dt)
  | init ht => exact ofInit_link ht
  | ones s dt => exact some'_link (ones_link P s dt)
  | zeros s dt => exact some'_link (zeros_link P s dt)
  | onesLike t => exact some'_link (onesLike_link P t)
  | zerosLike t => exact some'_link (zerosLike_link P t)
  | fullInt s n dt => exact some'_link (full_link P s _ (linkedInt _ n) dt)
  | fullReal hx => exact some'_link (full_link P _ _ (linkedFloat rfl hx) _)
  | eye n m dt => exact some'_link (eye_link P n m dt)
  | fromBlob hd => exact some'_link (fromBlob_link hd _)
  | randn hr => exact some'_link (randn_link hr _ _)
  | randnLike hr => exact (getT_link _).bindEq fun _ => some'_link (randn_link hr _ _)
  | slice t s => exact some'_link (slice_link t s)
  | transpose t a b => exact some'_link (transpose_link t a b)
  | reshape t s => exact some'_link (reshape_link P t s)
  | reshapeAs t u => exact some'_link (reshapeAs_link P t u)
  | detach t => exact some'_link (detach_link t)
  | clone t => exact some'_link (clone_link P t)
  | contiguous t => exact some'_link (clone_link P t)
  | toType t dt => exact some'_link (toType_link P t dt)
  | add l r => exact some'_link (addT_link P l r)
  | sub l r => exact some'_link (subT_link P l r)
  | mul l r => exact some'_link (mulT_link P l r)
  | div l r => exact some'_link (divT_link P l r)
  | pos t => exact some'_link (MLink.pure rfl)
  | neg t => exact some'_link (negT_link P t)
  | sum t => exact some'_link (sumT_link P t)
  | mean t => exact some'_link (meanT_link P t)
  | cat l d => exact some'_link (catT_link P l d)
  | addAssign t r => exact none'_link (addAssign_link P t r)
  | setRequiresGrad t b => exact none'_link (setRequiresGrad_link t b)
  | setRetainGrad t b => exact none'_link (setRetainGrad_link t b)
  | zeroGrad t => exact none'_link (zeroGrad_link P t)
  | release t => exact none'_link (release_link t)
  | backward t => exact none'_link (backward_link P t)
  | grad t => exact gradOf_link t
  | stride t => exact none'_link (stride_link t)
  | query t => exact none'_link (getT_link t)
  | cmp op l r C => exact some'_link (cmp_link P C op l r)
  | abs t C => exact some'_link (absT_link P C t)
  | max t C => exact some'_link (extreme_link P C _ t)
  | min t C => exact some'_link (extreme_link P C _ t)
  | all t S => exact none'_link (allT_link S t)
  | toString t S => exact none'_link (toString_link S t)

theorem session_link (P : Preserved R) {cs : List (Call F)} {cs' : List (Call G)} (hc : List.Forall₂ (LinkedCall R) cs cs') :
    ∀ {h : Heap F} {h' : Heap G}, LinkedHeap R h h' → ∀ {out : List Reply} {k' : Heap G}, session cs' h' = some (out, k') →
    ∃ k, session cs h = some (out, k) ∧ LinkedHeap R k k' := by
  induction hc with
  | nil =>
    intro h h' hh out k' e
    cases e
    exact ⟨h, rfl, hh⟩
  | cons hx hcs ih =>
    rename_i c c' cs cs'
    intro h h' hh out k' e
    have := call_link P hx h h' hh
    revert this e
    unfold session
    cases c'.run h' with
    | ub u => intro e; cases e
    | ok t' g' =>
      cases c.run h with
      | ok t g =>
        intro e this
        obtain ⟨rfl, hg⟩ := this
        cases hs : session cs' g' with
        | none => simp [hs] at e
        | some r =>
          obtain ⟨k, hk, hl⟩ := ih hg (out := r.1) (k' := r.2) hs
          simp only [hs, Option.map_some, Option.some.injEq, Prod.mk.injEq] at e
          refine ⟨k, ?_, e.2 ▸ hl⟩
          simp only [hk, Option.map_some, e.1]
      | throw e g => intro _ this; exact this.elim
      | ub u => intro _ this; exact this.elim
    | throw x' g' =>
      cases c.run h with
      | throw x g =>
        intro e this
        obtain ⟨rfl, hg⟩ := this
        cases hs : session cs' g' with
        | none => simp [hs] at e
        | some r =>
          obtain ⟨k, hk, hl⟩ := ih hg (out := r.1) (k' := r.2) hs
          simp only [hs, Option.map_some, Option.some.injEq, Prod.mk.injEq] at e
          refine ⟨k, ?_, e.2 ▸ hl⟩
          simp only [hk, Option.map_some, e.1]
      | ok t g => intro _ this; exact this.elim
      | ub u => intro _ this; exact this.elim

end
end INNC
