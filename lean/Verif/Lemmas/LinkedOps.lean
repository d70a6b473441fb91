import Verif.Lemmas.Linked
/-
Linked runs of the kernels and of the functions of the interface.
-/
namespace INNC
open Spec Tensor

/-- One step of a proof that two computations are linked. -/
macro "link_step" : tactic => `(tactic| first
  | assumption
  | exact MLink.pure rfl
  | exact MLink.undef _ _
  | exact MLink.raise _
  | exact MLink.expect _
  | exact getT_link _
  | exact setT_link _ _
  | exact newT_link _
  | exact createOn_link _ _ _
  | exact create_link _ _ _
  | exact allocS_link _
  | exact isAllocS_link _
  | exact releaseS_link _
  | exact load_link _ _ _
  | exact store_link _ _ _ (by assumption)
  | exact store_link _ _ _ (linkedInt _ _)
  | exact zeroS_link (by assumption) _
  | exact MLink.liftSame _
  | exact MLink.lift (cConv_link (by assumption) _ _ (by assumption))
  | exact MLink.lift (convTo_link (by assumption) _ _ (linkedInt .i32 _))
  | exact MLink.lift (cConv_link (by assumption) _ _ (linkedInt _ _))
  | exact MLink.lift (cArith_link (by assumption) _ _ _ (by assumption) (by assumption))
  | refine forEach_link _ fun _ => ?_
  | refine MLink.ite (fun _ => ?_) fun _ => ?_
  | refine MLink.bindEq ?_ fun _ => ?_
  | eapply MLink.bindVal
  | intro _ _ _)

/-- Proves that two computations are linked by going through them step by step. -/
macro "link" : tactic => `(tactic| repeat' link_step)

section
variable {F G : Type} [FOps F] [FOps G] {R : DType → F → G → Prop}

theorem zipLoop_link (P : Preserved R) (D S L R' : DType) (range : List Nat) {f : Val F → Val F → Res (Val F)}
    {f' : Val G → Val G → Res (Val G)}
    (hf : ∀ x x' y y', LinkedVal R L x x' → LinkedVal R R' y y' → ResLink (LinkedVal R S) (f x y) (f' x' y')) (dst l r : Impl) :
    MLink R Eq (zipLoop D S L R' range f dst l r) (zipLoop D S L R' range f' dst l r) := by
  unfold zipLoop
  refine forEach_link _ fun sv => ?_
  refine (MLink.liftSame _).bindEq fun p => (load_link _ _ _).bind fun x x' hx => ?_
  refine (MLink.liftSame _).bindEq fun q => (load_link _ _ _).bind fun y y' hy => ?_
  refine (MLink.lift (hf _ _ _ _ hx hy)).bind fun z z' hz => ?_
  link

theorem tensorAdd_link (P : Preserved R) (L R' : DType) (dst l r : Impl) :
    MLink R Eq (tensorAdd L R' dst l r) (tensorAdd L R' dst l r) := by
  unfold tensorAdd
  exact (MLink.liftSame _).bindEq fun rg => zipLoop_link P _ _ _ _ _ (fun _ _ _ _ hx hy => cArith_link P _ _ _ hx hy) _ _ _

theorem tensorSub_link (P : Preserved R) (L R' : DType) (dst l r : Impl) :
    MLink R Eq (tensorSub L R' dst l r) (tensorSub L R' dst l r) := by
  unfold tensorSub
  exact (MLink.liftSame _).bindEq fun rg => zipLoop_link P _ _ _ _ _ (fun _ _ _ _ hx hy => cArith_link P _ _ _ hx hy) _ _ _

theorem tensorMul_link (P : Preserved R) (L R' : DType) (dst l r : Impl) :
    MLink R Eq (tensorMul L R' dst l r) (tensorMul L R' dst l r) :=
  zipLoop_link P _ _ _ _ _ (fun _ _ _ _ hx hy => cArith_link P _ _ _ hx hy) _ _ _

theorem tensorDiv_link (P : Preserved R) (L R' : DType) (dst l r : Impl) :
    MLink R Eq (tensorDiv L R' dst l r) (tensorDiv L R' dst l r) :=
  zipLoop_link P _ _ _ _ _ (fun _ _ _ _ hx hy => cArith_link P _ _ _ hx hy) _ _ _

theorem tensorCmp_link (P : Preserved R) (C : ComparedAlike R) (op : COp) (L R' : DType) (dst l r : Impl) :
    MLink R Eq (tensorCmp op L R' dst l r) (tensorCmp op L R' dst l r) :=
  zipLoop_link P _ _ _ _ _ (fun _ _ _ _ hx hy => (cCmp_link P C _ _ _ hx hy).bind fun b _ e => e ▸ rfl) _ _ _

theorem tensorFill_link (P : Preserved R) (T N : DType) (t n : Impl) :
    MLink R Eq (tensorFill T N t n) (tensorFill T N t n) := by
  unfold tensorFill
  link

theorem eyeGo_link (P : Preserved R) (T : DType) (t : Impl) : ∀ l : List Nat, MLink R Eq (eyeGo T t l) (eyeGo T t l)
  | [] => MLink.pure rfl
  | _ :: l => by
    have := eyeGo_link P T t l
    unfold eyeGo
    link

theorem tensorEye_link (P : Preserved R) (T : DType) (t : Impl) : MLink R Eq (tensorEye T t) (tensorEye T t) := by
  unfold tensorEye
  split
  · exact eyeGo_link P _ _ _
  · exact MLink.raise _

theorem copyLoop_link (P : Preserved R) (A B : DType) (dst frm : Impl) :
    MLink R Eq (copyLoop A B dst frm) (copyLoop A B dst frm) := by
  unfold copyLoop
  link

theorem accInto_link (P : Preserved R) (A B : DType) (dst frm : Impl) (sv : List Nat) :
    MLink R Eq (accInto A B dst frm sv) (accInto A B dst frm sv) := by
  unfold accInto
  link

theorem sumBody_link (P : Preserved R) (A B : DType) (dst frm : Impl) :
    MLink R Eq (sumBody A B dst frm) (sumBody A B dst frm) := by
  unfold sumBody
  refine MLink.ite (fun _ => odo_link _ (fun sv => accInto_link P A B dst frm sv) _ _) fun _ => ?_
  link

theorem tensorSum_link (P : Preserved R) (A B : DType) (dst frm : Impl) :
    MLink R Eq (tensorSum A B dst frm) (tensorSum A B dst frm) :=
  MLink.ite (fun _ => MLink.pure rfl) fun _ => sumBody_link P A B dst frm

theorem tensorMean_link (P : Preserved R) (A B : DType) (dst frm : Impl) :
    MLink R Eq (tensorMean A B dst frm) (tensorMean A B dst frm) := by
  have := sumBody_link P A B dst frm
  unfold tensorMean
  link

theorem tensorMulAccF_link (P : Preserved R) (D L R' : DType) (dst l r : Impl) :
    MLink R Eq (tensorMulAccF D L R' dst l r) (tensorMulAccF D L R' dst l r) := by
  unfold tensorMulAccF
  link

theorem absVal_link (P : Preserved R) (C : ComparedAlike R) (A B : DType) {v : Val F} {v' : Val G} (hv : LinkedVal R B v v') :
    ResLink (LinkedVal R A) (absVal A B v) (absVal A B v') := by
  unfold absVal
  refine (cCmp_link P C _ _ _ hv (linkedInt _ _)).bind fun b _ e => e ▸ ?_
  exact ResLink.ite (fun _ => (cConv_link P _ _ hv).bind fun z z' hz => cConv_link P _ _ hz)
    fun _ => (cNeg_link P _ hv).bind fun z z' hz => cConv_link P _ _ hz

theorem absValGrad_link (P : Preserved R) (C : ComparedAlike R) (A B : DType) {v : Val F} {v' : Val G} (hv : LinkedVal R B v v') :
    ResLink (LinkedVal R A) (absValGrad A B v) (absValGrad A B v') := by
  unfold absValGrad
  refine (cCmp_link P C _ _ _ hv (linkedInt _ _)).bind fun b _ e => e ▸ ?_
  exact ResLink.ite (fun _ => cConv_link P _ _ hv) fun _ => (cNeg_link P _ hv).bind fun z z' hz => cConv_link P _ _ hz

theorem signVal_link (P : Preserved R) (C : ComparedAlike R) (B : DType) {v : Val F} {v' : Val G} (hv : LinkedVal R B v v') :
    ResLink (LinkedVal R B) (signVal B v) (signVal B v') := by
  unfold signVal
  exact (cCmp_link P C _ _ _ hv (linkedInt _ _)).bind fun b _ e => e ▸ cConv_link P _ _ (linkedInt _ _)

theorem tensorAbs_link (P : Preserved R) (C : ComparedAlike R) (A B : DType) (dst frm : Impl) (g : Option Impl) :
    MLink R Eq (tensorAbs A B dst frm g) (tensorAbs A B dst frm g) := by
  unfold tensorAbs
  cases g with
  | none =>
    refine forEach_link _ fun sv => (MLink.liftSame _).bindEq fun p => (load_link _ _ _).bind fun x x' hx => ?_
    refine (MLink.lift (absVal_link P C A B hx)).bind fun z z' hz => ?_
    link
  | some g =>
    refine forEach_link _ fun sv => (MLink.liftSame _).bindEq fun p => (load_link _ _ _).bind fun x x' hx => ?_
    refine (MLink.lift (signVal_link P C B hx)).bind fun s s' hs => ?_
    refine (MLink.liftSame _).bindEq fun q => (store_link _ _ _ hs).bindEq fun _ => ?_
    refine (MLink.lift (absValGrad_link P C A B hx)).bind fun z z' hz => ?_
    link

theorem tensorDivBackNum_link (P : Preserved R) (D L R' : DType) (dst l r : Impl) :
    MLink R Eq (tensorDivBackNum D L R' dst l r) (tensorDivBackNum D L R' dst l r) := by
  unfold tensorDivBackNum
  link

theorem tensorDivBackDen_link (P : Preserved R) (D Q : DType) (dst g q d : Impl) :
    MLink R Eq (tensorDivBackDen D Q dst g q d) (tensorDivBackDen D Q dst g q d) := by
  unfold tensorDivBackDen
  link

theorem tensorCat_link (P : Preserved R) (A B : DType) (dst frm : Impl) (o : Nat) :
    MLink R Eq (tensorCat A B dst frm o) (tensorCat A B dst frm o) := by
  unfold tensorCat
  link

/-! ### Maximum and minimum -/

/-- The loop of the maximum with its extra state. -/
theorem odoState_link (range : List Nat) {op : List Nat → StateT (List Nat) (M F) Unit}
    {op' : List Nat → StateT (List Nat) (M G) Unit} (hop : ∀ sv b, MLink R Eq ((op sv).run b) ((op' sv).run b)) : ∀ n sv b,
    MLink R Eq ((odo (StateT.lift (M.undef .fuel)) range op n sv).run b)
      ((odo (StateT.lift (M.undef .fuel)) range op' n sv).run b) := by
  intro n
  induction n with
  | zero =>
    intro sv b h h' _
    exact OutLink.ub _ .fuel
  | succ n ih =>
    intro sv b
    unfold odo
    cases carry range (range.length - 1) sv with
    | none => exact MLink.pure rfl
    | some sv' => exact (hop sv' b).bindEq fun p => ih _ _

omit [FOps F] [FOps G] in
theorem stateBind_link {α β γ : Type} {Q : α → β → Prop} {m : M F α} {m' : M G β} {f : α → StateT (List Nat) (M F) γ}
    {f' : β → StateT (List Nat) (M G) γ} (b : List Nat) (hm : MLink R Q m m')
    (hf : ∀ x x', Q x x' → MLink R Eq ((f x).run b) ((f' x').run b)) :
    MLink R Eq ((StateT.lift m >>= f).run b) ((StateT.lift m' >>= f').run b) := by
  refine MLink.bind (x := m >>= fun a => pure (a, b)) (y := m' >>= fun a => pure (a, b))
    (f := fun p => (f p.1).run p.2) (g := fun p => (f' p.1).run p.2)
    (Q := fun (p : α × List Nat) (p' : β × List Nat) => Q p.1 p'.1 ∧ p.2 = b ∧ p'.2 = b)
    (hm.bind fun x x' h => MLink.pure ⟨h, rfl, rfl⟩) ?_
  rintro ⟨x, _⟩ ⟨x', _⟩ ⟨h, rfl, rfl⟩
  exact hf x x' h

theorem tensorExtreme_link (P : Preserved R) (C : ComparedAlike R) (keep : COp) (T : DType) (dst frm : Impl) (g : Option Impl) :
    MLink R Eq (tensorExtreme keep T dst frm g) (tensorExtreme keep T dst frm g) := by
  unfold tensorExtreme
  refine (load_link _ _ _).bind fun x x' hx => (store_link _ _ _ hx).bindEq fun _ => ?_
  refine MLink.bindEq ?_ fun b => ?_
  · unfold forEachWith
    generalize hop : (fun sv : List Nat => (do
          let t ← (do load T frm (← M.lift (cntFromIndex frm.view sv)) : M F (Val F))
          let cur ← (load T dst 0 : M F (Val F))
          let k ← (M.lift (cCmp keep T T cur t) : M F Bool)
          if k then pure ()
          else do
            (store T dst 0 t : M F Unit)
            set sv : StateT (List Nat) (M F) Unit)) = op
    generalize hop' : (fun sv : List Nat => (do
          let t ← (do load T frm (← M.lift (cntFromIndex frm.view sv)) : M G (Val G))
          let cur ← (load T dst 0 : M G (Val G))
          let k ← (M.lift (cCmp keep T T cur t) : M G Bool)
          if k then pure ()
          else do
            (store T dst 0 t : M G Unit)
            set sv : StateT (List Nat) (M G) Unit)) = op'
    have key : ∀ sv b, MLink R Eq ((op sv).run b) ((op' sv).run b) := by
      subst hop hop'
      intro sv b
      refine stateBind_link b (Q := LinkedVal R T) ((MLink.liftSame _).bindEq fun p => load_link _ _ _) fun t t' ht => ?_
      refine stateBind_link b (load_link _ _ _) fun c c' hc => ?_
      refine stateBind_link b (MLink.lift (cCmp_link P C _ _ _ hc ht)) fun k _ e => ?_
      subst e
      cases k
      · exact stateBind_link b (store_link _ _ _ ht) fun _ _ _ => MLink.pure rfl
      · exact MLink.pure rfl
    split
    · exact MLink.pure rfl
    · split
      · exact odoState_link _ key _ _ _
      · exact key _ _
  · cases g with
    | none => exact MLink.pure rfl
    | some g =>
      show MLink R Eq (do
        let one ← M.lift (cConv .i32 T (.i 1 : Val F))
        store T g (← M.lift (cntFromIndex g.view b.2)) one) (do
        let one ← M.lift (cConv .i32 T (.i 1 : Val G))
        store T g (← M.lift (cntFromIndex g.view b.2)) one)
      link

end
end INNC
