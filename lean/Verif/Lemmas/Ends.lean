import Verif.Lemmas.GraphOrder
import Verif.Lemmas.GraphKeep
import Verif.Lemmas.Frame
/-
Every loop of the library ends: the fuel of the model never runs out.
-/
namespace INNC
open Spec Tensor
variable {F : Type}

/-- The computation ends. -/
def REnds {α : Type} (r : Res α) : Prop := r ≠ .ub .fuel
def Ends {α : Type} (x : M F α) : Prop := ∀ h, x h ≠ .ub .fuel

section
variable {α β : Type}
theorem rends_ok (a : α) : REnds (.ok a) := by intro h; cases h
theorem rends_pure (a : α) : REnds (pure a : Res α) := rends_ok a
theorem rends_throw (e : Exc) : REnds (.throw e : Res α) := by intro h; cases h
theorem rends_bind {x : Res α} {f : α → Res β} (hx : REnds x) (hf : ∀ a, REnds (f a)) : REnds (x >>= f) := by
  cases x with
  | ok a => exact hf a
  | throw e => exact rends_throw e
  | ub u =>
    intro h
    apply hx
    have h : (Res.ub u : Res β) = .ub .fuel := h
    cases h; rfl
theorem rends_ite {c : Prop} [Decidable c] {x y : Res α} (hx : REnds x) (hy : REnds y) : REnds (if c then x else y) := by
  split
  · exact hx
  · exact hy
theorem rends_ub {u : UB} (hu : u ≠ .fuel) : REnds (.ub u : Res α) := by intro h; cases h; exact hu rfl
theorem rends_expect (b : Bool) : REnds (runExpect b) := by
  unfold runExpect; split
  · exact rends_ok _
  · exact rends_throw _
theorem rends_vecAt (v : List α) (i : Nat) : REnds (vecAt v i) := by
  unfold vecAt; split <;> intro h <;> cases h

theorem ends_pure (a : α) : Ends (pure a : M F α) := fun h e => by cases e
theorem ends_raise (e : Exc) : Ends (M.raise e : M F α) := fun h e => by cases e
theorem ends_undef {u : UB} (hu : u ≠ .fuel) : Ends (M.undef u : M F α) := fun h e => by cases e; exact hu rfl
theorem ends_lift {r : Res α} (hr : REnds r) : Ends (M.lift r : M F α) := fun h e => by
  unfold M.lift at e
  split at e <;> cases e
  exact hr rfl
theorem ends_expect (b : Bool) : Ends (expect b : M F Unit) := by
  unfold expect; split
  · exact ends_pure _
  · exact ends_raise _
theorem ends_bind {x : M F α} {f : α → M F β} (hx : Ends x) (hf : ∀ a, Ends (f a)) : Ends (x >>= f) := by
  intro h
  rw [M.bind_def]
  have h1 := hx h
  cases hxh : x h with
  | ok a h' => exact hf a h'
  | throw e h' => simp
  | ub u => rw [hxh] at h1; simp only; intro h; cases h; exact h1 rfl
end

theorem ends_getT (t : Nat) : Ends (F := F) (getT t) := fun h e => by unfold getT at e; split at e <;> cases e
theorem ends_getS (t : Nat) : Ends (F := F) (getS t) := fun h e => by unfold getS at e; split at e <;> cases e
theorem ends_setT (t : Nat) (i : Impl) : Ends (F := F) (setT t i) := fun h e => by cases e
theorem ends_setS (t : Nat) (i : Storage F) : Ends (F := F) (setS t i) := fun h e => by cases e
theorem ends_newS (s : Storage F) : Ends (newS s) := fun h e => by cases e
theorem ends_createOn (dt : DType) (v : Layout) (d : Nat) : Ends (F := F) (createOn dt v d) := fun h e => by cases e

/-- Pure results. -/
macro "rends" : tactic => `(tactic| repeat' first
  | exact rends_ok _
  | exact rends_pure _
  | exact rends_throw _
  | (refine rends_ub ?_; simp; done)
  | exact rends_expect _
  | exact rends_vecAt _ _
  | assumption
  | (refine rends_bind ?_ fun _ => ?_)
  | (refine rends_ite ?_ ?_)
  | dsimp only
  | split)

theorem rends_cntGo : ∀ (a : List Int) (b : List Nat) (p : Nat), REnds (cntGo a b p)
  | _, [], _ => by unfold cntGo; exact rends_ok _
  | [], _ :: _, _ => by intro h; cases h
  | _ :: sts, _ :: is, _ => rends_cntGo sts is _
theorem rends_cntFromIndex (v : Layout) (i : List Nat) : REnds (cntFromIndex v i) :=
  rends_bind (rends_expect _) fun _ => rends_cntGo _ _ _
theorem rends_augRev : ∀ (a b : List Nat), REnds (augRev a b)
  | [], _ => rends_ok _
  | s :: ss, is => by
    unfold augRev
    split
    · cases is with
      | nil => intro h; cases h
      | cons i is => exact rends_bind (rends_expect _) fun _ => rends_bind (rends_augRev ss is) fun _ => rends_pure _
    · exact rends_bind (rends_augRev ss _) fun _ => rends_pure _
theorem rends_cntFromAugIndex (v : Layout) (i : List Nat) : REnds (cntFromAugIndex v i) :=
  rends_bind (rends_augRev _ _) fun _ => rends_cntFromIndex _ _
theorem rends_bcastRev : ∀ (a b : List Nat), REnds (bcastRev a b)
  | [], _ => rends_ok _
  | su :: us, [] => rends_bind (rends_bcastRev us []) fun _ => rends_pure _
  | su :: us, sv :: vs => rends_bind (rends_expect _) fun _ => rends_bind (rends_bcastRev us vs) fun _ => rends_pure _
theorem rends_broadcastRange (a b : List Nat) : REnds (broadcastRange a b) := by
  unfold broadcastRange
  exact rends_bind (rends_bcastRev _ _) fun _ => rends_pure _
theorem rends_stoll (s : Str) : REnds (stoll s) := by unfold stoll; rends
theorem rends_sMul (a b : Int) : REnds (sMul a b) := by unfold sMul; rends
theorem rends_sSub (a b : Int) : REnds (sSub a b) := by unfold sSub; rends
theorem rends_sAbs (a : Int) : REnds (sAbs a) := by unfold sAbs; rends
theorem rends_sliceStep (p : Str) : REnds (sliceStep p) := by
  unfold sliceStep
  split
  · exact rends_bind (rends_stoll _) fun _ => rends_bind (rends_expect _) fun _ => rends_pure _
  · exact rends_pure _
theorem rends_sliceBeg (p : Str) (s : Int) (n : Nat) : REnds (sliceBeg p s n) := by
  have := rends_stoll p
  unfold sliceBeg; rends
theorem rends_sliceEnd (p : Str) (s : Int) (n : Nat) : REnds (sliceEnd p s n) := by
  have := rends_stoll p
  unfold sliceEnd; rends
theorem rends_sliceRange (p0 p1 p2 : Str) (n : Nat) (st : Int) : REnds (sliceRange p0 p1 p2 n st) := by
  unfold sliceRange
  split
  · exact rends_pure _
  refine rends_bind (rends_sliceStep _) fun _ => rends_bind (rends_sliceBeg _ _ _) fun _ => ?_
  split
  · exact rends_pure _
  refine rends_bind (rends_sliceEnd _ _ _) fun _ => ?_
  split
  · exact rends_pure _
  split
  · exact rends_pure _
  exact rends_bind (rends_sSub _ _) fun _ => rends_bind (rends_sAbs _) fun _ => rends_bind (rends_sAbs _) fun _ =>
    rends_bind (rends_sMul _ _) fun _ => rends_bind (rends_sMul _ _) fun _ => rends_pure _
theorem rends_sliceIndex (p : Str) (n : Nat) (st : Int) : REnds (sliceIndex p n st) := by
  unfold sliceIndex
  exact rends_bind (rends_stoll _) fun _ => rends_bind (rends_expect _) fun _ => rends_sMul _ _
theorem rends_sliceGo : ∀ (e : List Str) (ns : List Nat) (sts : List Int) (o : Nat), REnds (sliceGo e ns sts o)
  | _, [], _, _ => by unfold sliceGo; exact rends_ok _
  | _, _ :: _, [], _ => by unfold sliceGo; intro h; cases h
  | e, n :: ns, st :: sts, o => by
    unfold sliceGo
    dsimp only
    split
    · exact rends_bind (rends_sliceIndex _ _ _) fun _ => rends_sliceGo _ ns sts _
    · exact rends_bind (rends_sliceRange _ _ _ _ _) fun _ => rends_bind (rends_sliceGo _ ns sts _) fun _ => rends_pure _
theorem rends_sliceLayout (v : Layout) (s : Str) : REnds (sliceLayout v s) := by
  unfold sliceLayout
  exact rends_bind (rends_expect _) fun _ => rends_bind (rends_sliceGo _ _ _ _) fun _ => rends_pure _
theorem rends_transposeLayout (v : Layout) (a b : Nat) : REnds (transposeLayout v a b) := by
  unfold transposeLayout; rends
theorem rends_findMinusOne : ∀ (l : List Int) (i : Nat) (f : Option Nat), REnds (findMinusOne l i f)
  | [], _, _ => rends_ok _
  | z :: zs, i, f => by
    unfold findMinusOne
    split
    · exact rends_bind (rends_expect _) fun _ => rends_findMinusOne zs _ _
    · exact rends_findMinusOne zs _ _
theorem rends_regularizeSize (l : List Int) (n : Nat) : REnds (regularizeSize l n) := by
  unfold regularizeSize
  split
  · exact rends_bind (rends_expect _) fun _ => rends_pure _
  · refine rends_bind (rends_findMinusOne _ _ _) fun m => ?_
    split
    · dsimp only
      split
      · intro h; cases h
      · exact rends_bind (rends_expect _) fun _ => rends_pure _
    · exact rends_pure _
theorem rends_isometry : ∀ (a : List Nat) (b : List Int), REnds (isometry a b)
  | [], _ => by unfold isometry; exact rends_pure _
  | [_], _ => by unfold isometry; exact rends_pure _
  | _ :: _ :: _, [] => by unfold isometry; exact rends_pure _
  | _ :: _ :: _, [_] => by unfold isometry; exact rends_pure _
  | _ :: s :: ss, st0 :: st1 :: sts => by
    unfold isometry
    exact rends_bind (rends_sMul _ _) fun _ => rends_bind (rends_isometry (s :: ss) (st1 :: sts)) fun _ => rends_pure _
theorem rends_sameSpec (a b : TInit F) : REnds (sameSpec a b) := by unfold sameSpec; rends
theorem rends_allSame (a : TInit F) : ∀ l, REnds (allSame a l)
  | [] => rends_ok _
  | x :: xs => by
    unfold allSame
    refine rends_bind (rends_sameSpec _ _) fun b => ?_
    split
    · exact rends_allSame a xs
    · exact rends_pure _
theorem rends_initNode (l : List (TInit F)) : REnds (initNode l) := by
  unfold initNode
  split
  · exact rends_ok _
  · refine rends_bind (rends_allSame _ _) fun b => ?_
    split
    · exact rends_ok _
    · exact rends_throw _
mutual
theorem rends_initEval : ∀ (t : InitTree F), REnds (initEval t)
  | .leaf _ _ => by unfold initEval; exact rends_ok _
  | .node args => by unfold initEval; exact rends_bind (rends_evalList args) fun _ => rends_initNode _
theorem rends_evalList : ∀ (l : List (InitTree F)), REnds (initEval.evalList l)
  | [] => by unfold initEval.evalList; exact rends_ok _
  | x :: xs => by
    unfold initEval.evalList
    exact rends_bind (rends_initEval x) fun _ => rends_bind (rends_evalList xs) fun _ => rends_pure _
end

section
variable [FOps F]
theorem rends_convTo (t : DType) (v : Val F) : REnds (convTo t v) := by unfold convTo; rends
theorem rends_cConv (s t : DType) (v : Val F) : REnds (cConv s t v) := by
  unfold cConv; split
  · exact rends_ok _
  · exact rends_convTo _ _
omit [FOps F] in
theorem rends_iArith (op : AOp) (t : DType) (a b : Int) : REnds (iArith op t a b) := by unfold iArith; rends
theorem rends_cArith (op : AOp) (l r : DType) (x y : Val F) : REnds (cArith op l r x y) := by
  unfold cArith
  refine rends_bind (rends_cConv _ _ _) fun x => rends_bind (rends_cConv _ _ _) fun y => ?_
  split
  · exact rends_bind (rends_iArith _ _ _ _) fun _ => rends_pure _
  · exact rends_pure _
  · intro h; cases h
theorem rends_cCmp (op : COp) (l r : DType) (x y : Val F) : REnds (cCmp op l r x y) := by
  unfold cCmp
  refine rends_bind (rends_cConv _ _ _) fun x => rends_bind (rends_cConv _ _ _) fun y => ?_
  rends
theorem rends_cNeg (t : DType) (v : Val F) : REnds (cNeg t v) := by unfold cNeg; rends
theorem rends_cmpVal (op : COp) (l r : DType) (x y : Val F) : REnds (cmpVal op l r x y) := by
  unfold cmpVal; exact rends_bind (rends_cCmp _ _ _ _ _) fun _ => rends_pure _
theorem rends_absVal (t f : DType) (v : Val F) : REnds (absVal t f v) := by
  unfold absVal
  refine rends_bind (rends_cCmp _ _ _ _ _) fun _ => ?_
  dsimp only
  split
  · exact rends_bind (rends_cConv _ _ _) fun _ => rends_cConv _ _ _
  · exact rends_bind (rends_cNeg _ _) fun _ => rends_cConv _ _ _
theorem rends_absValGrad (t f : DType) (v : Val F) : REnds (absValGrad t f v) := by
  unfold absValGrad
  refine rends_bind (rends_cCmp _ _ _ _ _) fun _ => ?_
  split
  · exact rends_cConv _ _ _
  · exact rends_bind (rends_cNeg _ _) fun _ => rends_cConv _ _ _
theorem rends_signVal (f : DType) (v : Val F) : REnds (signVal f v) := by
  unfold signVal; exact rends_bind (rends_cCmp _ _ _ _ _) fun _ => rends_cConv _ _ _
end

/-! ### Kernels -/

theorem ends_load (ty : DType) (t : Impl) (p : Nat) : Ends (F := F) (load ty t p) := by
  unfold load
  refine ends_bind (ends_getS _) fun s => ?_
  repeat' first | exact ends_pure _ | (refine ends_undef ?_; simp; done) | split
theorem ends_store (ty : DType) (t : Impl) (p : Nat) (v : Val F) : Ends (store ty t p v) := by
  unfold store
  refine ends_bind (ends_getS _) fun s => ?_
  repeat' first | exact ends_setS _ _ | (refine ends_undef ?_; simp; done) | split
theorem ends_runAll {α : Type} {op : α → M F Unit} (hop : ∀ x, Ends (op x)) : ∀ l, Ends (runAll op l)
  | [] => ends_pure _
  | x :: l => ends_bind (hop x) fun _ => ends_runAll hop l
theorem ends_forEach {range : List Nat} {op : List Nat → M F Unit} (hop : ∀ sv, Ends (op sv)) : Ends (forEach range op) := by
  unfold forEach
  rw [forEachWith_eq]
  exact ends_runAll hop _

/-- Heap computations without recursion. -/
macro "ends" : tactic => `(tactic| repeat' first
  | exact ends_pure _
  | exact ends_raise _
  | (refine ends_undef ?_; simp; done)
  | exact ends_expect _
  | exact ends_getT _
  | exact ends_getS _
  | exact ends_setT _ _
  | exact ends_setS _ _
  | exact ends_createOn _ _ _
  | exact ends_load _ _ _
  | exact ends_store _ _ _ _
  | exact ends_lift (rends_cntFromIndex _ _)
  | exact ends_lift (rends_cntFromAugIndex _ _)
  | exact ends_lift (rends_broadcastRange _ _)
  | exact ends_lift (rends_vecAt _ _)
  | exact ends_lift (rends_cConv _ _ _)
  | exact ends_lift (rends_convTo _ _)
  | exact ends_lift (rends_cArith _ _ _ _ _)
  | exact ends_lift (rends_cCmp _ _ _ _ _)
  | exact ends_lift (rends_absVal _ _ _)
  | exact ends_lift (rends_absValGrad _ _ _)
  | exact ends_lift (rends_signVal _ _)
  | (refine ends_forEach fun _ => ?_)
  | (refine ends_bind ?_ fun _ => ?_)
  | assumption
  | split)

section
variable [FOps F]
theorem ends_zipLoop (D S L R : DType) (rg : List Nat) {f : Val F → Val F → Res (Val F)} (hf : ∀ x y, REnds (f x y)) (d l r : Impl) :
    Ends (zipLoop D S L R rg f d l r) := by
  unfold zipLoop
  refine ends_forEach fun sv => ?_
  refine ends_bind (ends_lift (rends_cntFromAugIndex _ _)) fun _ => ends_bind (ends_load _ _ _) fun _ =>
    ends_bind (ends_lift (rends_cntFromAugIndex _ _)) fun _ => ends_bind (ends_load _ _ _) fun _ =>
    ends_bind (ends_lift (hf _ _)) fun _ => ?_
  ends
theorem ends_tensorAdd (L R : DType) (d l r : Impl) : Ends (F := F) (tensorAdd L R d l r) := by
  unfold tensorAdd
  exact ends_bind (ends_lift (rends_broadcastRange _ _)) fun _ => ends_zipLoop _ _ _ _ _ (rends_cArith _ _ _) _ _ _
theorem ends_tensorSub (L R : DType) (d l r : Impl) : Ends (F := F) (tensorSub L R d l r) := by
  unfold tensorSub
  exact ends_bind (ends_lift (rends_broadcastRange _ _)) fun _ => ends_zipLoop _ _ _ _ _ (rends_cArith _ _ _) _ _ _
theorem ends_tensorMul (L R : DType) (d l r : Impl) : Ends (F := F) (tensorMul L R d l r) :=
  ends_zipLoop _ _ _ _ _ (rends_cArith _ _ _) _ _ _
theorem ends_tensorDiv (L R : DType) (d l r : Impl) : Ends (F := F) (tensorDiv L R d l r) :=
  ends_zipLoop _ _ _ _ _ (rends_cArith _ _ _) _ _ _
theorem ends_tensorCmp (op : COp) (L R : DType) (d l r : Impl) : Ends (F := F) (tensorCmp op L R d l r) :=
  ends_zipLoop _ _ _ _ _ (rends_cmpVal _ _ _) _ _ _
theorem ends_tensorFill (T N : DType) (d n : Impl) : Ends (F := F) (tensorFill T N d n) := by unfold tensorFill; ends
theorem ends_eyeGo (T : DType) (d : Impl) : ∀ l, Ends (F := F) (eyeGo T d l)
  | [] => ends_pure _
  | i :: is => by
    have := ends_eyeGo T d is
    unfold eyeGo; ends
theorem ends_tensorEye (T : DType) (d : Impl) : Ends (F := F) (tensorEye T d) := by
  unfold tensorEye
  split
  · exact ends_eyeGo _ _ _
  · exact ends_raise _
theorem ends_copyLoop (T S : DType) (d l : Impl) : Ends (F := F) (copyLoop T S d l) := by unfold copyLoop; ends
theorem ends_accInto (T S : DType) (d l : Impl) (sv : List Nat) : Ends (F := F) (accInto T S d l sv) := by unfold accInto; ends

theorem ends_sumBody (T S : DType) (d l : Impl) (h0 : 0 ∉ l.view.sizes) : Ends (F := F) (sumBody T S d l) := by
  unfold sumBody
  split
  · rename_i hne
    rw [odo_rowMajor _ _ _ (by simpa using hne) h0]
    exact ends_runAll (ends_accInto T S d l) _
  · ends
omit [FOps F] in
theorem numel_zero_mem {s : List Nat} (h : 0 ∈ s) : numel s = 0 := by
  unfold numel
  have : ∀ (l : List Nat) (a : Nat), (a = 0 ∨ 0 ∈ l) → l.foldl (fun (num s : Nat) => wrapU (num * s)) a = 0 := by
    intro l
    induction l with
    | nil => intro a ha; simpa using ha
    | cons x l ih =>
      intro a ha
      rw [List.foldl_cons]
      apply ih
      rcases ha with rfl | ha
      · left; simp [wrapU]
      · rcases List.mem_cons.1 ha with rfl | ha
        · left; simp [wrapU]
        · exact .inr ha
  exact this s 1 (.inr h)
theorem ends_tensorSum (T S : DType) (d l : Impl) : Ends (F := F) (tensorSum T S d l) := by
  unfold tensorSum
  split
  · exact ends_pure _
  · rename_i hn
    exact ends_sumBody _ _ _ _ fun hc => hn (numel_zero_mem hc)
theorem ends_tensorMean (T S : DType) (d l : Impl) : Ends (F := F) (tensorMean T S d l) := by
  unfold tensorMean
  split
  · exact ends_pure _
  · rename_i hn
    refine ends_bind (ends_lift (rends_convTo _ _)) fun _ => ends_bind (ends_sumBody _ _ _ _ fun hc => hn (numel_zero_mem hc)) fun _ => ?_
    ends
theorem ends_tensorMulAccF (T L R : DType) (d l r : Impl) : Ends (F := F) (tensorMulAccF T L R d l r) := by
  unfold tensorMulAccF; ends
theorem ends_tensorAbs (T S : DType) (d l : Impl) (g : Option Impl) : Ends (F := F) (tensorAbs T S d l g) := by
  unfold tensorAbs
  cases g with
  | none => dsimp only; ends
  | some g => dsimp only; ends
theorem ends_tensorCat (T S : DType) (d l : Impl) (o : Nat) : Ends (F := F) (tensorCat T S d l o) := by
  unfold tensorCat; ends
theorem ends_tensorDivBackNum (T L R : DType) (d l r : Impl) : Ends (F := F) (tensorDivBackNum T L R d l r) := by
  unfold tensorDivBackNum; ends
theorem ends_tensorDivBackDen (T L : DType) (d l r s : Impl) : Ends (F := F) (tensorDivBackDen T L d l r s) := by
  unfold tensorDivBackDen; ends
theorem ends_runAllS {σ : Type} {op : List Nat → StateT σ (M F) Unit}
    (hop : ∀ sv s, Ends ((op sv).run s)) : ∀ (l : List (List Nat)) (s : σ), Ends ((runAll op l).run s)
  | [], s => ends_pure _
  | x :: l, s => by
    show Ends ((op x >>= fun _ => runAll op l).run s)
    rw [StateT.run_bind]
    exact ends_bind (hop x s) fun a => ends_runAllS hop l a.2
theorem ends_tensorExtreme (k : COp) (T : DType) (d l : Impl) (g : Option Impl) : Ends (F := F) (tensorExtreme k T d l g) := by
  unfold tensorExtreme
  refine ends_bind (ends_load _ _ _) fun _ => ends_bind (ends_store _ _ _ _) fun _ => ?_
  refine ends_bind ?_ fun a => ?_
  · rw [forEachWith_eq]
    refine ends_runAllS (fun sv s => ?_) _ _
    simp only [StateT.run_bind, StateT.run_monadLift, bind_assoc]
    refine ends_bind (ends_bind (ends_lift (rends_cntFromIndex _ _)) fun _ => ends_load _ _ _) fun t => ?_
    try simp only [pure_bind]
    refine ends_bind (ends_load _ _ _) fun cur => ?_
    try simp only [pure_bind]
    refine ends_bind (ends_lift (rends_cCmp _ _ _ _ _)) fun k => ?_
    try simp only [pure_bind]
    cases k
    · simp only [Bool.false_eq_true, if_false, StateT.run_bind, StateT.run_monadLift, bind_assoc]
      exact ends_bind (ends_store _ _ _ _) fun _ => ends_pure _
    · exact ends_pure _
  · cases g with
    | none => exact ends_pure _
    | some i => ends

/-! ### Members -/

omit [FOps F] in
theorem ends_create (dt : DType) (v : Layout) (b : Bool) : Ends (F := F) (create dt v b) := by
  unfold create
  refine ends_bind ?_ fun _ => ends_createOn _ _ _
  unfold mkStorage
  split
  · split
    · exact ends_newS _
    · exact ends_raise _
  · exact ends_newS _
omit [FOps F] in
theorem ends_allocS (d : Nat) : Ends (F := F) (allocS d) := by unfold allocS; ends
theorem ends_zeroS (d : Nat) : Ends (F := F) (zeroS d) := by unfold zeroS; ends
theorem ends_createScalar (dt : DType) (v : Val F) : Ends (createScalar dt v) := by
  unfold createScalar
  exact ends_bind (ends_create _ _ _) fun _ => ends_bind (ends_getT _) fun _ => ends_bind (ends_store _ _ _ _) fun _ => ends_pure _
theorem ends_full (s : List Nat) (n : DType) (v : Val F) (dt : DType) : Ends (full s n v dt) := by
  have h1 := ends_create (F := F) dt (Layout.contig s) true
  unfold full
  refine ends_bind (ends_createScalar _ _) fun _ => ends_bind h1 fun _ => ends_bind (ends_getT _) fun _ => ends_bind (ends_getT _) fun _ =>
    ends_bind (ends_tensorFill _ _ _ _) fun _ => ends_pure _
theorem ends_ones (s : List Nat) (dt : DType) : Ends (F := F) (ones s dt) := ends_full s .i8 (.i 1) dt
theorem ends_zeros (s : List Nat) (dt : DType) : Ends (F := F) (zeros s dt) := by
  unfold zeros
  exact ends_bind (ends_create _ _ _) fun _ => ends_bind (ends_getT _) fun _ => ends_bind (ends_zeroS _) fun _ => ends_pure _
theorem ends_onesLike (t : Nat) : Ends (F := F) (onesLike t) := ends_bind (ends_getT _) fun _ => ends_ones _ _
theorem ends_zerosLike (t : Nat) : Ends (F := F) (zerosLike t) := ends_bind (ends_getT _) fun _ => ends_zeros _ _
theorem ends_eye (n m : Nat) (dt : DType) : Ends (F := F) (eye n m dt) := by
  unfold eye
  exact ends_bind (ends_create _ _ _) fun _ => ends_bind (ends_getT _) fun _ => ends_bind (ends_zeroS _) fun _ =>
    ends_bind (ends_tensorEye _ _) fun _ => ends_pure _
theorem ends_blobGo (dt : DType) (i : Impl) : ∀ (l : List (Val F)) (k : Nat), Ends (blobGo dt i k l)
  | [], _ => ends_pure _
  | v :: vs, k => by unfold blobGo; exact ends_bind (ends_store _ _ _ _) fun _ => ends_blobGo dt i vs _
theorem ends_fromBlob (data : List (Val F)) (s : List Nat) (dt : DType) : Ends (fromBlob data s dt) := by
  unfold fromBlob
  refine ends_bind (ends_create _ _ _) fun _ => ends_bind (ends_getT _) fun _ => ?_
  dsimp only
  split
  · exact ends_bind (ends_undef (by simp)) fun _ => ends_pure _
  · exact ends_bind (ends_blobGo _ _ _ _) fun _ => ends_pure _
theorem ends_randGo (i : Impl) (w size : Nat) : ∀ (l : List F) (k : Nat), Ends (randGo i w size k l)
  | [], _ => ends_pure _
  | x :: xs, k => by
    unfold randGo
    split
    · exact ends_undef (by simp)
    split
    · exact ends_randGo i w size xs _
    · exact ends_bind (ends_store _ _ _ _) fun _ => ends_randGo i w size xs _
theorem ends_randn (rnd : Nat → F) (s : List Nat) (dt : DType) : Ends (randn rnd s dt) := by
  unfold randn
  exact ends_bind (ends_expect _) fun _ => ends_bind (ends_create _ _ _) fun _ => ends_bind (ends_getT _) fun _ =>
    ends_bind (ends_getS _) fun _ => ends_bind (ends_randGo _ _ _ _ _) fun _ => ends_pure _
theorem ends_ofInit (tree : InitTree F) : Ends (ofInit tree) := by
  unfold ofInit
  refine ends_bind (ends_lift (rends_initEval _)) fun init => ?_
  unfold createImpl
  split
  · exact ends_pure _
  · cases init.dtype with
    | none => exact ends_undef (by simp)
    | some dt =>
      exact ends_bind (ends_create _ _ _) fun _ => ends_bind (ends_getT _) fun _ => ends_bind (ends_getS _) fun _ =>
        ends_bind (ends_setS _ _) fun _ => ends_pure _
omit [FOps F] in
theorem ends_shareGradStorage (a b : Nat) : Ends (F := F) (shareGradStorage a b) := by
  unfold shareGradStorage
  refine ends_bind (ends_getT _) fun f => ?_
  dsimp only
  have := fun dt v b => ends_create (F := F) dt v b
  split
  · ends
  · refine ends_bind (this _ _ _) fun _ => ?_
    ends
omit [FOps F] in
theorem ends_setGradFn (t : Nat) (k : BackKind) (l : List Nat) : Ends (F := F) (setGradFn t k l) := by unfold setGradFn; ends
omit [FOps F] in
theorem ends_makeView (dt : DType) (v : Layout) (d b : Nat) : Ends (F := F) (makeView dt v d b) := by
  unfold makeView
  refine ends_bind (ends_createOn _ _ _) fun _ => ends_bind (ends_getT _) fun _ => ?_
  split
  · exact ends_pure _
  · exact ends_bind (ends_setGradFn _ _ _) fun _ => ends_bind (ends_shareGradStorage _ _) fun _ => ends_pure _
omit [FOps F] in
theorem ends_slice (t : Nat) (s : Str) : Ends (F := F) (Tensor.slice t s) := by
  unfold Tensor.slice
  exact ends_bind (ends_getT _) fun _ => ends_bind (ends_lift (rends_sliceLayout _ _)) fun _ => ends_makeView _ _ _ _
omit [FOps F] in
theorem ends_transpose (t a b : Nat) : Ends (F := F) (Tensor.transpose t a b) := by
  unfold Tensor.transpose
  exact ends_bind (ends_getT _) fun _ => ends_bind (ends_lift (rends_transposeLayout _ _ _)) fun _ => ends_makeView _ _ _ _
theorem ends_clone (t : Nat) : Ends (F := F) (Tensor.clone t) := by
  unfold Tensor.clone
  refine ends_bind (ends_getT _) fun _ => ends_bind (ends_create _ _ _) fun _ => ends_bind (ends_getT _) fun _ =>
    ends_bind (ends_copyLoop _ _ _ _) fun _ => ?_
  split
  · exact ends_pure _
  · exact ends_bind (ends_setGradFn _ _ _) fun _ => ends_pure _
theorem ends_reshapeSizes (t : Nat) (s : List Nat) : Ends (F := F) (Tensor.reshapeSizes t s) := by
  unfold Tensor.reshapeSizes
  dsimp only
  refine ends_bind (ends_getT _) fun i => ends_bind (ends_expect _) fun _ => ?_
  have rest : Ends (F := F) (if i.view.sizes.length < i.view.strides.length then M.undef .vecOob
    else do
    let iso ← M.lift (isometry i.view.sizes i.view.strides)
    if iso then
      let strides ← if s.length ≠ 0 then do
          let last ← M.lift (vecAt i.view.strides (i.view.strides.length - 1))
          pure (scaledStrides last s)
        else pure i.view.strides
      Tensor.makeView i.dtype ⟨s, strides, i.view.offset⟩ i.data t
    else do
      let m ← Tensor.clone t
      let mi ← getT m
      Tensor.makeView i.dtype (Layout.contig s) mi.data m : M F Nat) := by
    split
    · exact ends_undef (by simp)
    refine ends_bind (ends_lift (rends_isometry _ _)) fun iso => ?_
    split
    · dsimp only
      split
      · exact ends_bind (ends_lift (rends_vecAt _ _)) fun _ => ends_makeView _ _ _ _
      · exact ends_makeView _ _ _ _
    · exact ends_bind (ends_clone _) fun _ => ends_bind (ends_getT _) fun _ => ends_makeView _ _ _ _
  split
  · refine ends_bind (ends_makeView _ _ _ _) fun r => ?_
    cases hq : i.requiresGrad
    · exact ends_pure _
    · exact rest
  · exact rest
theorem ends_reshape (t : Nat) (s : List Int) : Ends (F := F) (Tensor.reshape t s) := by
  unfold Tensor.reshape
  exact ends_bind (ends_getT _) fun i => ends_bind (ends_lift (rends_regularizeSize _ _)) fun z => ends_reshapeSizes t z
theorem ends_toType (t : Nat) (dt : DType) : Ends (F := F) (Tensor.toType t dt) := by
  unfold Tensor.toType
  refine ends_bind (ends_getT _) fun i => ?_
  split
  · exact ends_raise _
  split
  · exact ends_pure _
  refine ends_bind (ends_create _ _ _) fun _ => ends_bind (ends_getT _) fun _ => ends_bind (ends_copyLoop _ _ _ _) fun _ => ?_
  split
  · exact ends_pure _
  · exact ends_bind (ends_setGradFn _ _ _) fun _ => ends_pure _
theorem ends_applyBinary {k : Kernel F} (hk : ∀ (L R : DType) (d l r : Impl), Ends (k L R d l r)) (b : BackKind) (l r : Nat) (o : Bool) :
    Ends (applyBinary k b l r o) := by
  unfold applyBinary
  refine ends_bind ?_ fun _ => ends_bind (ends_getT _) fun _ => ends_bind (ends_getT _) fun _ => ?_
  · unfold applyNoGradBinary
    refine ends_bind (ends_getT _) fun _ => ends_bind (ends_getT _) fun _ => ends_bind (ends_lift (rends_broadcastRange _ _)) fun _ =>
      ends_bind (ends_create _ _ _) fun _ => ends_bind (ends_getT _) fun _ => ?_
    split
    · split
      · exact ends_bind (hk _ _ _ _ _) fun _ => ends_pure _
      · exact ends_bind (hk _ _ _ _ _) fun _ => ends_pure _
    · exact ends_bind (hk _ _ _ _ _) fun _ => ends_pure _
  · split
    · exact ends_pure _
    · exact ends_bind (ends_setGradFn _ _ _) fun _ => ends_pure _
theorem ends_cmp (op : COp) (l r : Nat) : Ends (F := F) (Tensor.cmp op l r) := by
  unfold Tensor.cmp
  exact ends_bind (ends_getT _) fun _ => ends_bind (ends_getT _) fun _ => ends_bind (ends_lift (rends_broadcastRange _ _)) fun _ =>
      ends_bind (ends_create _ _ _) fun _ => ends_bind (ends_getT _) fun _ => ends_bind (ends_tensorCmp _ _ _ _ _ _) fun _ => ends_pure _
theorem ends_addAssign (l r : Nat) : Ends (F := F) (Tensor.addAssign l r) := by
  unfold Tensor.addAssign
  exact ends_bind (ends_getT _) fun _ => ends_bind (ends_expect _) fun _ => ends_bind (ends_getT _) fun _ => ends_tensorAdd _ _ _ _ _
theorem ends_sumT (t : Nat) : Ends (F := F) (sumT t) := by
  unfold sumT
  refine ends_bind (ends_getT _) fun i => ends_bind (ends_zeros _ _) fun _ => ends_bind (ends_getT _) fun _ =>
    ends_bind (ends_tensorSum _ _ _ _) fun _ => ?_
  split
  · exact ends_bind (ends_setGradFn _ _ _) fun _ => ends_pure _
  · exact ends_pure _
theorem ends_meanT (t : Nat) : Ends (F := F) (meanT t) := by
  unfold meanT
  refine ends_bind (ends_getT _) fun i => ends_bind (ends_zeros _ _) fun _ => ends_bind (ends_getT _) fun _ =>
    ends_bind (ends_tensorMean _ _ _ _) fun _ => ?_
  split
  · exact ends_bind (ends_setGradFn _ _ _) fun _ => ends_pure _
  · exact ends_pure _
theorem ends_absT (t : Nat) : Ends (F := F) (absT t) := by
  unfold absT
  refine ends_bind (ends_getT _) fun i => ends_bind (ends_create _ _ _) fun _ => ?_
  split
  · exact ends_bind (ends_getT _) fun _ => ends_bind (ends_tensorAbs _ _ _ _ _) fun _ => ends_pure _
  · exact ends_bind (ends_create _ _ _) fun _ => ends_bind (ends_getT _) fun _ => ends_bind (ends_getT _) fun _ =>
      ends_bind (ends_tensorAbs _ _ _ _ _) fun _ => ends_bind (ends_setGradFn _ _ _) fun _ => ends_pure _
theorem ends_extreme (k : COp) (t : Nat) : Ends (F := F) (extreme k t) := by
  unfold extreme
  refine ends_bind (ends_getT _) fun i => ends_bind (ends_zeros _ _) fun _ => ?_
  split
  · exact ends_bind (ends_getT _) fun _ => ends_bind (ends_tensorExtreme _ _ _ _ _) fun _ => ends_pure _
  · exact ends_bind (ends_zerosLike _) fun _ => ends_bind (ends_getT _) fun _ => ends_bind (ends_getT _) fun _ =>
      ends_bind (ends_tensorExtreme _ _ _ _ _) fun _ => ends_bind (ends_setGradFn _ _ _) fun _ => ends_pure _
omit [FOps F] in
theorem ends_catCheck (d : Nat) (a : Impl) : ∀ l, Ends (F := F) (catCheck d a l)
  | [] => ends_pure _
  | i :: is => by unfold catCheck; exact ends_bind (ends_expect _) fun _ => ends_bind (ends_expect _) fun _ => ends_catCheck d a is
omit [FOps F] in
theorem ends_getAll : ∀ l, Ends (F := F) (getAll l)
  | [] => ends_pure _
  | t :: ts => by unfold getAll; exact ends_bind (ends_getT _) fun _ => ends_bind (ends_getAll ts) fun _ => ends_pure _
omit [FOps F] in
theorem rends_sizeAt (i : Impl) (d : Nat) : REnds (sizeAt i d) := by unfold sizeAt; rends
theorem ends_catGo (d : Nat) (dt : DType) (r : Impl) : ∀ (l : List Impl) (s : Nat), Ends (F := F) (catGo d dt r s l)
  | [], _ => ends_pure _
  | i :: is, s => by
    unfold catGo
    exact ends_bind (ends_lift (rends_vecAt _ _)) fun _ => ends_bind (ends_tensorCat _ _ _ _ _) fun _ =>
      ends_bind (ends_lift (rends_sizeAt _ _)) fun _ => ends_catGo d dt r is _
theorem ends_catT (ts : List Nat) (d : Nat) : Ends (F := F) (catT ts d) := by
  unfold catT
  cases ts with
  | nil => exact ends_undef (by simp)
  | cons t0 rest =>
    refine ends_bind (ends_getT _) fun _ => ends_bind (ends_expect _) fun _ => ends_bind (ends_getAll _) fun _ =>
      ends_bind (ends_catCheck _ _ _) fun _ => ends_bind (ends_create _ _ _) fun _ => ends_bind (ends_getT _) fun _ =>
      ends_bind (ends_catGo _ _ _ _ _) fun _ => ?_
    split
    · exact ends_bind (ends_setGradFn _ _ _) fun _ => ends_pure _
    · exact ends_pure _
theorem ends_zeroGrad (t : Nat) : Ends (F := F) (zeroGrad t) := by
  unfold zeroGrad
  refine ends_bind (ends_getT _) fun i => ?_
  cases i.grad with
  | none => exact ends_pure _
  | some g => exact ends_bind (ends_getT _) fun _ => ends_zeroS _
theorem ends_loadBoolByte (i : Impl) (p : Nat) : Ends (F := F) (loadBoolByte i p) := by unfold loadBoolByte; ends
theorem ends_allGo (i : Impl) : ∀ (l : List (List Nat)) (sv : List Nat) (n : Nat), Walk i.view.sizes sv l → l.length < n →
    Ends (F := F) (allGo i n sv)
  | [], sv, n, hw, hn => by
    obtain ⟨n, rfl⟩ : ∃ k, n = k + 1 := ⟨n - 1, by simp at hn; omega⟩
    unfold allGo
    rw [hw]
    exact ends_pure _
  | x :: l, sv, n, hw, hn => by
    obtain ⟨n, rfl⟩ : ∃ k, n = k + 1 := ⟨n - 1, by simp at hn; omega⟩
    unfold allGo
    rw [hw.1]
    refine ends_bind (ends_lift (rends_cntFromIndex _ _)) fun _ => ends_bind (ends_loadBoolByte _ _) fun b => ?_
    split
    · exact ends_pure _
    · exact ends_allGo i l _ n hw.2 (by simp at hn; omega)
theorem ends_allT (t : Nat) : Ends (F := F) (allT t) := by
  unfold allT
  refine ends_bind (ends_getT _) fun i => ?_
  split
  · exact ends_pure _
  · rename_i h0
    split
    · rename_i hn
      exact ends_allGo i _ _ _ (walk_rowMajor _ (by simpa using hn) (by simpa using h0)) (by rw [odoFuel_eq, length_rowMajor]; omega)
    · exact ends_bind (ends_lift (rends_cntFromIndex _ _)) fun _ => ends_loadBoolByte _ _
theorem ends_elemToString (i : Impl) (o : Int) : Ends (F := F) (elemToString i o) := by
  unfold elemToString loadByteOff; ends
theorem ends_strLoop {sub : Int → M F Str} (hs : ∀ o, Ends (sub o)) (e : Nat) (st off : Int) (n : Nat) :
    ∀ k, Ends (strLoop sub e st off n k)
  | 0 => ends_pure _
  | k + 1 => by
    unfold strLoop
    exact ends_bind (hs _) fun _ => ends_bind (ends_strLoop hs e st off n k) fun _ => ends_pure _
theorem ends_strHelper (i : Impl) : ∀ (ns : List Nat) (sts : List Int) (o : Int), Ends (F := F) (strHelper i ns sts o)
  | [], _, o => by unfold strHelper; exact ends_elemToString i o
  | _ :: _, [], _ => by unfold strHelper; exact ends_undef (by simp)
  | n :: ns, st :: sts, o => by
    unfold strHelper
    exact ends_bind (ends_strLoop (fun o => ends_strHelper i ns sts o) _ _ _ _ _) fun _ => ends_pure _
theorem ends_toString (t : Nat) : Ends (F := F) (Tensor.toString t) := by
  unfold Tensor.toString
  refine ends_bind (ends_getT _) fun i => ?_
  split
  · exact ends_elemToString _ _
  · exact ends_strHelper _ _ _ _

/-! ### Back-propagation -/

omit [FOps F] in
theorem ends_derefGrad (p : Nat) : Ends (F := F) (derefGrad p) := by unfold derefGrad; ends
omit [FOps F] in
theorem ends_isAllocS (p : Nat) : Ends (F := F) (isAllocS p) := by unfold isAllocS; ends
omit [FOps F] in
theorem ends_inputAt (g : GradFn) (k : Nat) : Ends (F := F) (inputAt g k) := ends_lift (rends_vecAt _ _)
omit [FOps F] in
theorem ends_getGradFn (p : Nat) : Ends (F := F) (getGradFn p) := by unfold getGradFn; ends
theorem ends_tryAccUpdate (p : Nat) : Ends (F := F) (tryAccUpdate p) := by
  have h1 := fun dt v b => ends_create (F := F) dt v b
  have h2 := ends_zeroS (F := F)
  have h3 := ends_allocS (F := F)
  have h4 := ends_isAllocS (F := F)
  unfold tryAccUpdate
  dsimp only
  repeat' first
    | exact ends_pure _ | exact ends_getT _ | exact ends_setT _ _ | exact h1 _ _ _ | exact h2 _ | exact h3 _ | exact h4 _
    | (refine ends_bind ?_ fun _ => ?_) | split
theorem ends_mulAddF (d a b : Nat) : Ends (F := F) (mulAddF d a b) := by
  unfold mulAddF
  refine ends_bind (ends_getT _) fun _ => ends_bind (ends_getT _) fun _ => ends_bind (ends_getT _) fun _ => ?_
  split
  · exact ends_tensorMulAccF _ _ _ _ _ _
  · exact ends_undef (by simp)
theorem ends_tryAccGrad (p : Nat) (w o : Option Nat) : Ends (F := F) (tryAccGrad p w o) := by
  unfold tryAccGrad
  refine ends_bind (ends_getT _) fun i => ?_
  split
  · exact ends_pure _
  refine ends_bind (ends_tryAccUpdate p) fun _ => ?_
  cases w with
  | none => cases o with
    | none => exact ends_pure _
    | some o => exact ends_undef (by simp)
  | some w => cases o with
    | none => exact ends_bind (ends_derefGrad _) fun g => ends_addAssign _ _
    | some o =>
      refine ends_bind (ends_getT _) fun wi => ends_bind (ends_derefGrad _) fun g => ?_
      split
      · exact ends_mulAddF _ _ _
      · exact ends_mulAddF _ _ _
theorem ends_catBackGo (t dim : Nat) : ∀ (xs : List Nat) (s : Nat), Ends (F := F) (catBackGo t dim s xs)
  | [], _ => ends_pure _
  | x :: xs, s => by
    unfold catBackGo
    refine ends_bind (ends_getT _) fun i => ends_bind (ends_getT _) fun i => ends_bind (ends_lift (rends_vecAt _ _)) fun i =>
      ends_bind (ends_derefGrad _) fun i => ends_bind (ends_getT _) fun i => ends_bind (ends_createOn _ _ _) fun r =>
      ends_bind (ends_tryAccGrad _ _ _) fun _ => ends_bind (ends_getT _) fun i => ends_bind (ends_lift (rends_vecAt _ _)) fun i => ?_
    exact ends_catBackGo t dim xs _
theorem ends_divBackNum (d a b : Nat) : Ends (F := F) (divBackNum d a b) := by
  unfold divBackNum
  refine ends_bind (ends_getT _) fun _ => ends_bind (ends_getT _) fun _ => ends_bind (ends_getT _) fun _ => ?_
  split
  · exact ends_tensorDivBackNum _ _ _ _ _ _
  · exact ends_undef (by simp)
theorem ends_divBackDen (t d : Nat) : Ends (F := F) (divBackDen t d) := by
  unfold divBackDen
  refine ends_bind (ends_getT _) fun _ => ends_bind (ends_getT _) fun _ => ?_
  split
  · exact ends_bind (ends_derefGrad _) fun _ => ends_bind (ends_derefGrad _) fun _ => ends_bind (ends_getT _) fun _ =>
      ends_bind (ends_getT _) fun _ => ends_tensorDivBackDen _ _ _ _ _ _
  · exact ends_undef (by simp)
theorem ends_stepBack (t : Nat) (g : GradFn) : Ends (F := F) (stepBack t g) := by
  unfold stepBack
  have h1 := ends_inputAt (F := F)
  have h2 := ends_derefGrad (F := F)
  have h3 := ends_tryAccGrad (F := F)
  cases g.kind with
  | add =>
    exact ends_bind (h1 _ _) fun _ => ends_bind (h2 _) fun _ => ends_bind (h3 _ _ _) fun _ => ends_bind (h1 _ _) fun _ =>
      ends_bind (h2 _) fun _ => h3 _ _ _
  | sub =>
    exact ends_bind (h1 _ _) fun _ => ends_bind (h2 _) fun _ => ends_bind (h3 _ _ _) fun _ => ends_bind (ends_createScalar _ _) fun _ =>
      ends_bind (h1 _ _) fun _ => ends_bind (h2 _) fun _ => h3 _ _ _
  | mul =>
    exact ends_bind (h1 _ _) fun _ => ends_bind (h1 _ _) fun _ => ends_bind (h2 _) fun _ => ends_bind (h3 _ _ _) fun _ =>
      ends_bind (h1 _ _) fun _ => ends_bind (h1 _ _) fun _ => ends_bind (h2 _) fun _ => h3 _ _ _
  | div =>
    exact ends_bind (h1 _ _) fun _ => ends_bind (h1 _ _) fun _ => ends_bind (ends_tryAccUpdate _) fun _ => ends_bind (h2 _) fun _ =>
      ends_bind (h2 _) fun _ => ends_bind (ends_divBackNum _ _ _) fun _ => ends_bind (ends_tryAccUpdate _) fun _ => ends_divBackDen _ _
  | sum => exact ends_bind (h1 _ _) fun _ => ends_bind (ends_onesLike _) fun _ => ends_bind (h2 _) fun _ => h3 _ _ _
  | mean => exact ends_bind (h1 _ _) fun _ => ends_bind (ends_getT _) fun _ => ends_bind (ends_full _ _ _ _) fun _ => h3 _ _ _
  | noBack => exact ends_bind (h1 _ _) fun _ => h3 _ _ _
  | clone => exact ends_bind (h1 _ _) fun _ => ends_bind (h2 _) fun _ => h3 _ _ _
  | cat dim => exact ends_catBackGo _ _ _ _
  | knownGrad k => exact ends_bind (h1 _ _) fun _ => ends_bind (h2 _) fun _ => h3 _ _ _

omit [FOps F] in
theorem ends_readyInputs : ∀ l, Ends (F := F) (readyInputs l)
  | [] => ends_pure _
  | x :: xs => by
    have ih := ends_readyInputs xs
    unfold readyInputs
    refine ends_bind (ends_getT _) fun i => ends_bind (fun h e => by cases e) fun v => ?_
    split
    · split
      · exact ends_bind (ends_bind (ends_getT _) fun _ => ends_setT _ _) fun _ => ends_bind ih fun _ => ends_pure _
      · exact ih
    · exact ih
theorem ends_backVisit (t : Nat) : Ends (F := F) (backVisit t) := by
  unfold backVisit
  refine ends_bind (ends_getGradFn _) fun g => ends_bind (ends_stepBack _ _) fun _ => ends_bind (ends_getT _) fun i => ?_
  dsimp only
  split
  · exact ends_bind (ends_setT _ _) fun _ => ends_bind (ends_getGradFn _) fun _ => ends_readyInputs _
  · exact ends_bind (ends_getGradFn _) fun _ => ends_readyInputs _
theorem ends_visits (l : List Nat) : Ends (F := F) (visits backVisit l) :=
  ends_runAll (fun x => ends_bind (ends_backVisit x) fun _ => ends_pure _) l
theorem ends_seed (t : Nat) : Ends (F := F) (seed t) := by
  unfold seed
  exact ends_bind (ends_onesLike _) fun _ => ends_bind (ends_getT _) fun _ => ends_bind (ends_setT _ _) fun _ =>
    ends_bind (fun h e => by cases e) fun _ => ends_bind (ends_getGradFn _) fun _ => ends_bind (ends_getT _) fun _ => ends_setT _ _

theorem backward_ends {h : Heap F} (hg : Graph h) (t : Nat) : backward t h ≠ .ub .fuel := by
  cases hi : h.ts[t]? with
  | none =>
    unfold backward
    have e : (getT t : M F Impl) h = .ub .nullptr := by unfold getT; rw [hi]
    rw [M.bind_ub e]; simp
  | some i =>
    have hall : (i.requiresGrad = true ∧ i.gradFn.isSome = true ∧ numel i.view.sizes = 1) ∨
        backward t h = .throw .runtime h := by
      unfold backward
      rw [M.bind_ok (getT_ok hi)]
      cases hr : i.requiresGrad
      · exact .inr rfl
      cases hf : i.gradFn with
      | none => exact .inr rfl
      | some g =>
        by_cases hn : numel i.view.sizes = 1
        · exact .inl ⟨rfl, rfl, hn⟩
        · rw [decide_eq_false hn]
          exact .inr rfl
    rcases hall with ⟨hr, hf, hn⟩ | e
    · obtain ⟨h1, n, v, _, _, l, _, _, _, e, _⟩ := backward_order hg hi hr hf hn
      rw [e]
      exact ends_bind (ends_seed t) (fun _ => ends_visits l) h1
    · rw [e]; simp

theorem run_ends {h : Heap F} (hg : Graph h) (c : Call F) : c.run h ≠ .ub .fuel := by
  have S : ∀ {x : M F Nat}, Ends x → some' x h ≠ .ub .fuel := fun hx => ends_bind hx (fun _ => ends_pure _) h
  have N : ∀ {α : Type} {x : M F α}, Ends x → none' x h ≠ .ub .fuel := fun hx => ends_bind hx (fun _ => ends_pure _) h
  cases c with
  | scalar dt v => exact S (ends_createScalar _ _)
  | empty s dt => exact S (ends_create _ _ _)
  | init tree => exact ends_ofInit tree h
  | ones s dt => exact S (ends_ones _ _)
  | zeros s dt => exact S (ends_zeros _ _)
  | onesLike t => exact S (ends_onesLike _)
  | zerosLike t => exact S (ends_zerosLike _)
  | fullInt s n dt => exact S (ends_full _ _ _ _)
  | fullReal s n dt => exact S (ends_full _ _ _ _)
  | eye n m dt => exact S (ends_eye _ _ _)
  | fromBlob data s dt => exact S (ends_fromBlob _ _ _)
  | randn rnd s dt => exact S (ends_randn _ _ _)
  | randnLike rnd t =>
    exact ends_bind (ends_getT _) (fun i => ends_bind (ends_randn _ _ _) fun _ => ends_pure _) h
  | slice t s => exact S (ends_slice _ _)
  | transpose t a b => exact S (ends_transpose _ _ _)
  | reshape t s => exact S (ends_reshape _ _)
  | reshapeAs t u => exact S (ends_bind (ends_getT _) fun _ => ends_reshapeSizes _ _)
  | detach t => exact S (ends_bind (ends_getT _) fun _ => ends_createOn _ _ _)
  | clone t => exact S (ends_clone _)
  | contiguous t => exact S (ends_clone _)
  | toType t dt => exact S (ends_toType _ _)
  | add l r => exact S (ends_applyBinary ends_tensorAdd _ _ _ _)
  | sub l r => exact S (ends_applyBinary ends_tensorSub _ _ _ _)
  | mul l r => exact S (ends_applyBinary ends_tensorMul _ _ _ _)
  | div l r => exact S (ends_applyBinary ends_tensorDiv _ _ _ _)
  | pos t => exact S (ends_pure _)
  | neg t => exact S (ends_bind (ends_createScalar _ _) fun _ => ends_applyBinary ends_tensorSub _ _ _ _)
  | cmp o l r => exact S (ends_cmp _ _ _)
  | sum t => exact S (ends_sumT _)
  | mean t => exact S (ends_meanT _)
  | abs t => exact S (ends_absT _)
  | max t => exact S (ends_extreme _ _)
  | min t => exact S (ends_extreme _ _)
  | cat ts d => exact S (ends_catT _ _)
  | addAssign t r => exact N (ends_addAssign _ _)
  | setRequiresGrad t b =>
    refine N ?_
    unfold setRequiresGrad
    ends
  | setRetainGrad t b => exact N (ends_bind (ends_getT _) fun _ => ends_setT _ _)
  | zeroGrad t => exact N (ends_zeroGrad _)
  | release t => exact N (ends_bind (ends_getT _) fun _ => ends_bind (ends_getS _) fun _ => ends_setS _ _)
  | backward t =>
    show none' (backward t) h ≠ _
    unfold none'
    rw [M.bind_def]
    have := backward_ends hg t
    cases hb : backward t h with
    | ok a h' => simp [M.pure_run]
    | throw e h' => simp
    | ub u => rw [hb] at this; simp only; intro e; cases e; exact this rfl
  | grad t => exact ends_bind (ends_getT _) (fun _ => ends_pure _) h
  | all t => exact N (ends_allT _)
  | toString t => exact N (ends_toString _)
  | stride t => exact N (ends_bind (ends_getT _) fun _ => ends_raise _)
  | query t => exact N (ends_getT _)

end
end INNC
