import Verif.Lemmas.LinkedOps
/-
Linked runs of the functions of the interface.
-/
namespace INNC
open Spec Tensor
section
variable {F G : Type} [FOps F] [FOps G] {R : DType → F → G → Prop}

/-! ### Constructors -/

theorem createScalar_link (dt : DType) {v : Val F} {v' : Val G} (hv : LinkedVal R dt v v') :
    MLink R Eq (createScalar dt v) (createScalar dt v') := by
  unfold createScalar
  link

theorem emptyTensor_link (s : List Nat) (dt : DType) : MLink R Eq (emptyTensor s dt) (emptyTensor s dt) := create_link _ _ _

theorem ones_link (P : Preserved R) (s : List Nat) (dt : DType) : MLink R Eq (ones s dt) (ones s dt) := by
  unfold ones
  refine (createScalar_link _ (linkedInt _ _)).bindEq fun one => (create_link _ _ _).bindEq fun ret => ?_
  exact (getT_link _).bindEq fun a => (getT_link _).bindEq fun b => (tensorFill_link P _ _ _ _).bindEq fun _ => MLink.pure rfl

theorem zeros_link (P : Preserved R) (s : List Nat) (dt : DType) : MLink R Eq (zeros s dt) (zeros s dt) := by
  unfold zeros
  link

theorem zerosLike_link (P : Preserved R) (t : Nat) : MLink R Eq (zerosLike t) (zerosLike t) :=
  (getT_link t).bindEq fun _ => zeros_link P _ _

theorem onesLike_link (P : Preserved R) (t : Nat) : MLink R Eq (onesLike t) (onesLike t) :=
  (getT_link t).bindEq fun _ => ones_link P _ _

theorem full_link (P : Preserved R) (s : List Nat) (nt : DType) {v : Val F} {v' : Val G} (hv : LinkedVal R nt v v') (dt : DType) :
    MLink R Eq (full s nt v dt) (full s nt v' dt) := by
  unfold full
  refine (createScalar_link _ hv).bindEq fun one => (create_link _ _ _).bindEq fun ret => ?_
  exact (getT_link _).bindEq fun a => (getT_link _).bindEq fun b => (tensorFill_link P _ _ _ _).bindEq fun _ => MLink.pure rfl

theorem eye_link (P : Preserved R) (n m : Nat) (dt : DType) : MLink R Eq (eye n m dt) (eye n m dt) := by
  unfold eye
  refine (create_link _ _ _).bindEq fun ret => (getT_link _).bindEq fun i => (zeroS_link P _).bindEq fun _ => ?_
  exact (tensorEye_link P _ _).bindEq fun _ => MLink.pure rfl

omit [FOps F] [FOps G] in
theorem blobGo_link (dt : DType) (i : Impl) {d : List (Val F)} {d' : List (Val G)} (hd : List.Forall₂ (LinkedVal R dt) d d') :
    ∀ k, MLink R Eq (blobGo dt i k d) (blobGo dt i k d') := by
  induction hd with
  | nil => exact fun k => MLink.pure rfl
  | cons hv _ ih => exact fun k => (store_link _ _ _ hv).bindEq fun _ => ih (k + 1)

omit [FOps F] [FOps G] in
theorem forall₂_take {dt : DType} {d : List (Val F)} {d' : List (Val G)} (hd : List.Forall₂ (LinkedVal R dt) d d') (n : Nat) :
    List.Forall₂ (LinkedVal R dt) (d.take n) (d'.take n) := by
  induction hd generalizing n with
  | nil => simp
  | cons hv _ ih =>
    cases n with
    | zero => exact .nil
    | succ n => exact .cons hv (ih n)

omit [FOps F] [FOps G] in
theorem fromBlob_link {dt : DType} {d : List (Val F)} {d' : List (Val G)} (hd : List.Forall₂ (LinkedVal R dt) d d') (s : List Nat) :
    MLink R Eq (fromBlob d s dt) (fromBlob d' s dt) := by
  unfold fromBlob
  refine (create_link _ _ _).bindEq fun ret => (getT_link _).bindEq fun i => ?_
  dsimp only
  rw [hd.length_eq]
  have := blobGo_link dt i (forall₂_take hd (wrapU (numel s * dt.size) / dt.size)) 0
  link

omit [FOps F] [FOps G] in
theorem randGo_link (i : Impl) (w n : Nat) {l : List F} {l' : List G} (hi : i.dtype = .f32) (hl : List.Forall₂ (R .f32) l l') :
    ∀ k, MLink R Eq (randGo i w n k l) (randGo i w n k l') := by
  induction hl with
  | nil => exact fun k => MLink.pure rfl
  | cons hv _ ih =>
    intro k
    unfold randGo
    refine MLink.ite (fun _ => MLink.undef _ _) fun _ => MLink.ite (fun _ => ih _) fun _ => ?_
    rw [hi]
    exact (store_link _ _ _ (linkedFloat rfl hv)).bindEq fun _ => ih _

omit [FOps F] [FOps G] in
theorem randn_link {r : Nat → F} {r' : Nat → G} (hr : ∀ k, R .f32 (r k) (r' k)) (s : List Nat) (dt : DType) :
    MLink R Eq (randn r s dt) (randn r' s dt) := by
  unfold randn
  refine (MLink.expect _).bindEq fun _ => MLink.create fun ret h h' hh hc => getT_at hh fun i hi => ?_
  refine ((getS_link _).bind fun st st' hs => ?_ : MLink R Eq _ _) h h' hh
  dsimp only
  rw [hs.size]
  exact (randGo_link _ _ _ (hc i hi).1 (forall₂_self_map _ hr) _).bindEq fun _ => MLink.pure rfl

/-! ### Views -/

omit [FOps F] [FOps G] in
theorem shareGradStorage_link (t f : Nat) : MLink R Eq (shareGradStorage t f) (shareGradStorage t f) := by
  unfold shareGradStorage
  refine (getT_link _).bindEq fun i => ?_
  cases i.grad with
  | none => link
  | some g => link

omit [FOps F] [FOps G] in
theorem setGradFn_link (t : Nat) (k : BackKind) (l : List Nat) : MLink R Eq (setGradFn t k l) (setGradFn t k l) := by
  unfold setGradFn
  link

omit [FOps F] [FOps G] in
theorem makeView_link (dt : DType) (v : Layout) (d b : Nat) : MLink R Eq (makeView dt v d b) (makeView dt v d b) := by
  unfold makeView
  refine (createOn_link _ _ _).bindEq fun ret => (getT_link _).bindEq fun i => MLink.ite (fun _ => MLink.pure rfl) fun _ => ?_
  exact (setGradFn_link _ _ _).bindEq fun _ => (shareGradStorage_link _ _).bindEq fun _ => MLink.pure rfl

omit [FOps F] [FOps G] in
theorem slice_link (t : Nat) (s : Str) : MLink R Eq (slice t s) (slice t s) :=
  (getT_link t).bindEq fun _ => (MLink.liftSame _).bindEq fun _ => makeView_link _ _ _ _

omit [FOps F] [FOps G] in
theorem transpose_link (t a b : Nat) : MLink R Eq (transpose t a b) (transpose t a b) :=
  (getT_link t).bindEq fun _ => (MLink.liftSame _).bindEq fun _ => makeView_link _ _ _ _

theorem clone_link (P : Preserved R) (t : Nat) : MLink R Eq (clone t) (clone t) := by
  unfold clone
  refine (getT_link t).bindEq fun i => (create_link _ _ _).bindEq fun ret => (getT_link _).bindEq fun j => ?_
  refine (copyLoop_link P _ _ _ _).bindEq fun _ => MLink.ite (fun _ => MLink.pure rfl) fun _ => ?_
  exact (setGradFn_link _ _ _).bindEq fun _ => MLink.pure rfl

theorem reshapeSizes_link (P : Preserved R) (t : Nat) (s : List Nat) : MLink R Eq (reshapeSizes t s) (reshapeSizes t s) := by
  unfold reshapeSizes
  refine (getT_link t).bindEq fun i => (MLink.expect _).bindEq fun _ => ?_
  have rest : ∀ early : Option Nat, MLink R Eq
      (match early with
      | some r => (pure r : M F Nat)
      | none =>
        if i.view.sizes.length < i.view.strides.length then M.undef .vecOob
        else do
          let iso ← M.lift (isometry i.view.sizes i.view.strides)
          if iso then do
            let strides ← if s.length ≠ 0 then do
                let last ← M.lift (vecAt i.view.strides (i.view.strides.length - 1))
                pure (scaledStrides last s)
              else pure i.view.strides
            makeView i.dtype ⟨s, strides, i.view.offset⟩ i.data t
          else do
            let m ← clone t
            let mi ← getT m
            makeView i.dtype (Layout.contig s) mi.data m)
      (match early with
      | some r => (pure r : M G Nat)
      | none =>
        if i.view.sizes.length < i.view.strides.length then M.undef .vecOob
        else do
          let iso ← M.lift (isometry i.view.sizes i.view.strides)
          if iso then do
            let strides ← if s.length ≠ 0 then do
                let last ← M.lift (vecAt i.view.strides (i.view.strides.length - 1))
                pure (scaledStrides last s)
              else pure i.view.strides
            makeView i.dtype ⟨s, strides, i.view.offset⟩ i.data t
          else do
            let m ← clone t
            let mi ← getT m
            makeView i.dtype (Layout.contig s) mi.data m) := by
    intro early
    cases early with
    | some r => exact MLink.pure rfl
    | none =>
      refine MLink.ite (fun _ => MLink.undef _ _) fun _ => (MLink.liftSame _).bindEq fun iso => ?_
      refine MLink.ite (fun _ => ?_) fun _ => ?_
      · refine MLink.ite (fun _ => ?_) fun _ => ?_
        · exact (MLink.liftSame _).bindEq fun _ => makeView_link _ _ _ _
        · exact makeView_link _ _ _ _
      · exact (clone_link P t).bindEq fun m => (getT_link m).bindEq fun _ => makeView_link _ _ _ _
  refine MLink.ite (fun _ => ?_) fun _ => rest none
  exact (makeView_link _ _ _ _).bindEq fun r => rest _

theorem reshape_link (P : Preserved R) (t : Nat) (s : List Int) : MLink R Eq (reshape t s) (reshape t s) :=
  (getT_link t).bindEq fun _ => (MLink.liftSame _).bindEq fun _ => reshapeSizes_link P _ _

theorem reshapeAs_link (P : Preserved R) (t u : Nat) : MLink R Eq (reshapeAs t u) (reshapeAs t u) :=
  (getT_link u).bindEq fun _ => reshapeSizes_link P _ _

omit [FOps F] [FOps G] in
theorem detach_link (t : Nat) : MLink R Eq (detach t) (detach t) := (getT_link t).bindEq fun _ => createOn_link _ _ _

theorem toType_link (P : Preserved R) (t : Nat) (dt : DType) : MLink R Eq (toType t dt) (toType t dt) := by
  unfold toType
  refine (getT_link t).bindEq fun i => MLink.ite (fun _ => MLink.raise _) fun _ => MLink.ite (fun _ => MLink.pure rfl) fun _ => ?_
  refine (create_link _ _ _).bindEq fun ret => (getT_link _).bindEq fun j => ?_
  refine (copyLoop_link P _ _ _ _).bindEq fun _ => MLink.ite (fun _ => MLink.pure rfl) fun _ => ?_
  exact (setGradFn_link _ _ _).bindEq fun _ => MLink.pure rfl

/-! ### Arithmetic and comparison -/

/-- A kernel that maps linked states to linked states. -/
def KLink (R : DType → F → G → Prop) (k : Kernel F) (k' : Kernel G) : Prop := ∀ a b d l r, MLink R Eq (k a b d l r) (k' a b d l r)

omit [FOps F] [FOps G] in
theorem applyNoGradBinary_link {k : Kernel F} {k' : Kernel G} (hk : KLink R k k') (l r : Nat) (o : Bool) :
    MLink R Eq (applyNoGradBinary k l r o) (applyNoGradBinary k' l r o) := by
  unfold applyNoGradBinary
  refine (getT_link l).bindEq fun i => (getT_link r).bindEq fun j => (MLink.liftSame _).bindEq fun s => ?_
  refine (create_link _ _ _).bindEq fun ret => (getT_link _).bindEq fun d => ?_
  refine MLink.ite (fun _ => MLink.ite (fun _ => ?_) fun _ => ?_) fun _ => ?_ <;>
    exact (hk _ _ _ _ _).bindEq fun _ => MLink.pure rfl

omit [FOps F] [FOps G] in
theorem applyBinary_link {k : Kernel F} {k' : Kernel G} (hk : KLink R k k') (b : BackKind) (l r : Nat) (o : Bool) :
    MLink R Eq (applyBinary k b l r o) (applyBinary k' b l r o) := by
  unfold applyBinary
  refine (applyNoGradBinary_link hk l r o).bindEq fun ret => (getT_link l).bindEq fun i => (getT_link r).bindEq fun j => ?_
  exact MLink.ite (fun _ => MLink.pure rfl) fun _ => (setGradFn_link _ _ _).bindEq fun _ => MLink.pure rfl

theorem addT_link (P : Preserved R) (l r : Nat) : MLink R Eq (addT l r) (addT l r) :=
  applyBinary_link (fun _ _ _ _ _ => tensorAdd_link P _ _ _ _ _) _ _ _ _
theorem subT_link (P : Preserved R) (l r : Nat) : MLink R Eq (subT l r) (subT l r) :=
  applyBinary_link (fun _ _ _ _ _ => tensorSub_link P _ _ _ _ _) _ _ _ _
theorem mulT_link (P : Preserved R) (l r : Nat) : MLink R Eq (mulT l r) (mulT l r) :=
  applyBinary_link (fun _ _ _ _ _ => tensorMul_link P _ _ _ _ _) _ _ _ _
theorem divT_link (P : Preserved R) (l r : Nat) : MLink R Eq (divT l r) (divT l r) :=
  applyBinary_link (fun _ _ _ _ _ => tensorDiv_link P _ _ _ _ _) _ _ _ _

theorem negT_link (P : Preserved R) (t : Nat) : MLink R Eq (negT t) (negT t) :=
  (createScalar_link _ (linkedInt _ _)).bindEq fun _ => subT_link P _ _

theorem cmp_link (P : Preserved R) (C : ComparedAlike R) (op : COp) (l r : Nat) : MLink R Eq (Tensor.cmp op l r) (Tensor.cmp op l r) := by
  unfold Tensor.cmp
  refine (getT_link l).bindEq fun i => (getT_link r).bindEq fun j => (MLink.liftSame _).bindEq fun s => ?_
  refine (create_link _ _ _).bindEq fun ret => (getT_link _).bindEq fun d => ?_
  exact (tensorCmp_link P C _ _ _ _ _ _).bindEq fun _ => MLink.pure rfl

theorem addAssign_link (P : Preserved R) (t r : Nat) : MLink R Eq (addAssign t r) (addAssign t r) := by
  unfold addAssign
  exact (getT_link t).bindEq fun i => (MLink.expect _).bindEq fun _ => (getT_link r).bindEq fun j => tensorAdd_link P _ _ _ _ _

/-! ### Reductions -/

theorem sumT_link (P : Preserved R) (t : Nat) : MLink R Eq (sumT t) (sumT t) := by
  unfold sumT
  refine (getT_link t).bindEq fun i => (zeros_link P _ _).bindEq fun tf => (getT_link _).bindEq fun j => ?_
  refine (tensorSum_link P _ _ _ _).bindEq fun _ => MLink.ite (fun _ => ?_) fun _ => MLink.pure rfl
  exact (setGradFn_link _ _ _).bindEq fun _ => MLink.pure rfl

theorem meanT_link (P : Preserved R) (t : Nat) : MLink R Eq (meanT t) (meanT t) := by
  unfold meanT
  refine (getT_link t).bindEq fun i => (zeros_link P _ _).bindEq fun tf => (getT_link _).bindEq fun j => ?_
  refine (tensorMean_link P _ _ _ _).bindEq fun _ => MLink.ite (fun _ => ?_) fun _ => MLink.pure rfl
  exact (setGradFn_link _ _ _).bindEq fun _ => MLink.pure rfl

theorem absT_link (P : Preserved R) (C : ComparedAlike R) (t : Nat) : MLink R Eq (absT t) (absT t) := by
  unfold absT
  refine (getT_link t).bindEq fun i => (create_link _ _ _).bindEq fun ret => MLink.ite (fun _ => ?_) fun _ => ?_
  · exact (getT_link _).bindEq fun d => (tensorAbs_link P C _ _ _ _ _).bindEq fun _ => MLink.pure rfl
  · refine (create_link _ _ _).bindEq fun g => (getT_link _).bindEq fun d => (getT_link _).bindEq fun e => ?_
    exact (tensorAbs_link P C _ _ _ _ _).bindEq fun _ => (setGradFn_link _ _ _).bindEq fun _ => MLink.pure rfl

theorem extreme_link (P : Preserved R) (C : ComparedAlike R) (keep : COp) (t : Nat) :
    MLink R Eq (extreme keep t) (extreme keep t) := by
  unfold extreme
  refine (getT_link t).bindEq fun i => (zeros_link P _ _).bindEq fun ret => MLink.ite (fun _ => ?_) fun _ => ?_
  · exact (getT_link _).bindEq fun d => (tensorExtreme_link P C _ _ _ _ _).bindEq fun _ => MLink.pure rfl
  · refine (zerosLike_link P _).bindEq fun g => (getT_link _).bindEq fun d => (getT_link _).bindEq fun e => ?_
    exact (tensorExtreme_link P C _ _ _ _ _).bindEq fun _ => (setGradFn_link _ _ _).bindEq fun _ => MLink.pure rfl

theorem byteOf_link (S : ShownAlike R) (t : DType) {v : Val F} {v' : Val G} (hv : LinkedVal R t v v') (k : Nat) :
    byteOf t v k = byteOf t v' k := by
  cases v <;> cases v' <;> first | exact hv.elim | skip
  · cases (show _ = _ from hv); rfl
  · exact S.byte _ _ _ _ hv.2

theorem loadBoolByte_link (S : ShownAlike R) (t : Impl) (pos : Nat) : MLink R Eq (loadBoolByte t pos) (loadBoolByte t pos) := by
  unfold loadBoolByte
  refine (getS_link t.data).bind fun s s' hs => ?_
  have := hs.blob
  revert this
  cases s.blob <;> cases s'.blob <;> intro this <;> first | exact MLink.undef _ _ | cases this
  rename_i c c' hc
  dsimp only
  rw [hs.dt]
  rcases forall₂_getElem? hc (pos / s'.dt.size) with ⟨a, b, ha, hb, hab⟩ | ⟨ha, hb⟩
  · rw [ha, hb]
    cases a <;> cases b <;> first | exact MLink.undef _ _ | cases hab | skip
    dsimp only
    rw [hs.dt] at hab
    rw [byteOf_link S _ hab]
    split
    · exact MLink.pure rfl
    · exact MLink.pure rfl
    · exact MLink.undef _ _
  · rw [hb]; exact MLink.undef _ _

theorem allGo_link (S : ShownAlike R) (t : Impl) : ∀ n sv, MLink R Eq (allGo t n sv) (allGo t n sv) := by
  intro n
  induction n with
  | zero => exact fun sv => MLink.undef _ _
  | succ n ih =>
    intro sv
    unfold allGo
    cases carry t.view.sizes (t.view.sizes.length - 1) sv with
    | none => exact MLink.pure rfl
    | some sv' =>
      refine (MLink.liftSame _).bindEq fun p => (loadBoolByte_link S _ _).bindEq fun b => ?_
      exact MLink.ite (fun _ => MLink.pure rfl) fun _ => ih _

theorem allT_link (S : ShownAlike R) (t : Nat) : MLink R Eq (allT t) (allT t) := by
  unfold allT
  refine (getT_link t).bindEq fun i => MLink.ite (fun _ => MLink.pure rfl) fun _ => MLink.ite (fun _ => allGo_link S _ _ _) fun _ => ?_
  exact (MLink.liftSame _).bindEq fun p => loadBoolByte_link S _ _

/-! ### Concatenation -/

omit [FOps F] [FOps G] in
theorem catCheck_link (d : Nat) (i : Impl) : ∀ l : List Impl, MLink R Eq (catCheck d i l) (catCheck d i l)
  | [] => MLink.pure rfl
  | _ :: l => (MLink.expect _).bindEq fun _ => (MLink.expect _).bindEq fun _ => catCheck_link d i l

omit [FOps F] [FOps G] in
theorem getAll_link : ∀ l : List Nat, MLink R Eq (getAll l) (getAll l)
  | [] => MLink.pure rfl
  | _ :: l => (getT_link _).bindEq fun _ => (getAll_link l).bindEq fun _ => MLink.pure rfl

theorem catGo_link (P : Preserved R) (d : Nat) (dt : DType) (ret : Impl) : ∀ (l : List Impl) (o : Nat),
    MLink R Eq (catGo d dt ret o l) (catGo d dt ret o l)
  | [], _ => MLink.pure rfl
  | _ :: l, _ => (MLink.liftSame _).bindEq fun _ => (tensorCat_link P _ _ _ _ _).bindEq fun _ =>
      (MLink.liftSame _).bindEq fun _ => catGo_link P d dt ret l _

theorem catT_link (P : Preserved R) (l : List Nat) (d : Nat) : MLink R Eq (catT l d) (catT l d) := by
  cases l with
  | nil => exact MLink.undef _ _
  | cons t0 rest =>
    refine (getT_link t0).bindEq fun i => (MLink.expect _).bindEq fun _ => (getAll_link _).bindEq fun is => ?_
    refine (catCheck_link _ _ _).bindEq fun _ => (create_link _ _ _).bindEq fun ret => (getT_link _).bindEq fun j => ?_
    refine (catGo_link P _ _ _ _ _).bindEq fun _ => MLink.ite (fun _ => ?_) fun _ => MLink.pure rfl
    exact (setGradFn_link _ _ _).bindEq fun _ => MLink.pure rfl

/-! ### Flags, gradients, text -/

omit [FOps F] [FOps G] in
theorem setRequiresGrad_link (t : Nat) (b : Bool) : MLink R Eq (setRequiresGrad t b) (setRequiresGrad t b) := by
  unfold setRequiresGrad
  link

omit [FOps F] [FOps G] in
theorem setRetainGrad_link (t : Nat) (b : Bool) : MLink R Eq (setRetainGrad t b) (setRetainGrad t b) := by
  unfold setRetainGrad
  link

theorem zeroGrad_link (P : Preserved R) (t : Nat) : MLink R Eq (zeroGrad t) (zeroGrad t) := by
  unfold zeroGrad
  refine (getT_link t).bindEq fun i => ?_
  cases i.grad with
  | none => exact MLink.pure rfl
  | some g => link

omit [FOps F] [FOps G] in
theorem release_link (t : Nat) : MLink R Eq (release t) (release t) := by
  unfold release
  link

omit [FOps F] [FOps G] in
theorem gradOf_link (t : Nat) : MLink R Eq (gradOf t) (gradOf t) := (getT_link t).bindEq fun _ => MLink.pure rfl

omit [FOps F] [FOps G] in
theorem stride_link (t : Nat) : MLink R Eq (stride t) (stride t) := (getT_link t).bindEq fun _ => MLink.raise _

theorem elemToString_link (S : ShownAlike R) (t : Impl) (off : Int) : MLink R Eq (elemToString t off) (elemToString t off) := by
  unfold elemToString loadByteOff
  refine MLink.bindVal (MLink.ite (fun _ => MLink.undef _ _) fun _ => load_link _ _ _) fun v v' hv => MLink.pure ?_
  cases v <;> cases v' <;> first | exact hv.elim | skip
  · cases (show _ = _ from hv); rfl
  · exact S.toStr _ _ _ hv.2

omit [FOps F] [FOps G] in
theorem strLoop_link {f : Int → M F Str} {f' : Int → M G Str} (hf : ∀ o, MLink R Eq (f o) (f' o)) (e : Nat) (st off : Int)
    (n : Nat) : ∀ k, MLink R Eq (strLoop f e st off n k) (strLoop f' e st off n k)
  | 0 => MLink.pure rfl
  | k + 1 => (hf _).bindEq fun _ => (strLoop_link hf e st off n k).bindEq fun _ => MLink.pure rfl

theorem strHelper_link (S : ShownAlike R) (t : Impl) : ∀ (s : List Nat) (st : List Int) (off : Int),
    MLink R Eq (strHelper t s st off) (strHelper t s st off)
  | [], _, _ => elemToString_link S _ _
  | _ :: _, [], _ => MLink.undef _ _
  | _ :: s, _ :: st, _ => (strLoop_link (fun o => strHelper_link S t s st o) _ _ _ _ _).bindEq fun _ => MLink.pure rfl

theorem toString_link (S : ShownAlike R) (t : Nat) : MLink R Eq (Tensor.toString t) (Tensor.toString t) := by
  unfold Tensor.toString
  exact (getT_link t).bindEq fun i => MLink.ite (fun _ => elemToString_link S _ _) fun _ => strHelper_link S _ _ _ _

end
end INNC
