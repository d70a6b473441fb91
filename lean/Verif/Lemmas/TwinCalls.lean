import Verif.Lemmas.Twin
/-
The same function of the interface in two states (see `Twin`).
-/
namespace INNC
open Spec Tensor
section
variable {F : Type} [FOps F] {W : Naming F} {V V' V'' : Clocks}

omit [FOps F] in
theorem MTwin.stepId {α β : Type} {P : α → β → Prop} {x y : M F Nat} {f : Nat → M F α} {g : Nat → M F β}
    (hx : MTwin W V V W.Id x y) (hf : ∀ a, MTwin W V V' P (f a) (g (W.t a))) : MTwin W V V' P (x >>= f) (y >>= g) := hx.bindId hf

omit [FOps F] in
theorem MTwin.ret (t : Nat) : MTwin W V V W.Id (Pure.pure t) (Pure.pure (W.t t)) := MTwin.pure rfl

/-! ### Constructors -/

omit [FOps F] in
theorem createScalar_twin (dt : DType) (v : Val F) : MTwin W V V W.Id (createScalar dt v) (createScalar dt v) := by
  unfold createScalar
  refine (create_twin _ _ _).bindId fun t => twin_get fun i f _ => ?_
  exact (store_twin _ (located i f) _ _).bindEq fun _ => MTwin.ret t

omit [FOps F] in
theorem emptyTensor_twin (s : List Nat) (dt : DType) : MTwin W V V W.Id (emptyTensor s dt) (emptyTensor s dt) := create_twin _ _ _

theorem ones_twin (s : List Nat) (dt : DType) : MTwin W V V W.Id (ones s dt) (ones s dt) := by
  unfold ones
  refine (createScalar_twin _ _).bindId fun one => (create_twin _ _ _).bindId fun ret => twin_get fun i f _ => twin_get fun j g _ => ?_
  exact (tensorFill_twin _ _ (located i f) (located j g)).bindEq fun _ => MTwin.ret _

theorem zeros_twin (s : List Nat) (dt : DType) : MTwin W V V W.Id (zeros s dt) (zeros s dt) := by
  unfold zeros
  exact (create_twin _ _ _).bindId fun ret => twin_get fun i f _ => (zeroS_twin _).bindEq fun _ => MTwin.ret _

theorem zerosLike_twin (t : Nat) : MTwin W V V W.Id (zerosLike t) (zerosLike (W.t t)) := twin_get fun _ _ _ => zeros_twin _ _

theorem onesLike_twin (t : Nat) : MTwin W V V W.Id (onesLike t) (onesLike (W.t t)) := twin_get fun _ _ _ => ones_twin _ _

theorem full_twin (s : List Nat) (nt : DType) (v : Val F) (dt : DType) : MTwin W V V W.Id (full s nt v dt) (full s nt v dt) := by
  unfold full
  refine (createScalar_twin _ _).bindId fun one => (create_twin _ _ _).bindId fun ret => twin_get fun i f _ => twin_get fun j g _ => ?_
  exact (tensorFill_twin _ _ (located i f) (located j g)).bindEq fun _ => MTwin.ret _

theorem eye_twin (n m : Nat) (dt : DType) : MTwin W V V W.Id (eye n m dt) (eye n m dt) := by
  unfold eye
  refine (create_twin _ _ _).bindId fun ret => twin_get fun i f _ => (zeroS_twin _).bindEq fun _ => ?_
  exact (tensorEye_twin _ (located i f)).bindEq fun _ => MTwin.ret _

omit [FOps F] in
theorem blobGo_twin (dt : DType) {i i' : Impl} (hi : Located W i i') : ∀ (d : List (Val F)) (k : Nat),
    MTwin W V V Eq (blobGo dt i k d) (blobGo dt i' k d)
  | [], _ => MTwin.pure rfl
  | _ :: d, _ => (store_twin _ hi _ _).bindEq fun _ => blobGo_twin dt hi d _

omit [FOps F] in
theorem fromBlob_twin (d : List (Val F)) (s : List Nat) (dt : DType) : MTwin W V V W.Id (fromBlob d s dt) (fromBlob d s dt) := by
  unfold fromBlob
  refine (create_twin _ _ _).bindId fun ret => twin_get fun i f _ => ?_
  dsimp only
  exact MTwin.ite (fun _ => MTwin.undef _) fun _ => MTwin.step (blobGo_twin dt (located i f) _ _) fun _ => MTwin.ret _

omit [FOps F] in
theorem randGo_twin {i i' : Impl} (hi : Located W i i') (w n : Nat) : ∀ (l : List F) (k : Nat),
    MTwin W V V Eq (randGo i w n k l) (randGo i' w n k l)
  | [], _ => MTwin.pure rfl
  | _ :: l, k => by
    have ih := randGo_twin hi w n l
    unfold randGo
    rw [hi.dtype]
    refine MTwin.ite (fun _ => MTwin.undef _) fun _ => MTwin.ite (fun _ => ih _) fun _ => ?_
    exact (store_twin _ hi _ _).bindEq fun _ => ih _

omit [FOps F] in
theorem randn_twin (r : Nat → F) (s : List Nat) (dt : DType) : MTwin W V V W.Id (randn r s dt) (randn r s dt) := by
  unfold randn
  refine (MTwin.expect _).bindEq fun _ => (create_twin _ _ _).bindId fun ret => twin_get fun i f _ => (getS_twin _).bindEq fun st => ?_
  exact (randGo_twin (located i f) _ _ _ _).bindEq fun _ => MTwin.ret _

/-! ### Views -/

omit [FOps F] in
theorem shareGradStorage_twin (t f : Nat) : MTwin W V V Eq (shareGradStorage t f) (shareGradStorage (W.t t) (W.t f)) := by
  unfold shareGradStorage
  refine twin_get fun i gi _ => ?_
  rcases i with ⟨dt, v, d, _ | g, rg, re, fn⟩
  · refine MTwin.stepId (create_twin _ _ _) fun g => twin_get fun j f' hj => (setT_twin _ ?_).bindEq fun _ => ?_
    · exact ⟨f', hj, rfl⟩
    · refine twin_get fun i f' hf => twin_get fun j fj _ => (createOn_twin _ _ _).bindId fun n => twin_get fun k fk hk => ?_
      exact setT_twin _ ⟨fk, hk, rfl⟩
  · refine twin_get fun i f' hf => twin_get fun j fj _ => (createOn_twin _ _ _).bindId fun n => twin_get fun k fk hk => ?_
    exact setT_twin _ ⟨fk, hk, rfl⟩

omit [FOps F] in
theorem setGradFn_twin (t : Nat) (k : BackKind) (l : List Nat) :
    MTwin W V V Eq (setGradFn t k l) (setGradFn (W.t t) (W.kind k) (l.map W.t)) := by
  unfold setGradFn
  refine twin_get fun i f _ => setT_twin _
    ⟨some ⟨W.kind k, l.map W.t, 0, 0, 0⟩, .some ⟨rfl, rfl, rfl, rfl, Nat.zero_le _, Nat.zero_le _, fun h => ?_⟩, rfl⟩
  exact ⟨fun _ => (V.pos h).2, fun _ => (V.pos h).1⟩

omit [FOps F] in
theorem makeView_twin (dt : DType) (v : Layout) (d b : Nat) : MTwin W V V W.Id (makeView dt v d b) (makeView dt v (W.s d) (W.t b)) := by
  unfold makeView
  refine (createOn_twin _ _ _).bindId fun ret => twin_get fun i f _ => MTwin.ite (fun _ => MTwin.ret _) fun _ => ?_
  exact (setGradFn_twin _ _ _).bindEq fun _ => (shareGradStorage_twin _ _).bindEq fun _ => MTwin.ret _

omit [FOps F] in
theorem slice_twin (t : Nat) (s : Str) : MTwin W V V W.Id (slice t s) (slice (W.t t) s) :=
  twin_get fun _ _ _ => (MTwin.lift _).bindEq fun _ => makeView_twin _ _ _ _

omit [FOps F] in
theorem transpose_twin (t a b : Nat) : MTwin W V V W.Id (transpose t a b) (transpose (W.t t) a b) :=
  twin_get fun _ _ _ => (MTwin.lift _).bindEq fun _ => makeView_twin _ _ _ _

theorem clone_twin (t : Nat) : MTwin W V V W.Id (clone t) (clone (W.t t)) := by
  unfold clone
  refine twin_get fun i f _ => (create_twin _ _ _).bindId fun ret => twin_get fun j g _ => ?_
  refine (copyLoop_twin _ _ (located j g) (located i f)).bindEq fun _ => MTwin.ite (fun _ => MTwin.ret _) fun _ => ?_
  exact (setGradFn_twin _ _ _).bindEq fun _ => MTwin.ret _

theorem reshapeSizes_twin (t : Nat) (s : List Nat) : MTwin W V V W.Id (reshapeSizes t s) (reshapeSizes (W.t t) s) := by
  unfold reshapeSizes
  refine twin_get fun i f _ => (MTwin.expect _).bindEq fun _ => ?_
  have rest : ∀ early : Option Nat, MTwin W V V W.Id
      (match early with
      | some r => (pure r : M F Nat)
      | none =>
        if i.view.sizes.length < i.view.strides.length then M.undef .vecOob
        else do
          let iso ← M.lift (isometry i.view.sizes i.view.strides)
          if iso then do
            let strides ← if s.length ≠ 0 then do
                let last ← M.lift (vecAt i.view.strides (i.view.strides.length - 1))
                pure (scaledStrides last s)
              else pure i.view.strides
            makeView i.dtype ⟨s, strides, i.view.offset⟩ i.data t
          else do
            let m ← clone t
            let mi ← getT m
            makeView i.dtype (Layout.contig s) mi.data m)
      (match early.map W.t with
      | some r => (pure r : M F Nat)
      | none =>
        if i.view.sizes.length < i.view.strides.length then M.undef .vecOob
        else do
          let iso ← M.lift (isometry i.view.sizes i.view.strides)
          if iso then do
            let strides ← if s.length ≠ 0 then do
                let last ← M.lift (vecAt i.view.strides (i.view.strides.length - 1))
                pure (scaledStrides last s)
              else pure i.view.strides
            makeView i.dtype ⟨s, strides, i.view.offset⟩ (W.s i.data) (W.t t)
          else do
            let m ← clone (W.t t)
            let mi ← getT m
            makeView i.dtype (Layout.contig s) mi.data m) := by
    intro early
    cases early with
    | some r => exact MTwin.ret _
    | none =>
      refine MTwin.ite (fun _ => MTwin.undef _) fun _ => (MTwin.lift _).bindEq fun iso => ?_
      refine MTwin.ite (fun _ => ?_) fun _ => ?_
      · refine MTwin.ite (fun _ => ?_) fun _ => ?_
        · exact (MTwin.lift _).bindEq fun _ => makeView_twin _ _ _ _
        · exact makeView_twin _ _ _ _
      · exact (clone_twin t).bindId fun m => twin_get fun _ _ _ => makeView_twin _ _ _ _
  refine MTwin.ite (fun _ => ?_) fun _ => rest none
  refine MTwin.stepId (makeView_twin _ _ _ _) fun r => ?_
  have h := rest (if i.requiresGrad = true then none else some r)
  rw [apply_ite (Option.map W.t)] at h
  exact h

theorem reshape_twin (t : Nat) (s : List Int) : MTwin W V V W.Id (reshape t s) (reshape (W.t t) s) :=
  twin_get fun _ _ _ => (MTwin.lift _).bindEq fun _ => reshapeSizes_twin _ _

theorem reshapeAs_twin (t u : Nat) : MTwin W V V W.Id (reshapeAs t u) (reshapeAs (W.t t) (W.t u)) :=
  twin_get fun _ _ _ => reshapeSizes_twin _ _

omit [FOps F] in
theorem detach_twin (t : Nat) : MTwin W V V W.Id (detach t) (detach (W.t t)) := twin_get fun _ _ _ => createOn_twin _ _ _

theorem toType_twin (t : Nat) (dt : DType) : MTwin W V V W.Id (toType t dt) (toType (W.t t) dt) := by
  unfold toType
  refine twin_get fun i f _ => MTwin.ite (fun _ => MTwin.raise _) fun _ => MTwin.ite (fun _ => MTwin.ret _) fun _ => ?_
  refine (create_twin _ _ _).bindId fun ret => twin_get fun j g _ => ?_
  refine (copyLoop_twin _ _ (located j g) (located i f)).bindEq fun _ => MTwin.ite (fun _ => MTwin.ret _) fun _ => ?_
  exact (setGradFn_twin _ _ _).bindEq fun _ => MTwin.ret _

/-! ### Arithmetic and comparison -/

omit [FOps F] in
theorem applyNoGradBinary_twin [FOps F] {k : Kernel F} (hk : TwinKernel W k) (l r : Nat) (o : Bool) :
    MTwin W V V W.Id (applyNoGradBinary k l r o) (applyNoGradBinary k (W.t l) (W.t r) o) := by
  unfold applyNoGradBinary
  refine twin_get fun i f _ => twin_get fun j g _ => (MTwin.lift _).bindEq fun s => ?_
  refine (create_twin _ _ _).bindId fun ret => twin_get fun d e _ => ?_
  refine MTwin.ite (fun _ => MTwin.ite (fun _ => ?_) fun _ => ?_) fun _ => ?_ <;>
    exact MTwin.step (hk V _ _ _ _ _ _ _ _ (located d e) (located _ _) (located _ _)) fun _ => MTwin.ret _

theorem applyBinary_twin {k : Kernel F} (hk : TwinKernel W k) (b : BackKind) (l r : Nat) (o : Bool) :
    MTwin W V V W.Id (applyBinary k b l r o) (applyBinary k (W.kind b) (W.t l) (W.t r) o) := by
  unfold applyBinary
  refine (applyNoGradBinary_twin hk l r o).bindId fun ret => twin_get fun i f _ => twin_get fun j g _ => ?_
  exact MTwin.ite (fun _ => MTwin.ret _) fun _ => (setGradFn_twin _ _ _).bindEq fun _ => MTwin.ret _

theorem addT_twin (l r : Nat) : MTwin W V V W.Id (addT l r) (addT (W.t l) (W.t r)) := applyBinary_twin tensorAdd_twin _ _ _ _
theorem subT_twin (l r : Nat) : MTwin W V V W.Id (subT l r) (subT (W.t l) (W.t r)) := applyBinary_twin tensorSub_twin _ _ _ _
theorem mulT_twin (l r : Nat) : MTwin W V V W.Id (mulT l r) (mulT (W.t l) (W.t r)) := applyBinary_twin tensorMul_twin _ _ _ _
theorem divT_twin (l r : Nat) : MTwin W V V W.Id (divT l r) (divT (W.t l) (W.t r)) := applyBinary_twin tensorDiv_twin _ _ _ _

theorem negT_twin (t : Nat) : MTwin W V V W.Id (negT t) (negT (W.t t)) :=
  (createScalar_twin _ _).bindId fun _ => subT_twin _ _

theorem cmp_twin (op : COp) (l r : Nat) : MTwin W V V W.Id (Tensor.cmp op l r) (Tensor.cmp op (W.t l) (W.t r)) := by
  unfold Tensor.cmp
  refine twin_get fun i f _ => twin_get fun j g _ => (MTwin.lift _).bindEq fun s => ?_
  refine (create_twin _ _ _).bindId fun ret => twin_get fun d e _ => ?_
  exact MTwin.step (tensorCmp_twin op V _ _ _ _ _ _ _ _ (located d e) (located i f) (located j g)) fun _ => MTwin.ret _

theorem addAssign_twin (t r : Nat) : MTwin W V V Eq (addAssign t r) (addAssign (W.t t) (W.t r)) := by
  unfold addAssign
  exact twin_get fun i f _ => (MTwin.expect _).bindEq fun _ => twin_get fun j g _ =>
    tensorAdd_twin V _ _ _ _ _ _ _ _ (located i f) (located i f) (located j g)

/-! ### Reductions -/

theorem sumT_twin (t : Nat) : MTwin W V V W.Id (sumT t) (sumT (W.t t)) := by
  unfold sumT
  refine twin_get fun i f _ => (zeros_twin _ _).bindId fun tf => twin_get fun j g _ => ?_
  refine (tensorSum_twin _ _ (located j g) (located i f)).bindEq fun _ => MTwin.ite (fun _ => ?_) fun _ => MTwin.ret _
  exact (setGradFn_twin _ _ _).bindEq fun _ => MTwin.ret _

theorem meanT_twin (t : Nat) : MTwin W V V W.Id (meanT t) (meanT (W.t t)) := by
  unfold meanT
  refine twin_get fun i f _ => (zeros_twin _ _).bindId fun tf => twin_get fun j g _ => ?_
  refine (tensorMean_twin _ _ (located j g) (located i f)).bindEq fun _ => MTwin.ite (fun _ => ?_) fun _ => MTwin.ret _
  exact (setGradFn_twin _ _ _).bindEq fun _ => MTwin.ret _

theorem absT_twin (t : Nat) : MTwin W V V W.Id (absT t) (absT (W.t t)) := by
  unfold absT
  refine twin_get fun i f _ => (create_twin _ _ _).bindId fun ret => MTwin.ite (fun _ => ?_) fun _ => ?_
  · exact twin_get fun d e _ => (tensorAbs_twin _ _ (located d e) (located i f) .none).bindEq fun _ => MTwin.ret _
  · refine (create_twin _ _ _).bindId fun g => twin_get fun d e _ => twin_get fun d' e' _ => ?_
    exact (tensorAbs_twin _ _ (located d e) (located i f) (.some (located d' e'))).bindEq fun _ =>
      (setGradFn_twin _ _ _).bindEq fun _ => MTwin.ret _

theorem extreme_twin (keep : COp) (t : Nat) : MTwin W V V W.Id (extreme keep t) (extreme keep (W.t t)) := by
  unfold extreme
  refine twin_get fun i f _ => (zeros_twin _ _).bindId fun ret => MTwin.ite (fun _ => ?_) fun _ => ?_
  · exact twin_get fun d e _ => (tensorExtreme_twin _ _ (located d e) (located i f) .none).bindEq fun _ => MTwin.ret _
  · refine (zerosLike_twin _).bindId fun g => twin_get fun d e _ => twin_get fun d' e' _ => ?_
    exact (tensorExtreme_twin _ _ (located d e) (located i f) (.some (located d' e'))).bindEq fun _ =>
      (setGradFn_twin _ _ _).bindEq fun _ => MTwin.ret _

theorem loadBoolByte_twin {t t' : Impl} (ht : Located W t t') (pos : Nat) : MTwin W V V Eq (loadBoolByte t pos) (loadBoolByte t' pos) := by
  unfold loadBoolByte
  rw [ht.data]
  refine (getS_twin t.data).bindEq fun s => ?_
  repeat' split
  all_goals first | exact MTwin.undef _ | exact MTwin.pure rfl

theorem allGo_twin {t t' : Impl} (ht : Located W t t') : ∀ n sv, MTwin W V V Eq (allGo t n sv) (allGo t' n sv) := by
  intro n
  induction n with
  | zero => exact fun sv => MTwin.undef _
  | succ n ih =>
    intro sv
    unfold allGo
    rw [ht.view]
    cases carry t.view.sizes (t.view.sizes.length - 1) sv with
    | none => exact MTwin.pure rfl
    | some sv' =>
      refine (MTwin.lift _).bindEq fun p => (loadBoolByte_twin ht _).bindEq fun b => ?_
      exact MTwin.ite (fun _ => MTwin.pure rfl) fun _ => ih _

theorem allT_twin (t : Nat) : MTwin W V V Eq (allT t) (allT (W.t t)) := by
  unfold allT
  refine twin_get fun i f _ => MTwin.ite (fun _ => MTwin.pure rfl) fun _ => MTwin.ite (fun _ => allGo_twin (located i f) _ _) fun _ => ?_
  exact (MTwin.lift _).bindEq fun p => loadBoolByte_twin (located i f) _

/-! ### Concatenation -/

/-- Tensors under their other names. -/
def TwinList (W : Naming F) (V : Clocks) (l l' : List Impl) : Prop := List.Forall₂ (TwinImpl W V) l l'

omit [FOps F] in
theorem catCheck_twin (d : Nat) {i i' : Impl} (hi : Located W i i') {l l' : List Impl} (hl : TwinList W V l l') :
    MTwin W V V Eq (catCheck d i l) (catCheck (F := F) d i' l') := by
  induction hl with
  | nil => exact MTwin.pure rfl
  | cons hx _ ih =>
    obtain ⟨f, _, rfl⟩ := hx
    unfold catCheck
    rw [hi.view]
    exact (MTwin.expect _).bindEq fun _ => (MTwin.expect _).bindEq fun _ => ih

omit [FOps F] in
theorem getAll_twin : ∀ l : List Nat, MTwin W V V (TwinList W V) (getAll l) (getAll (l.map W.t))
  | [] => MTwin.pure .nil
  | _ :: l => twin_get fun _ f hf => (getAll_twin l).bind fun _ _ h => MTwin.pure (.cons ⟨f, hf, rfl⟩ h)

theorem catGo_twin (d : Nat) (dt : DType) {ret ret' : Impl} (hr : Located W ret ret') {l l' : List Impl} (hl : TwinList W V l l') :
    ∀ o : Nat, MTwin W V V Eq (catGo d dt ret o l) (catGo d dt ret' o l') := by
  induction hl with
  | nil => exact fun o => MTwin.pure rfl
  | cons hx _ ih =>
    intro o
    obtain ⟨f, _, rfl⟩ := hx
    unfold catGo
    rw [hr.view]
    exact (MTwin.lift _).bindEq fun _ => (tensorCat_twin _ _ hr (located _ _) _).bindEq fun _ => (MTwin.lift _).bindEq fun _ => ih _

omit [FOps F] in
theorem twinList_any {l l' : List Impl} (hl : TwinList W V l l') : l'.any (·.requiresGrad) = l.any (·.requiresGrad) := by
  induction hl with
  | nil => rfl
  | cons hx _ ih =>
    obtain ⟨f, _, rfl⟩ := hx
    simp only [List.any_cons, ih]

omit [FOps F] in
theorem twinList_foldl {γ : Type} {l l' : List Impl} (hl : TwinList W V l l') (g : γ → Impl → γ) (hg : ∀ a i f, g a (W.im i f) = g a i) :
    ∀ a, l'.foldl g a = l.foldl g a := by
  induction hl with
  | nil => exact fun a => rfl
  | cons hx _ ih =>
    obtain ⟨f, _, rfl⟩ := hx
    intro a
    simp only [List.foldl_cons, ih, hg]

theorem catT_twin (l : List Nat) (d : Nat) : MTwin W V V W.Id (catT l d) (catT (l.map W.t) d) := by
  cases l with
  | nil => exact MTwin.undef _
  | cons t0 rest =>
    refine twin_get fun i f hf => (MTwin.expect _).bindEq fun _ => (getAll_twin rest).bind fun is is' his => ?_
    refine (catCheck_twin _ (located i f) his).bindEq fun _ => ?_
    have hc : TwinList W V (i :: is) (W.im i f :: is') := .cons ⟨f, hf, rfl⟩ his
    dsimp only
    rw [twinList_any hc, twinList_foldl hc _ (fun _ _ _ => rfl), twinList_foldl hc _ (fun _ _ _ => rfl)]
    refine (create_twin _ _ _).bindId fun ret => twin_get fun j g _ => ?_
    refine (catGo_twin _ _ (located j g) hc _).bindEq fun _ => MTwin.ite (fun _ => ?_) fun _ => MTwin.ret _
    exact (setGradFn_twin _ _ _).bindEq fun _ => MTwin.ret _

/-! ### Flags, gradients, text -/

omit [FOps F] in
theorem setRequiresGrad_twin (t : Nat) (b : Bool) : MTwin W V V Eq (setRequiresGrad t b) (setRequiresGrad (W.t t) b) := by
  unfold setRequiresGrad
  refine twin_get fun i f _ => MTwin.ite (fun _ => (MTwin.expect _).bindEq fun _ => ?_) fun _ => ?_
  all_goals exact twin_get fun j g hg => setT_twin _ ⟨g, hg, rfl⟩

omit [FOps F] in
theorem setRetainGrad_twin (t : Nat) (b : Bool) : MTwin W V V Eq (setRetainGrad t b) (setRetainGrad (W.t t) b) := by
  unfold setRetainGrad
  exact twin_get fun j g hg => setT_twin _ ⟨g, hg, rfl⟩

theorem zeroGrad_twin (t : Nat) : MTwin W V V Eq (zeroGrad t) (zeroGrad (W.t t)) := by
  unfold zeroGrad
  refine twin_get fun i f _ => ?_
  rcases i with ⟨dt, v, d, _ | g, rg, re, fn⟩
  · exact MTwin.pure rfl
  · exact twin_get fun j g hg => zeroS_twin _

omit [FOps F] in
theorem release_twin (t : Nat) : MTwin W V V Eq (release t) (release (W.t t)) := by
  unfold release
  exact twin_get fun j g hg => releaseS_twin _

omit [FOps F] in
theorem gradOf_twin (t : Nat) : MTwin W V V (fun a b => b = a.map W.t) (gradOf t) (gradOf (W.t t)) := twin_get fun _ _ _ => MTwin.pure rfl

omit [FOps F] in
theorem stride_twin (t : Nat) : MTwin W V V Eq (stride t) (stride (W.t t)) := twin_get fun _ _ _ => MTwin.raise _

theorem elemToString_twin {t t' : Impl} (ht : Located W t t') (off : Int) : MTwin W V V Eq (elemToString t off) (elemToString t' off) := by
  unfold elemToString loadByteOff
  rw [ht.dtype]
  exact MTwin.step (MTwin.ite (fun _ => MTwin.undef _) fun _ => load_twin _ ht _) fun v => MTwin.pure rfl

omit [FOps F] in
theorem strLoop_twin {f f' : Int → M F Str} (hf : ∀ o, MTwin W V V Eq (f o) (f' o)) (e : Nat) (st off : Int)
    (n : Nat) : ∀ k, MTwin W V V Eq (strLoop f e st off n k) (strLoop f' e st off n k)
  | 0 => MTwin.pure rfl
  | k + 1 => (hf _).bindEq fun _ => (strLoop_twin hf e st off n k).bindEq fun _ => MTwin.pure rfl

theorem strHelper_twin {t t' : Impl} (ht : Located W t t') : ∀ (s : List Nat) (st : List Int) (off : Int),
    MTwin W V V Eq (strHelper t s st off) (strHelper t' s st off)
  | [], _, _ => elemToString_twin ht _
  | _ :: _, [], _ => MTwin.undef _
  | _ :: s, _ :: st, _ => by
    unfold strHelper
    rw [ht.dtype]
    exact (strLoop_twin (fun o => strHelper_twin ht s st o) _ _ _ _ _).bindEq fun _ => MTwin.pure rfl

theorem toString_twin (t : Nat) : MTwin W V V Eq (Tensor.toString t) (Tensor.toString (W.t t)) := by
  unfold Tensor.toString
  exact twin_get fun i f _ => MTwin.ite (fun _ => elemToString_twin (located i f) _) fun _ => strHelper_twin (located i f) _ _ _

end
end INNC
