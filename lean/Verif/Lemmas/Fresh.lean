import Verif.Lemmas.GraphKeep
/-
Without back-propagation no counter of arrivals moves, and tensors in the graph require grad unless the flag is cleared.
(The same induction over the calls as in `GraphKeep`.)
-/
namespace INNC
open Spec Tensor
variable {F : Type}

/-- No operation has been back-propagated, and all results of recorded operations require grad. -/
def Fresh (h : Heap F) : Prop := ∀ (x : Nat) (i : Impl) (g : GradFn), h.ts[x]? = some i → i.gradFn = some g →
  g.accOutway = 0 ∧ i.requiresGrad = true

def FreshK (h h' : Heap F) : Prop := Fresh h → Fresh h'

instance : Pre (F := F) FreshK where
  refl _ := id
  trans h1 h2 := h2 ∘ h1

theorem fresh_of {α : Type} {x : M F α} (hx : Keeps FreshK x) : Keeps FreshK x := hx

theorem fresh_of_ts {h h' : Heap F} (ht : h'.ts = h.ts) : FreshK h h' := fun hf => by unfold Fresh at *; rw [ht]; exact hf

theorem fresh_setAt {h : Heap F} (hf : Fresh h) {x : Nat} {i k : Impl} (hi : h.ts[x]? = some i)
    (hk : ∀ g, k.gradFn = some g → g.accOutway = 0 ∧ k.requiresGrad = true) : Fresh { h with ts := h.ts.set x k } := by
  intro y j g hj hg
  simp only at hj
  by_cases hxy : x = y
  · subst hxy
    rw [List.getElem?_set_self (getElem?_lt hi)] at hj
    obtain rfl := Option.some.inj hj
    exact hk g hg
  · rw [List.getElem?_set_ne hxy] at hj
    exact hf y j g hj hg

theorem fresh_set_same {h : Heap F} {x : Nat} {i k : Impl} (hi : h.ts[x]? = some i) (hk : k.gradFn = i.gradFn)
    (hr : k.requiresGrad = i.requiresGrad) : FreshK h { h with ts := h.ts.set x k } :=
  fun hf => fresh_setAt hf hi fun g hg => hr ▸ hf x i g hi (hk ▸ hg)

theorem fresh_new {h : Heap F} {i : Impl} (hi : i.gradFn = none) : FreshK h { h with ts := h.ts ++ [i] } := by
  intro hf x j g hj hg
  simp only at hj
  by_cases hlt : x < h.ts.length
  · rw [List.getElem?_append_left hlt] at hj
    exact hf x j g hj hg
  · rw [List.getElem?_append_right (by omega)] at hj
    cases hk : x - h.ts.length with
    | zero => rw [hk] at hj; obtain rfl : i = j := by simpa using hj
              rw [hi] at hg; simp at hg
    | succ n => rw [hk] at hj; simp at hj

theorem fresh_writes {α : Type} {x : M F α} (hx : Keeps (Writes fun _ => True) x) : Keeps FreshK x :=
  keeps_mono hx fun _ _ h => fresh_of_ts h.ts

theorem fresh_newS (s : Storage F) : Keeps FreshK (newS s) := fun _ => fresh_of_ts rfl
theorem fresh_setS (d : Nat) (s : Storage F) : Keeps FreshK (setS d s) := fun _ => fresh_of_ts rfl
theorem fresh_createOn (dt : DType) (v : Layout) (d : Nat) : Keeps (F := F) FreshK (createOn dt v d) := fun _ => fresh_new rfl
theorem fresh_mkStorage (dt : DType) (n : Nat) (b : Bool) : Keeps (F := F) FreshK (mkStorage dt n b) := by
  unfold mkStorage
  split
  · split
    · exact fresh_newS _
    · exact keeps_raise _
  · exact fresh_newS _
theorem fresh_create (dt : DType) (v : Layout) (b : Bool) : Keeps (F := F) FreshK (create dt v b) := by
  unfold create
  exact keeps_bind (fresh_mkStorage _ _ _) fun _ => fresh_createOn _ _ _
theorem fresh_allocS (d : Nat) : Keeps (F := F) FreshK (allocS d) := by
  unfold allocS
  refine keeps_bind (keeps_getS _) fun s => ?_
  split
  · exact fresh_setS _ _
  · exact keeps_raise _

variable [FOps F]

theorem fresh_zeroS (d : Nat) : Keeps (F := F) FreshK (zeroS d) := fresh_writes (keeps_zeroS trivial)
theorem fresh_createScalar (dt : DType) (v : Val F) : Keeps FreshK (createScalar dt v) := by
  unfold createScalar
  refine keeps_bind (fresh_create _ _ _) fun t => keeps_bind (keeps_getT _) fun i => ?_
  exact keeps_bind (fresh_writes (keeps_store trivial _ _ _)) fun _ => keeps_pure _
theorem fresh_full (s : List Nat) (n : DType) (v : Val F) (dt : DType) : Keeps FreshK (full s n v dt) := by
  unfold full
  refine keeps_bind (fresh_createScalar _ _) fun t => keeps_bind (fresh_create _ _ _) fun r => keeps_bind (keeps_getT _) fun i =>
    keeps_bind (keeps_getT _) fun i => ?_
  exact keeps_bind (fresh_writes (keeps_tensorFill trivial _ _ _)) fun _ => keeps_pure _
theorem fresh_ones (s : List Nat) (dt : DType) : Keeps (F := F) FreshK (ones s dt) := fresh_full s .i8 (.i 1) dt
theorem fresh_zeros (s : List Nat) (dt : DType) : Keeps (F := F) FreshK (zeros s dt) := by
  unfold zeros
  refine keeps_bind (fresh_create _ _ _) fun r => keeps_bind (keeps_getT _) fun i => ?_
  exact keeps_bind (fresh_zeroS _) fun _ => keeps_pure _
theorem fresh_onesLike (t : Nat) : Keeps (F := F) FreshK (onesLike t) := by
  unfold onesLike
  exact keeps_bind (keeps_getT _) fun i => fresh_ones _ _
theorem fresh_zerosLike (t : Nat) : Keeps (F := F) FreshK (zerosLike t) := by
  unfold zerosLike
  exact keeps_bind (keeps_getT _) fun i => fresh_zeros _ _
theorem fresh_eye (n m : Nat) (dt : DType) : Keeps (F := F) FreshK (eye n m dt) := by
  unfold eye
  refine keeps_bind (fresh_create _ _ _) fun r => keeps_bind (keeps_getT _) fun i => ?_
  refine keeps_bind (fresh_zeroS _) fun _ => ?_
  exact keeps_bind (fresh_writes (keeps_tensorEye trivial _)) fun _ => keeps_pure _
theorem fresh_fromBlob (data : List (Val F)) (s : List Nat) (dt : DType) : Keeps FreshK (fromBlob data s dt) := by
  unfold fromBlob
  refine keeps_bind (fresh_create _ _ _) fun r => keeps_bind (keeps_getT _) fun i => ?_
  simp only
  split
  · exact keeps_bind (keeps_undef _) fun _ => keeps_pure _
  · exact keeps_bind (fresh_writes (keeps_blobGo trivial _ _ _)) fun _ => keeps_pure _
theorem fresh_randn (rnd : Nat → F) (s : List Nat) (dt : DType) : Keeps FreshK (randn rnd s dt) := by
  unfold randn
  refine keeps_bind (keeps_expect _) fun _ => keeps_bind (fresh_create _ _ _) fun r => keeps_bind (keeps_getT _) fun i =>
    keeps_bind (keeps_getS _) fun st => ?_
  exact keeps_bind (fresh_writes (keeps_randGo trivial _ _ _ _)) fun _ => keeps_pure _
theorem fresh_detach (t : Nat) : Keeps (F := F) FreshK (detach t) := by
  unfold detach
  exact keeps_bind (keeps_getT _) fun i => fresh_createOn _ _ _
theorem fresh_applyNoGradBinary {k : Kernel F}
    (hk : ∀ (L R : DType) (d l r : Impl), Keeps (Writes fun _ => True) (k L R d l r)) (l r : Nat) (o : Bool) :
    Keeps FreshK (applyNoGradBinary k l r o) := by
  unfold applyNoGradBinary
  refine keeps_bind (keeps_getT _) fun li => keeps_bind (keeps_getT _) fun ri => keeps_bind (keeps_lift _) fun range =>
    keeps_bind (fresh_create _ _ _) fun t => keeps_bind (keeps_getT _) fun d => ?_
  have key : ∀ (L R : DType) (a b : Impl), Keeps FreshK (k L R d a b >>= fun _ => (pure t : M F Nat)) := fun L R a b =>
    keeps_bind (fresh_writes (hk _ _ _ _ _)) fun _ => keeps_pure _
  split
  · split
    · exact key _ _ _ _
    · exact key _ _ _ _
  · exact key _ _ _ _
theorem fresh_cmp (op : COp) (l r : Nat) : Keeps (F := F) FreshK (Tensor.cmp op l r) := by
  unfold Tensor.cmp
  refine keeps_bind (keeps_getT _) fun li => keeps_bind (keeps_getT _) fun ri => keeps_bind (keeps_lift _) fun range =>
    keeps_bind (fresh_create _ _ _) fun t => keeps_bind (keeps_getT _) fun d => ?_
  exact keeps_bind (fresh_writes (keeps_tensorCmp trivial _ _ _ _ _)) fun _ => keeps_pure _
theorem fresh_addAssign (t r : Nat) : Keeps (F := F) FreshK (addAssign t r) := by
  unfold addAssign
  refine keeps_bind (keeps_getT _) fun i => keeps_bind (keeps_expect _) fun _ => keeps_bind (keeps_getT _) fun j => ?_
  exact fresh_writes (keeps_tensorAdd trivial _ _ _ _)
theorem fresh_zeroGrad (t : Nat) : Keeps (F := F) FreshK (zeroGrad t) := by
  unfold zeroGrad
  refine keeps_bind (keeps_getT _) fun i => ?_
  cases i.grad with
  | none => exact keeps_pure _
  | some g => exact keeps_bind (keeps_getT _) fun i => fresh_zeroS _
omit [FOps F] in
theorem fresh_release (t : Nat) : Keeps (F := F) FreshK (release t) := by
  unfold release releaseS
  exact keeps_bind (keeps_getT _) fun i => keeps_bind (keeps_getS _) fun s => fresh_setS _ _
omit [FOps F] in
theorem fresh_setRequiresGrad (t : Nat) : Keeps (F := F) FreshK (setRequiresGrad t true) := by
  unfold setRequiresGrad
  refine keeps_bind (keeps_getT _) fun i => ?_
  have key : Keeps (F := F) FreshK (getT t >>= fun i => setT t { i with requiresGrad := true }) :=
    keepsR_getT fun h i hi => fun hf => fresh_setAt hf hi fun g hg => ⟨(hf t i g hi hg).1, rfl⟩
  split
  · exact keeps_bind (keeps_expect _) fun _ => key
  · exact key
omit [FOps F] in
theorem fresh_setRetainGrad (t : Nat) (b : Bool) : Keeps (F := F) FreshK (setRetainGrad t b) := by
  unfold setRetainGrad
  exact keepsR_getT fun h i hi => fresh_set_same hi rfl rfl

omit [FOps F] in
theorem fresh_shareGradStorage (dst frm : Nat) : Keeps (F := F) FreshK (shareGradStorage dst frm) := by
  unfold shareGradStorage
  have setg : ∀ (t : Nat) (gr : Option Nat), Keeps (F := F) FreshK (getT t >>= fun i => setT t { i with grad := gr }) := fun t gr =>
    keepsR_getT fun h i hi => fresh_set_same hi rfl rfl
  have tail : ∀ g : Nat, Keeps (F := F) FreshK (do
      let gi ← getT g
      let t ← getT dst
      let g' ← createOn t.dtype t.view gi.data
      let t ← getT dst
      setT dst { t with grad := some g' }) := fun g =>
    keeps_bind (keeps_getT _) fun i => keeps_bind (keeps_getT _) fun i => keeps_bind (fresh_createOn _ _ _) fun g' => setg _ _
  refine keeps_bind (keeps_getT _) fun f => ?_
  cases f.grad with
  | some g => exact tail g
  | none =>
    exact keeps_bind (fresh_create _ _ _) fun g => keepsR_getT fun h i hi => at_bind (fresh_set_same hi rfl rfl) fun _ h' _ => tail g h'

section
omit [FOps F]
theorem fresh_setGradFn {t : Nat} {kind : BackKind} {inputs : List Nat} {h : Heap F} (_ : Arity kind inputs.length)
    (_ : ∀ y ∈ inputs, y < t) : KeepsAt FreshK (setGradFn t kind inputs) h := by
  unfold setGradFn
  refine at_getT fun i hi => fun hf => ?_
  exact fresh_setAt hf hi fun g hg => by cases hg; exact ⟨rfl, rfl⟩

theorem fresh_makeView {dt : DType} {v : Layout} {d base : Nat} {h : Heap F} (hb : base < h.ts.length) :
    KeepsAt FreshK (makeView dt v d base) h := by
  unfold makeView
  refine at_bind (fresh_of (fresh_createOn _ _ _) h) fun r h1 e => ?_
  have := createOn_idx e
  refine at_getT fun i hi => ?_
  split
  · exact (keeps_pure r : Keeps FreshK _) h1
  · refine at_bind (fresh_setGradFn (show Arity .noBack 1 from rfl) (by simp; omega)) fun _ h2 _ => ?_
    exact keeps_bind (fresh_of (fresh_shareGradStorage _ _)) (fun _ => (keeps_pure r : Keeps FreshK _)) h2

theorem fresh_slice (t : Nat) (s : Str) : Keeps (F := F) FreshK (Tensor.slice t s) := by
  unfold Tensor.slice
  refine keepsR_getT fun h i hi => at_bind (keeps_lift _ h) fun v h' e => ?_
  have : h' = h := by
    unfold M.lift at e; split at e <;> cases e; rfl
  subst this
  exact fresh_makeView (getElem?_lt hi)

theorem fresh_transpose (t a b : Nat) : Keeps (F := F) FreshK (Tensor.transpose t a b) := by
  unfold Tensor.transpose
  refine keepsR_getT fun h i hi => at_bind (keeps_lift _ h) fun v h' e => ?_
  have : h' = h := by
    unfold M.lift at e; split at e <;> cases e; rfl
  subst this
  exact fresh_makeView (getElem?_lt hi)
theorem fresh_pure {α : Type} (a : α) (h : Heap F) : KeepsAt FreshK (pure a : M F α) h := (keeps_pure a : Keeps FreshK _) h
end

theorem fresh_clone (t : Nat) : Keeps (F := F) FreshK (Tensor.clone t) := by
  unfold Tensor.clone
  refine keepsR_getT fun h i hi => ?_
  refine at_bind (fresh_of (fresh_create _ _ _) h) fun r h1 e => ?_
  have hr := create_idx e
  refine at_getT fun d hd => at_bind (fresh_of (fresh_writes (keeps_copyLoop trivial _ _ _)) h1) fun _ h2 _ => ?_
  split
  · exact fresh_pure _ _
  · have := getElem?_lt hi
    exact at_bind (fresh_setGradFn (show Arity .clone 1 from rfl) (by simp; omega)) fun _ h3 _ => fresh_pure _ _

theorem fresh_reshapeSizes (t : Nat) (s : List Nat) : Keeps (F := F) FreshK (Tensor.reshapeSizes t s) := by
  unfold Tensor.reshapeSizes
  dsimp only
  refine keepsR_getT fun h i hi => ?_
  have hlt := getElem?_lt hi
  refine at_reads (keeps_expect _) fun _ => ?_
  have rest : ∀ H : Heap F, h.ts.length ≤ H.ts.length → KeepsAt FreshK (if i.view.sizes.length < i.view.strides.length then M.undef .vecOob
    else do
    let iso ← M.lift (isometry i.view.sizes i.view.strides)
    if iso then
      let strides ← if s.length ≠ 0 then do
          let last ← M.lift (vecAt i.view.strides (i.view.strides.length - 1))
          pure (scaledStrides last s)
        else pure i.view.strides
      Tensor.makeView i.dtype ⟨s, strides, i.view.offset⟩ i.data t
    else do
      let m ← Tensor.clone t
      let mi ← getT m
      Tensor.makeView i.dtype (Layout.contig s) mi.data m : M F Nat) H := by
    intro H hle
    split
    · trivial
    refine at_reads (keeps_lift _) fun iso => ?_
    split
    · dsimp only
      split
      · exact at_reads (keeps_lift _) fun _ => fresh_makeView (Nat.lt_of_lt_of_le hlt hle)
      · exact fresh_makeView (Nat.lt_of_lt_of_le hlt hle)
    · refine at_bind (fresh_clone t H) fun m h4 _ => at_getT fun mi hmi => ?_
      exact fresh_makeView (getElem?_lt hmi)
  split
  · have hm := fresh_makeView (dt := i.dtype) (v := ⟨s, List.replicate s.length 1, i.view.offset⟩) (d := i.data) hlt
    refine at_bind hm fun r h3 e => ?_
    have hl := at_makeView (dt := i.dtype) (v := ⟨s, List.replicate s.length 1, i.view.offset⟩) (d := i.data) hlt
    unfold KeepsAt at hl
    rw [e] at hl
    cases hq : i.requiresGrad
    · exact fresh_pure _ _
    · exact rest h3 hl.2
  · exact rest h (Nat.le_refl _)

theorem fresh_reshape (t : Nat) (s : List Int) : Keeps (F := F) FreshK (Tensor.reshape t s) := by
  unfold Tensor.reshape
  exact keeps_bind (keeps_getT _) fun i => keeps_bind (keeps_lift _) fun z => fresh_reshapeSizes t z

theorem fresh_reshapeAs (t u : Nat) : Keeps (F := F) FreshK (Tensor.reshapeAs t u) := by
  unfold Tensor.reshapeAs
  exact keeps_bind (keeps_getT _) fun i => fresh_reshapeSizes t _

theorem fresh_toType (t : Nat) (dt : DType) : Keeps (F := F) FreshK (Tensor.toType t dt) := by
  unfold Tensor.toType
  refine keepsR_getT fun h i hi => ?_
  split
  · exact (keeps_raise _ : Keeps FreshK (M.raise .runtime : M F Nat)) h
  split
  · exact fresh_pure _ _
  refine at_bind (fresh_of (fresh_create _ _ _) h) fun r h1 e => ?_
  have hr := create_idx e
  refine at_getT fun d hd => at_bind (fresh_of (fresh_writes (keeps_copyLoop trivial _ _ _)) h1) fun _ h2 _ => ?_
  split
  · exact fresh_pure _ _
  · have := getElem?_lt hi
    exact at_bind (fresh_setGradFn (show Arity .clone 1 from rfl) (by simp; omega)) fun _ h3 _ => fresh_pure _ _

theorem fresh_applyBinary {k : Kernel F} {back : BackKind} (hb : Arity back 2)
    (hk : ∀ (L R : DType) (d l r : Impl), Keeps (Writes fun _ => True) (k L R d l r)) (l r : Nat) (o : Bool) :
    Keeps FreshK (Tensor.applyBinary k back l r o) := by
  unfold Tensor.applyBinary Tensor.applyNoGradBinary
  simp only [bind_assoc]
  refine keepsR_getT fun h li hl => at_getT fun ri hr => at_reads (keeps_lift _) fun range => ?_
  refine at_bind (fresh_of (fresh_create _ _ _) h) fun t h1 e => ?_
  have ht := create_idx e
  have tail : Keeps (F := F) FreshK (do
      let li ← getT l
      let ri ← getT r
      if !li.requiresGrad && !ri.requiresGrad then return t
      Tensor.setGradFn t back [l, r]
      return t) := by
    refine keeps_bind (keeps_getT _) fun _ => keeps_bind (keeps_getT _) fun _ => ?_
    split
    · exact keeps_pure _
    · refine keeps_bind (fun h' => fresh_setGradFn hb ?_) fun _ => keeps_pure _
      have := getElem?_lt hl
      have := getElem?_lt hr
      simp; omega
  refine at_getT fun d hd => ?_
  split
  · split
    · rw [bind_assoc]; exact at_bind (fresh_of (fresh_writes (hk _ _ _ _ _)) h1) fun _ h2 _ => tail h2
    · rw [bind_assoc]; exact at_bind (fresh_of (fresh_writes (hk _ _ _ _ _)) h1) fun _ h2 _ => tail h2
  · rw [bind_assoc]; exact at_bind (fresh_of (fresh_writes (hk _ _ _ _ _)) h1) fun _ h2 _ => tail h2

theorem fresh_addT (l r : Nat) : Keeps (F := F) FreshK (addT l r) :=
  fresh_applyBinary (back := .add) rfl (fun _ _ _ _ _ => keeps_tensorAdd trivial _ _ _ _) l r false
theorem fresh_subT (l r : Nat) : Keeps (F := F) FreshK (subT l r) :=
  fresh_applyBinary (back := .sub) rfl (fun _ _ _ _ _ => keeps_tensorSub trivial _ _ _ _) l r true
theorem fresh_mulT (l r : Nat) : Keeps (F := F) FreshK (mulT l r) :=
  fresh_applyBinary (back := .mul) rfl (fun _ _ _ _ _ => keeps_tensorMul trivial _ _ _ _) l r false
theorem fresh_divT (l r : Nat) : Keeps (F := F) FreshK (divT l r) :=
  fresh_applyBinary (back := .div) rfl (fun _ _ _ _ _ => keeps_tensorDiv trivial _ _ _ _) l r true
theorem fresh_negT (t : Nat) : Keeps (F := F) FreshK (negT t) := by
  unfold negT
  exact keeps_bind (fresh_of (fresh_createScalar _ _)) fun z => fresh_subT _ _

theorem fresh_sumLike {k : DType → DType → Impl → Impl → M F Unit} {back : BackKind} (hb : Arity back 1)
    (hk : ∀ (T S : DType) (d l : Impl), Keeps (Writes fun _ => True) (k T S d l)) (t : Nat) :
    Keeps (F := F) FreshK (do
      let i ← getT t
      let tf ← zeros [] (sumType i.dtype)
      k (sumType i.dtype) i.dtype (← getT tf) i
      if i.requiresGrad then Tensor.setGradFn tf back [t]
      return tf) := by
  refine keepsR_getT fun h i hi => at_bind (fresh_of (fresh_zeros _ _) h) fun tf h1 e => ?_
  have hr := zeros_idx e
  have := getElem?_lt hi
  refine at_getT fun d hd => at_bind (fresh_of (fresh_writes (hk _ _ _ _)) h1) fun _ h2 _ => ?_
  split
  · exact at_bind (fresh_setGradFn hb (by simp; omega)) fun _ h3 _ => fresh_pure _ _
  · exact fresh_pure _ _

theorem fresh_sumT (t : Nat) : Keeps (F := F) FreshK (sumT t) := by
  unfold sumT
  exact fresh_sumLike (k := tensorSum) (back := .sum) rfl (fun _ _ _ _ => keeps_tensorSum trivial _ _ _) t
theorem fresh_meanT (t : Nat) : Keeps (F := F) FreshK (meanT t) := by
  unfold meanT
  exact fresh_sumLike (k := tensorMean) (back := .mean) rfl (fun _ _ _ _ => keeps_tensorMean trivial _ _ _) t

theorem fresh_absT (t : Nat) : Keeps (F := F) FreshK (absT t) := by
  unfold absT
  refine keepsR_getT fun h i hi => at_bind (fresh_of (fresh_create _ _ _) h) fun r h1 e => ?_
  have hr := create_idx e
  have := getElem?_lt hi
  split
  · refine at_getT fun d hd => at_bind (fresh_of (fresh_writes (keeps_tensorAbs trivial _ _ _ _ (by simp))) h1) fun _ h2 _ => fresh_pure _ _
  · refine at_bind (fresh_of (fresh_create _ _ _) h1) fun g h2 _ => at_getT fun d hd => at_getT fun d hd => ?_
    refine at_bind (fresh_of (fresh_writes (keeps_tensorAbs trivial _ _ _ _ (by simp))) h2) fun _ h3 _ => ?_
    exact at_bind (fresh_setGradFn (show Arity (.knownGrad g) 1 from rfl) (by simp; omega)) fun _ h3 _ => fresh_pure _ _

theorem fresh_extreme (c : COp) (t : Nat) : Keeps (F := F) FreshK (extreme c t) := by
  unfold extreme
  refine keepsR_getT fun h i hi => at_bind (fresh_of (fresh_zeros _ _) h) fun r h1 e => ?_
  have hr := zeros_idx e
  have := getElem?_lt hi
  split
  · refine at_getT fun d hd => at_bind (fresh_of (fresh_writes (keeps_tensorExtreme trivial _ _ _ _ (by simp))) h1) fun _ h2 _ => fresh_pure _ _
  · refine at_bind (fresh_of (fresh_zerosLike _) h1) fun g h2 _ => at_getT fun d hd => at_getT fun d hd => ?_
    refine at_bind (fresh_of (fresh_writes (keeps_tensorExtreme trivial _ _ _ _ (by simp))) h2) fun _ h3 _ => ?_
    exact at_bind (fresh_setGradFn (show Arity (.knownGrad g) 1 from rfl) (by simp; omega)) fun _ h3 _ => fresh_pure _ _

theorem fresh_catT (ts : List Nat) (d : Nat) : Keeps (F := F) FreshK (catT ts d) := by
  unfold catT
  cases ts with
  | nil => exact keeps_undef _
  | cons t0 rest =>
    refine keepsR_getT fun h i hi => at_reads (keeps_expect _) fun _ => ?_
    have hs := getAll_spec rest h
    refine at_bind (keeps_getAll rest h) fun others h1 e => ?_
    rw [e] at hs
    obtain ⟨rfl, hmap⟩ := hs
    refine at_reads (keeps_catCheck _ _ _) fun _ => ?_
    refine at_bind (fresh_of (fresh_create _ _ _) h1) fun r h2 e => ?_
    have hr := create_idx e
    refine at_getT fun j hj => at_bind (fresh_of (fresh_writes (keeps_catGo trivial _ _ _ _)) h2) fun _ h3 _ => ?_
    split
    · refine at_bind (fresh_setGradFn (show Arity (.cat d) _ from trivial) fun y hy => ?_) fun _ h3 _ => fresh_pure _ _
      refine Nat.lt_of_lt_of_le ?_ hr
      rcases List.mem_cons.1 hy with rfl | hy
      · exact getElem?_lt hi
      · have : h1.ts[y]? ∈ others.map some := hmap ▸ List.mem_map_of_mem hy
        obtain ⟨k, _, hk⟩ := List.mem_map.1 this
        exact getElem?_lt hk.symm
    · exact fresh_pure _ _

theorem fresh_ofInit (tree : InitTree F) : Keeps FreshK (ofInit tree) := by
  unfold ofInit
  refine keeps_bind (keeps_lift _) fun init => ?_
  unfold createImpl
  split
  · exact keeps_pure _
  · cases init.dtype with
    | none => exact keeps_undef _
    | some dt =>
      exact keeps_bind (fresh_of (fresh_create _ _ _)) fun t => keeps_bind (keeps_getT _) fun i => keeps_bind (keeps_getS _) fun s =>
        keeps_bind (fresh_of (fresh_setS _ _)) fun _ => keeps_pure _

theorem fresh_run (c : Call F) (hc : Builds c = true) : Keeps FreshK c.run := by
  have S : ∀ {x : M F Nat}, Keeps FreshK x → Keeps FreshK (some' x) := fun hx => keeps_bind hx fun _ => keeps_pure _
  have N : ∀ {α : Type} {x : M F α}, Keeps FreshK x → Keeps FreshK (none' x) := fun hx => keeps_bind hx fun _ => keeps_pure _
  cases c with
  | scalar dt v => exact S (fresh_of (fresh_createScalar _ _))
  | empty s dt => exact S (fresh_of (fresh_create _ _ _))
  | init tree => exact fresh_ofInit tree
  | ones s dt => exact S (fresh_of (fresh_ones _ _))
  | zeros s dt => exact S (fresh_of (fresh_zeros _ _))
  | onesLike t => exact S (fresh_of (fresh_onesLike _))
  | zerosLike t => exact S (fresh_of (fresh_zerosLike _))
  | fullInt s n dt => exact S (fresh_of (fresh_full _ _ _ _))
  | fullReal s n dt => exact S (fresh_of (fresh_full _ _ _ _))
  | eye n m dt => exact S (fresh_of (fresh_eye _ _ _))
  | fromBlob data s dt => exact S (fresh_of (fresh_fromBlob _ _ _))
  | randn rnd s dt => exact S (fresh_of (fresh_randn _ _ _))
  | randnLike rnd t => exact keeps_bind (keeps_getT _) fun i => S (fresh_of (fresh_randn _ _ _))
  | slice t s => exact S (fresh_slice _ _)
  | transpose t a b => exact S (fresh_transpose _ _ _)
  | reshape t s => exact S (fresh_reshape _ _)
  | reshapeAs t u => exact S (fresh_reshapeAs _ _)
  | detach t => exact S (fresh_of (fresh_detach _))
  | clone t => exact S (fresh_clone _)
  | contiguous t => exact S (fresh_clone _)
  | toType t dt => exact S (fresh_toType _ _)
  | add l r => exact S (fresh_addT _ _)
  | sub l r => exact S (fresh_subT _ _)
  | mul l r => exact S (fresh_mulT _ _)
  | div l r => exact S (fresh_divT _ _)
  | pos t => exact S (keeps_pure _)
  | neg t => exact S (fresh_negT _)
  | cmp o l r => exact S (fresh_of (fresh_cmp _ _ _))
  | sum t => exact S (fresh_sumT _)
  | mean t => exact S (fresh_meanT _)
  | abs t => exact S (fresh_absT _)
  | max t => exact S (fresh_extreme _ _)
  | min t => exact S (fresh_extreme _ _)
  | cat ts d => exact S (fresh_catT _ _)
  | addAssign t r => exact N (fresh_of (fresh_addAssign _ _))
  | setRequiresGrad t b =>
    cases b with
    | true => exact N (fresh_setRequiresGrad _)
    | false => cases hc
  | setRetainGrad t b => exact N (fresh_of (fresh_setRetainGrad _ _))
  | zeroGrad t => exact N (fresh_of (fresh_zeroGrad _))
  | release t => exact N (fresh_of (fresh_release _))
  | backward t => cases hc
  | grad t => exact keeps_gradOf _
  | all t => exact N (keeps_allT _)
  | toString t => exact N (keeps_toString _)
  | stride t => exact N (keeps_stride _)
  | query t => exact N (keeps_getT _)


theorem fresh_programs {h : Heap F} (hp : Program h) : Fresh h := by
  induction hp with
  | start => intro x i g hx; simp [Heap.empty] at hx
  | @returned h h' c t _ hc hr ih =>
    have := fresh_run c hc h
    rw [hr] at this
    exact this ih
  | @threw h h' c e _ hc hr ih =>
    have := fresh_run c hc h
    rw [hr] at this
    exact this ih

theorem Fresh.unused {h : Heap F} (hf : Fresh h) (t : Nat) : Unused h t := by
  intro x g _ _ hx
  unfold opOf at hx
  obtain ⟨i, hi, hg⟩ := Option.bind_eq_some_iff.1 hx
  refine ⟨(hf x i g hi hg).1, fun j hj => ?_⟩
  rw [hi] at hj
  obtain rfl := Option.some.inj hj
  exact (hf x i g hi hg).2

theorem program_history {h : Heap F} (hp : Program h) : History h := by
  induction hp with
  | start => exact .start
  | returned _ _ hr ih => exact .returned ih hr
  | threw _ _ hr ih => exact .threw ih hr

end INNC
