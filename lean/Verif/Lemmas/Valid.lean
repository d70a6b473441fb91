import Verif.Lemmas.Fresh
import Verif.Lemmas.BackFrame
/-
No call makes a tensor or a gradient that does not exist: handles of storages and gradients stay valid along every history.
(The same induction over the calls as in `GraphKeep`.)
-/
namespace INNC
open Spec Tensor
variable {F : Type}

/-- Every tensor has a storage, and every gradient exists. -/
structure Valid (h : Heap F) : Prop where
  data : ∀ (t : Nat) (i : Impl), h.ts[t]? = some i → i.data < h.st.length
  grad : ∀ (t g : Nat) (i : Impl), h.ts[t]? = some i → i.grad = some g → g < h.ts.length

/-- Storages and gradients are new or were used before. -/
structure VK (h h' : Heap F) : Prop where
  tlen : h.ts.length ≤ h'.ts.length
  slen : h.st.length ≤ h'.st.length
  keep : ∀ (t : Nat) (i : Impl), h.ts[t]? = some i → ∃ i', h'.ts[t]? = some i' ∧ i'.data = i.data
  data : ∀ (t : Nat) (i : Impl), h'.ts[t]? = some i → i.data < h'.st.length ∨ ∃ (u : Nat) (j : Impl), h.ts[u]? = some j ∧ j.data = i.data
  grad : ∀ (t g : Nat) (i : Impl), h'.ts[t]? = some i → i.grad = some g →
    g < h'.ts.length ∨ ∃ (u : Nat) (j : Impl), h.ts[u]? = some j ∧ j.grad = some g

instance : Pre (F := F) VK where
  refl _ := ⟨Nat.le_refl _, Nat.le_refl _, fun t i hi => ⟨i, hi, rfl⟩, fun t i hi => .inr ⟨t, i, hi, rfl⟩, fun t g i hi hg => .inr ⟨t, i, hi, hg⟩⟩
  trans h1 h2 := ⟨Nat.le_trans h1.tlen h2.tlen, Nat.le_trans h1.slen h2.slen, fun t i hi => by
      obtain ⟨j, hj, e⟩ := h1.keep t i hi
      obtain ⟨k, hk, e'⟩ := h2.keep t j hj
      exact ⟨k, hk, e'.trans e⟩, fun t i hi => by
      rcases h2.data t i hi with h | ⟨u, j, hj, e⟩
      · exact .inl h
      · rcases h1.data u j hj with h | ⟨v, k, hk, e'⟩
        · exact .inl (by have := h2.slen; omega)
        · exact .inr ⟨v, k, hk, e'.trans e⟩, fun t g i hi hg => by
      rcases h2.grad t g i hi hg with h | ⟨u, j, hj, e⟩
      · exact .inl h
      · rcases h1.grad u g j hj e with h | ⟨v, k, hk, e'⟩
        · exact .inl (by have := h2.tlen; omega)
        · exact .inr ⟨v, k, hk, e'⟩⟩

theorem VK.valid {h h' : Heap F} (hk : VK h h') (hv : Valid h) : Valid h' where
  data := fun t i hi => by
    rcases hk.data t i hi with h | ⟨u, j, hj, e⟩
    · exact h
    · have := hv.data u j hj; have := hk.slen; omega
  grad := fun t g i hi hg => by
    rcases hk.grad t g i hi hg with h | ⟨u, j, hj, e⟩
    · exact h
    · have := hv.grad u g j hj e; have := hk.tlen; omega

theorem valid_of_ts {h h' : Heap F} (ht : h'.ts = h.ts) (hs : h.st.length ≤ h'.st.length) : VK h h' :=
  ⟨by rw [ht], hs, fun t i hi => ⟨i, ht ▸ hi, rfl⟩, fun t i hi => .inr ⟨t, i, ht ▸ hi, rfl⟩, fun t g i hi hg => .inr ⟨t, i, ht ▸ hi, hg⟩⟩

theorem valid_set {h : Heap F} {x : Nat} {i k : Impl} (hi : h.ts[x]? = some i) (hd : k.data = i.data)
    (hg : k.grad = i.grad ∨ ∀ g, k.grad = some g → g < h.ts.length) : VK h { h with ts := h.ts.set x k } := by
  refine ⟨by simp, Nat.le_refl _, fun y j hj => ?_, fun y j hj => ?_, fun y g j hj hjg => ?_⟩
  · simp only
    by_cases hxy : x = y
    · subst hxy
      rw [hi] at hj
      obtain rfl := Option.some.inj hj
      exact ⟨k, List.getElem?_set_self (getElem?_lt hi), hd⟩
    · exact ⟨j, by rw [List.getElem?_set_ne hxy]; exact hj, rfl⟩
  · simp only at hj
    by_cases hxy : x = y
    · subst hxy
      rw [List.getElem?_set_self (getElem?_lt hi)] at hj
      obtain rfl := Option.some.inj hj
      exact .inr ⟨x, i, hi, hd.symm⟩
    · rw [List.getElem?_set_ne hxy] at hj
      exact .inr ⟨y, j, hj, rfl⟩
  · simp only at hj
    by_cases hxy : x = y
    · subst hxy
      rw [List.getElem?_set_self (getElem?_lt hi)] at hj
      obtain rfl := Option.some.inj hj
      rcases hg with hg | hg
      · exact .inr ⟨x, i, hi, hg ▸ hjg⟩
      · exact .inl (by simpa using hg g hjg)
    · rw [List.getElem?_set_ne hxy] at hj
      exact .inr ⟨y, j, hj, hjg⟩

theorem valid_new {h : Heap F} {i : Impl} (hi : i.grad = none) (hd : i.data < h.st.length ∨ ∃ (u : Nat) (j : Impl), h.ts[u]? = some j ∧ j.data = i.data) :
    VK h { h with ts := h.ts ++ [i] } := by
  have key : ∀ (x : Nat) (j : Impl), (h.ts ++ [i])[x]? = some j → h.ts[x]? = some j ∨ j = i := fun x j hj => by
    by_cases hlt : x < h.ts.length
    · rw [List.getElem?_append_left hlt] at hj
      exact .inl hj
    · rw [List.getElem?_append_right (by omega)] at hj
      cases hk : x - h.ts.length with
      | zero => rw [hk] at hj; exact .inr (by simpa using hj.symm)
      | succ n => rw [hk] at hj; simp at hj
  refine ⟨by simp, Nat.le_refl _, fun x j hj => ⟨j, by simp only; rw [List.getElem?_append_left (getElem?_lt hj)]; exact hj, rfl⟩,
    fun x j hj => ?_, fun x g j hj hg => ?_⟩
  · rcases key x j hj with hj | rfl
    · exact .inr ⟨x, j, hj, rfl⟩
    · exact hd
  · rcases key x j hj with hj | rfl
    · exact .inr ⟨x, j, hj, hg⟩
    · rw [hi] at hg; simp at hg

theorem validat {α β : Type} {x : M F α} {f : α → M F β} {h : Heap F} (hx : Keeps VK x) (hf : ∀ a h', x h = .ok a h' → KeepsAt VK (f a) h') :
    KeepsAt VK (x >>= f) h := at_bind (hx h) hf

theorem valid_writes {α : Type} {x : M F α} (hx : Keeps (Writes fun _ => True) x) : Keeps VK x :=
  keeps_mono hx fun _ _ h => valid_of_ts h.ts (by rw [h.len])

theorem valid_newS (s : Storage F) : Keeps VK (newS s) := fun _ => valid_of_ts rfl (by simp)
theorem valid_setS (d : Nat) (s : Storage F) : Keeps VK (setS d s) := fun _ => valid_of_ts rfl (by simp)
theorem valid_createOn {dt : DType} {v : Layout} {d : Nat} {h : Heap F} (hd : d < h.st.length ∨ ∃ (u : Nat) (j : Impl), h.ts[u]? = some j ∧ j.data = d) :
    KeepsAt (F := F) VK (createOn dt v d) h := valid_new rfl hd
theorem valid_create (dt : DType) (v : Layout) (b : Bool) : Keeps (F := F) VK (create dt v b) := by
  unfold create mkStorage
  have key : ∀ s : Storage F, Keeps VK (newS s >>= fun d => createOn dt v d) := fun s h =>
    validat (valid_newS s) fun d h' e => valid_createOn (by cases e; simp)
  split
  · split
    · exact key _
    · exact fun h => Pre.refl (R := VK) h
  · exact key _
theorem create_lt {dt : DType} {v : Layout} {b : Bool} {h h' : Heap F} {r : Nat} (e : create dt v b h = .ok r h') : r < h'.ts.length := by
  have := create_made (dt := dt) (v := v) (b := b) h
  rw [e] at this
  obtain ⟨_, _, j, hj, _⟩ := this
  exact getElem?_lt hj
theorem valid_allocS (d : Nat) : Keeps (F := F) VK (allocS d) := by
  unfold allocS
  refine keeps_bind (keeps_getS _) fun s => ?_
  split
  · exact valid_setS _ _
  · exact keeps_raise _

variable [FOps F]

theorem valid_zeroS (d : Nat) : Keeps (F := F) VK (zeroS d) := valid_writes (keeps_zeroS trivial)
theorem valid_createScalar (dt : DType) (v : Val F) : Keeps VK (createScalar dt v) := by
  unfold createScalar
  refine keeps_bind (valid_create _ _ _) fun t => keeps_bind (keeps_getT _) fun i => ?_
  exact keeps_bind (valid_writes (keeps_store trivial _ _ _)) fun _ => keeps_pure _
theorem valid_full (s : List Nat) (n : DType) (v : Val F) (dt : DType) : Keeps VK (full s n v dt) := by
  unfold full
  refine keeps_bind (valid_createScalar _ _) fun t => keeps_bind (valid_create _ _ _) fun r => keeps_bind (keeps_getT _) fun i =>
    keeps_bind (keeps_getT _) fun i => ?_
  exact keeps_bind (valid_writes (keeps_tensorFill trivial _ _ _)) fun _ => keeps_pure _
theorem valid_ones (s : List Nat) (dt : DType) : Keeps (F := F) VK (ones s dt) := valid_full s .i8 (.i 1) dt
theorem valid_zeros (s : List Nat) (dt : DType) : Keeps (F := F) VK (zeros s dt) := by
  unfold zeros
  refine keeps_bind (valid_create _ _ _) fun r => keeps_bind (keeps_getT _) fun i => ?_
  exact keeps_bind (valid_zeroS _) fun _ => keeps_pure _
theorem valid_onesLike (t : Nat) : Keeps (F := F) VK (onesLike t) := by
  unfold onesLike
  exact keeps_bind (keeps_getT _) fun i => valid_ones _ _
theorem valid_zerosLike (t : Nat) : Keeps (F := F) VK (zerosLike t) := by
  unfold zerosLike
  exact keeps_bind (keeps_getT _) fun i => valid_zeros _ _
theorem valid_eye (n m : Nat) (dt : DType) : Keeps (F := F) VK (eye n m dt) := by
  unfold eye
  refine keeps_bind (valid_create _ _ _) fun r => keeps_bind (keeps_getT _) fun i => ?_
  refine keeps_bind (valid_zeroS _) fun _ => ?_
  exact keeps_bind (valid_writes (keeps_tensorEye trivial _)) fun _ => keeps_pure _
theorem valid_fromBlob (data : List (Val F)) (s : List Nat) (dt : DType) : Keeps VK (fromBlob data s dt) := by
  unfold fromBlob
  refine keeps_bind (valid_create _ _ _) fun r => keeps_bind (keeps_getT _) fun i => ?_
  simp only
  split
  · exact keeps_bind (keeps_undef _) fun _ => keeps_pure _
  · exact keeps_bind (valid_writes (keeps_blobGo trivial _ _ _)) fun _ => keeps_pure _
theorem valid_randn (rnd : Nat → F) (s : List Nat) (dt : DType) : Keeps VK (randn rnd s dt) := by
  unfold randn
  refine keeps_bind (keeps_expect _) fun _ => keeps_bind (valid_create _ _ _) fun r => keeps_bind (keeps_getT _) fun i =>
    keeps_bind (keeps_getS _) fun st => ?_
  exact keeps_bind (valid_writes (keeps_randGo trivial _ _ _ _)) fun _ => keeps_pure _
theorem valid_detach (t : Nat) : Keeps (F := F) VK (detach t) := by
  unfold detach
  exact keepsR_getT fun h i hi => valid_createOn (.inr ⟨t, i, hi, rfl⟩)
theorem valid_applyNoGradBinary {k : Kernel F}
    (hk : ∀ (L R : DType) (d l r : Impl), Keeps (Writes fun _ => True) (k L R d l r)) (l r : Nat) (o : Bool) :
    Keeps VK (applyNoGradBinary k l r o) := by
  unfold applyNoGradBinary
  refine keeps_bind (keeps_getT _) fun li => keeps_bind (keeps_getT _) fun ri => keeps_bind (keeps_lift _) fun range =>
    keeps_bind (valid_create _ _ _) fun t => keeps_bind (keeps_getT _) fun d => ?_
  have key : ∀ (L R : DType) (a b : Impl), Keeps VK (k L R d a b >>= fun _ => (pure t : M F Nat)) := fun L R a b =>
    keeps_bind (valid_writes (hk _ _ _ _ _)) fun _ => keeps_pure _
  split
  · split
    · exact key _ _ _ _
    · exact key _ _ _ _
  · exact key _ _ _ _
theorem valid_cmp (op : COp) (l r : Nat) : Keeps (F := F) VK (Tensor.cmp op l r) := by
  unfold Tensor.cmp
  refine keeps_bind (keeps_getT _) fun li => keeps_bind (keeps_getT _) fun ri => keeps_bind (keeps_lift _) fun range =>
    keeps_bind (valid_create _ _ _) fun t => keeps_bind (keeps_getT _) fun d => ?_
  exact keeps_bind (valid_writes (keeps_tensorCmp trivial _ _ _ _ _)) fun _ => keeps_pure _
theorem valid_addAssign (t r : Nat) : Keeps (F := F) VK (addAssign t r) := by
  unfold addAssign
  refine keeps_bind (keeps_getT _) fun i => keeps_bind (keeps_expect _) fun _ => keeps_bind (keeps_getT _) fun j => ?_
  exact valid_writes (keeps_tensorAdd trivial _ _ _ _)
theorem valid_zeroGrad (t : Nat) : Keeps (F := F) VK (zeroGrad t) := by
  unfold zeroGrad
  refine keeps_bind (keeps_getT _) fun i => ?_
  cases i.grad with
  | none => exact keeps_pure _
  | some g => exact keeps_bind (keeps_getT _) fun i => valid_zeroS _
omit [FOps F] in
theorem valid_release (t : Nat) : Keeps (F := F) VK (release t) := by
  unfold release releaseS
  exact keeps_bind (keeps_getT _) fun i => keeps_bind (keeps_getS _) fun s => valid_setS _ _
omit [FOps F] in
theorem valid_setRequiresGrad (t : Nat) (b : Bool) : Keeps (F := F) VK (setRequiresGrad t b) := by
  unfold setRequiresGrad
  refine keeps_bind (keeps_getT _) fun i => ?_
  have key : Keeps (F := F) VK (getT t >>= fun i => setT t { i with requiresGrad := b }) :=
    keepsR_getT fun h i hi => valid_set hi rfl (.inl rfl)
  split
  · exact keeps_bind (keeps_expect _) fun _ => key
  · exact key
omit [FOps F] in
theorem valid_setRetainGrad (t : Nat) (b : Bool) : Keeps (F := F) VK (setRetainGrad t b) := by
  unfold setRetainGrad
  exact keepsR_getT fun h i hi => valid_set hi rfl (.inl rfl)

omit [FOps F] in
theorem valid_shareGradStorage (dst frm : Nat) : Keeps (F := F) VK (shareGradStorage dst frm) := by
  unfold shareGradStorage
  have tail : ∀ g : Nat, Keeps (F := F) VK (do
      let gi ← getT g
      let t ← getT dst
      let g' ← createOn t.dtype t.view gi.data
      let t ← getT dst
      setT dst { t with grad := some g' }) := fun g =>
    keepsR_getT fun h gi hgi => at_getT fun t ht => at_bind (valid_createOn (.inr ⟨g, gi, hgi, rfl⟩)) fun g' h' e =>
      at_getT fun j hj => valid_set hj rfl (.inr fun k hk => by cases hk; cases e; simp)
  refine keeps_bind (keeps_getT _) fun f => ?_
  cases f.grad with
  | some g => exact tail g
  | none =>
    intro h
    refine validat (valid_create _ _ _) fun g h' e => ?_
    exact at_getT fun i hi => at_bind (valid_set hi rfl (.inr fun k hk => by cases hk; exact create_lt e)) fun _ h'' _ => tail g h''

section
omit [FOps F]
theorem valid_setGradFn (t : Nat) (kind : BackKind) (inputs : List Nat) : Keeps (F := F) VK (setGradFn t kind inputs) := by
  unfold setGradFn
  exact keepsR_getT fun h i hi => valid_set hi rfl (.inl rfl)

theorem valid_makeView {dt : DType} {v : Layout} {d base : Nat} {h : Heap F} (hd : ∃ (u : Nat) (j : Impl), h.ts[u]? = some j ∧ j.data = d) :
    KeepsAt VK (makeView dt v d base) h := by
  unfold makeView
  refine at_bind (valid_createOn (.inr hd)) fun r h1 e => ?_
  refine at_getT fun i hi => ?_
  split
  · exact (keeps_pure r : Keeps VK _) h1
  · refine at_bind (valid_setGradFn _ _ _ h1) fun _ h2 _ => ?_
    exact keeps_bind (valid_shareGradStorage _ _) (fun _ => (keeps_pure r : Keeps VK _)) h2
theorem valid_slice (t : Nat) (s : Str) : Keeps (F := F) VK (Tensor.slice t s) := by
  unfold Tensor.slice
  refine keepsR_getT fun h i hi => at_bind (keeps_lift _ h) fun v h' e => ?_
  have : h' = h := by
    unfold M.lift at e; split at e <;> cases e; rfl
  subst this
  exact valid_makeView ⟨t, i, hi, rfl⟩

theorem valid_transpose (t a b : Nat) : Keeps (F := F) VK (Tensor.transpose t a b) := by
  unfold Tensor.transpose
  refine keepsR_getT fun h i hi => at_bind (keeps_lift _ h) fun v h' e => ?_
  have : h' = h := by
    unfold M.lift at e; split at e <;> cases e; rfl
  subst this
  exact valid_makeView ⟨t, i, hi, rfl⟩
theorem valid_pure {α : Type} (a : α) (h : Heap F) : KeepsAt VK (pure a : M F α) h := (keeps_pure a : Keeps VK _) h
end

theorem valid_clone (t : Nat) : Keeps (F := F) VK (Tensor.clone t) := by
  unfold Tensor.clone
  refine keepsR_getT fun h i hi => ?_
  refine at_bind ((valid_create _ _ _) h) fun r h1 e => ?_
  have hr := create_idx e
  refine at_getT fun d hd => at_bind ((valid_writes (keeps_copyLoop trivial _ _ _)) h1) fun _ h2 _ => ?_
  split
  · exact valid_pure _ _
  · have := getElem?_lt hi
    exact at_bind (valid_setGradFn _ _ _ _) fun _ h3 _ => valid_pure _ _

theorem valid_reshapeSizes (t : Nat) (s : List Nat) : Keeps (F := F) VK (Tensor.reshapeSizes t s) := by
  unfold Tensor.reshapeSizes
  dsimp only
  refine keepsR_getT fun h i hi => ?_
  refine at_reads (keeps_expect _) fun _ => ?_
  have rest : ∀ H : Heap F, (∃ (u : Nat) (j : Impl), H.ts[u]? = some j ∧ j.data = i.data) → KeepsAt VK (if i.view.sizes.length < i.view.strides.length then M.undef .vecOob
    else do
    let iso ← M.lift (isometry i.view.sizes i.view.strides)
    if iso then
      let strides ← if s.length ≠ 0 then do
          let last ← M.lift (vecAt i.view.strides (i.view.strides.length - 1))
          pure (scaledStrides last s)
        else pure i.view.strides
      Tensor.makeView i.dtype ⟨s, strides, i.view.offset⟩ i.data t
    else do
      let m ← Tensor.clone t
      let mi ← getT m
      Tensor.makeView i.dtype (Layout.contig s) mi.data m : M F Nat) H := by
    intro H hle
    split
    · trivial
    refine at_reads (keeps_lift _) fun iso => ?_
    split
    · dsimp only
      split
      · exact at_reads (keeps_lift _) fun _ => valid_makeView hle
      · exact valid_makeView hle
    · refine at_bind (valid_clone t H) fun m h4 _ => at_getT fun mi hmi => ?_
      exact valid_makeView ⟨m, mi, hmi, rfl⟩
  split
  · have hm := valid_makeView (dt := i.dtype) (v := ⟨s, List.replicate s.length 1, i.view.offset⟩) (d := i.data) (base := t) ⟨t, i, hi, rfl⟩
    refine at_bind hm fun r h3 e => ?_
    unfold KeepsAt at hm
    rw [e] at hm
    obtain ⟨i', hi', e'⟩ := hm.keep t i hi
    cases hq : i.requiresGrad
    · exact valid_pure _ _
    · exact rest h3 ⟨t, i', hi', e'⟩
  · exact rest h ⟨t, i, hi, rfl⟩

theorem valid_reshape (t : Nat) (s : List Int) : Keeps (F := F) VK (Tensor.reshape t s) := by
  unfold Tensor.reshape
  exact keeps_bind (keeps_getT _) fun i => keeps_bind (keeps_lift _) fun z => valid_reshapeSizes t z

theorem valid_reshapeAs (t u : Nat) : Keeps (F := F) VK (Tensor.reshapeAs t u) := by
  unfold Tensor.reshapeAs
  exact keeps_bind (keeps_getT _) fun i => valid_reshapeSizes t _

theorem valid_toType (t : Nat) (dt : DType) : Keeps (F := F) VK (Tensor.toType t dt) := by
  unfold Tensor.toType
  refine keepsR_getT fun h i hi => ?_
  split
  · exact (keeps_raise _ : Keeps VK (M.raise .runtime : M F Nat)) h
  split
  · exact valid_pure _ _
  refine at_bind ((valid_create _ _ _) h) fun r h1 e => ?_
  have hr := create_idx e
  refine at_getT fun d hd => at_bind ((valid_writes (keeps_copyLoop trivial _ _ _)) h1) fun _ h2 _ => ?_
  split
  · exact valid_pure _ _
  · have := getElem?_lt hi
    exact at_bind (valid_setGradFn _ _ _ _) fun _ h3 _ => valid_pure _ _

theorem valid_applyBinary {k : Kernel F} {back : BackKind} (hb : Arity back 2)
    (hk : ∀ (L R : DType) (d l r : Impl), Keeps (Writes fun _ => True) (k L R d l r)) (l r : Nat) (o : Bool) :
    Keeps VK (Tensor.applyBinary k back l r o) := by
  unfold Tensor.applyBinary Tensor.applyNoGradBinary
  simp only [bind_assoc]
  refine keepsR_getT fun h li hl => at_getT fun ri hr => at_reads (keeps_lift _) fun range => ?_
  refine at_bind ((valid_create _ _ _) h) fun t h1 e => ?_
  have ht := create_idx e
  have tail : Keeps (F := F) VK (do
      let li ← getT l
      let ri ← getT r
      if !li.requiresGrad && !ri.requiresGrad then return t
      Tensor.setGradFn t back [l, r]
      return t) := by
    refine keeps_bind (keeps_getT _) fun _ => keeps_bind (keeps_getT _) fun _ => ?_
    split
    · exact keeps_pure _
    · exact keeps_bind (valid_setGradFn _ _ _) fun _ => keeps_pure _
  refine at_getT fun d hd => ?_
  split
  · split
    · rw [bind_assoc]; exact at_bind ((valid_writes (hk _ _ _ _ _)) h1) fun _ h2 _ => tail h2
    · rw [bind_assoc]; exact at_bind ((valid_writes (hk _ _ _ _ _)) h1) fun _ h2 _ => tail h2
  · rw [bind_assoc]; exact at_bind ((valid_writes (hk _ _ _ _ _)) h1) fun _ h2 _ => tail h2

theorem valid_addT (l r : Nat) : Keeps (F := F) VK (addT l r) :=
  valid_applyBinary (back := .add) rfl (fun _ _ _ _ _ => keeps_tensorAdd trivial _ _ _ _) l r false
theorem valid_subT (l r : Nat) : Keeps (F := F) VK (subT l r) :=
  valid_applyBinary (back := .sub) rfl (fun _ _ _ _ _ => keeps_tensorSub trivial _ _ _ _) l r true
theorem valid_mulT (l r : Nat) : Keeps (F := F) VK (mulT l r) :=
  valid_applyBinary (back := .mul) rfl (fun _ _ _ _ _ => keeps_tensorMul trivial _ _ _ _) l r false
theorem valid_divT (l r : Nat) : Keeps (F := F) VK (divT l r) :=
  valid_applyBinary (back := .div) rfl (fun _ _ _ _ _ => keeps_tensorDiv trivial _ _ _ _) l r true
theorem valid_negT (t : Nat) : Keeps (F := F) VK (negT t) := by
  unfold negT
  exact keeps_bind ((valid_createScalar _ _)) fun z => valid_subT _ _

theorem valid_sumLike {k : DType → DType → Impl → Impl → M F Unit} {back : BackKind} (hb : Arity back 1)
    (hk : ∀ (T S : DType) (d l : Impl), Keeps (Writes fun _ => True) (k T S d l)) (t : Nat) :
    Keeps (F := F) VK (do
      let i ← getT t
      let tf ← zeros [] (sumType i.dtype)
      k (sumType i.dtype) i.dtype (← getT tf) i
      if i.requiresGrad then Tensor.setGradFn tf back [t]
      return tf) := by
  refine keepsR_getT fun h i hi => at_bind ((valid_zeros _ _) h) fun tf h1 e => ?_
  have hr := zeros_idx e
  have := getElem?_lt hi
  refine at_getT fun d hd => at_bind ((valid_writes (hk _ _ _ _)) h1) fun _ h2 _ => ?_
  split
  · exact at_bind (valid_setGradFn _ _ _ _) fun _ h3 _ => valid_pure _ _
  · exact valid_pure _ _

theorem valid_sumT (t : Nat) : Keeps (F := F) VK (sumT t) := by
  unfold sumT
  exact valid_sumLike (k := tensorSum) (back := .sum) rfl (fun _ _ _ _ => keeps_tensorSum trivial _ _ _) t
theorem valid_meanT (t : Nat) : Keeps (F := F) VK (meanT t) := by
  unfold meanT
  exact valid_sumLike (k := tensorMean) (back := .mean) rfl (fun _ _ _ _ => keeps_tensorMean trivial _ _ _) t

theorem valid_absT (t : Nat) : Keeps (F := F) VK (absT t) := by
  unfold absT
  refine keepsR_getT fun h i hi => at_bind ((valid_create _ _ _) h) fun r h1 e => ?_
  have hr := create_idx e
  have := getElem?_lt hi
  split
  · refine at_getT fun d hd => at_bind ((valid_writes (keeps_tensorAbs trivial _ _ _ _ (by simp))) h1) fun _ h2 _ => valid_pure _ _
  · refine at_bind ((valid_create _ _ _) h1) fun g h2 _ => at_getT fun d hd => at_getT fun d hd => ?_
    refine at_bind ((valid_writes (keeps_tensorAbs trivial _ _ _ _ (by simp))) h2) fun _ h3 _ => ?_
    exact at_bind (valid_setGradFn _ _ _ _) fun _ h3 _ => valid_pure _ _

theorem valid_extreme (c : COp) (t : Nat) : Keeps (F := F) VK (extreme c t) := by
  unfold extreme
  refine keepsR_getT fun h i hi => at_bind ((valid_zeros _ _) h) fun r h1 e => ?_
  have hr := zeros_idx e
  have := getElem?_lt hi
  split
  · refine at_getT fun d hd => at_bind ((valid_writes (keeps_tensorExtreme trivial _ _ _ _ (by simp))) h1) fun _ h2 _ => valid_pure _ _
  · refine at_bind ((valid_zerosLike _) h1) fun g h2 _ => at_getT fun d hd => at_getT fun d hd => ?_
    refine at_bind ((valid_writes (keeps_tensorExtreme trivial _ _ _ _ (by simp))) h2) fun _ h3 _ => ?_
    exact at_bind (valid_setGradFn _ _ _ _) fun _ h3 _ => valid_pure _ _

theorem valid_catT (ts : List Nat) (d : Nat) : Keeps (F := F) VK (catT ts d) := by
  unfold catT
  cases ts with
  | nil => exact keeps_undef _
  | cons t0 rest =>
    refine keepsR_getT fun h i hi => at_reads (keeps_expect _) fun _ => ?_
    have hs := getAll_spec rest h
    refine at_bind (keeps_getAll rest h) fun others h1 e => ?_
    rw [e] at hs
    obtain ⟨rfl, hmap⟩ := hs
    refine at_reads (keeps_catCheck _ _ _) fun _ => ?_
    refine at_bind ((valid_create _ _ _) h1) fun r h2 e => ?_
    have hr := create_idx e
    refine at_getT fun j hj => at_bind ((valid_writes (keeps_catGo trivial _ _ _ _)) h2) fun _ h3 _ => ?_
    split
    · exact at_bind (valid_setGradFn _ _ _ _) fun _ h3 _ => valid_pure _ _
    · exact valid_pure _ _

theorem valid_ofInit (tree : InitTree F) : Keeps VK (ofInit tree) := by
  unfold ofInit
  refine keeps_bind (keeps_lift _) fun init => ?_
  unfold createImpl
  split
  · exact keeps_pure _
  · cases init.dtype with
    | none => exact keeps_undef _
    | some dt =>
      exact keeps_bind ((valid_create _ _ _)) fun t => keeps_bind (keeps_getT _) fun i => keeps_bind (keeps_getS _) fun s =>
        keeps_bind ((valid_setS _ _)) fun _ => keeps_pure _

theorem valid_tryAccUpdate (p : Nat) : Keeps (F := F) VK (tryAccUpdate p) := by
  unfold tryAccUpdate
  refine keepsR_getT fun h i hi => ?_
  have rest : Keeps VK (match i.grad with
    | none => do
      let g ← INNC.create i.dtype i.view true
      let i ← getT p
      INNC.setT p { i with grad := some g }
      let gi ← getT g
      zeroS gi.data
    | some g => do
      let gi ← getT g
      let al ← isAllocS gi.data
      if !al then do
        INNC.allocS gi.data
        zeroS gi.data
      else pure () : M F Unit) := by
    cases i.grad with
    | none =>
      intro h
      refine validat (valid_create _ _ _) fun g h' e => at_getT fun j hj => ?_
      refine at_bind (valid_set hj rfl (.inr fun k hk => by cases hk; exact create_lt e)) fun _ h'' _ => ?_
      exact (keeps_bind (keeps_getT _) fun _ => valid_zeroS _ : Keeps VK (getT g >>= fun gi => zeroS gi.data)) h''
    | some g =>
      refine keeps_bind (keeps_getT _) fun gi => keeps_bind (keeps_isAllocS _) fun al => ?_
      split
      · exact keeps_bind (valid_allocS _) fun _ => valid_zeroS _
      · exact keeps_pure _
  split
  · exact (keeps_pure () : Keeps VK _) h
  · cases hg : i.gradFn with
    | none => exact rest h
    | some g =>
      refine at_bind ?_ fun _ h' _ => rest h'
      exact valid_set hi rfl (.inl rfl)

theorem valid_mulAddF (d a b : Nat) : Keeps (F := F) VK (mulAddF d a b) := by
  unfold mulAddF
  refine keeps_bind (keeps_getT _) fun i => keeps_bind (keeps_getT _) fun i => keeps_bind (keeps_getT _) fun i => ?_
  split
  · exact valid_writes (keeps_tensorMulAccF trivial _ _ _ _ _)
  · exact keeps_undef _

theorem valid_tryAccGrad (p : Nat) (w o : Option Nat) : Keeps (F := F) VK (tryAccGrad p w o) := by
  unfold tryAccGrad
  refine keeps_bind (keeps_getT _) fun i => ?_
  split
  · exact keeps_pure _
  refine keeps_bind (valid_tryAccUpdate p) fun _ => ?_
  cases w with
  | none => cases o with
    | none => exact keeps_pure _
    | some o => exact keeps_undef _
  | some w => cases o with
    | none => exact keeps_bind (keeps_derefGrad _) fun g => valid_addAssign _ _
    | some o =>
      refine keeps_bind (keeps_getT _) fun wi => keeps_bind (keeps_derefGrad _) fun g => ?_
      split
      · exact valid_mulAddF _ _ _
      · exact valid_mulAddF _ _ _

theorem valid_catBackGo (t dim : Nat) : ∀ (xs : List Nat) (s : Nat), Keeps (F := F) VK (catBackGo t dim s xs)
  | [], _ => keeps_pure _
  | x :: xs, s => by
    unfold catBackGo
    refine keeps_bind (keeps_getT _) fun i => keeps_bind (keeps_getT _) fun i => keeps_bind (keeps_lift _) fun i =>
      keeps_bind (keeps_derefGrad _) fun g => keepsR_getT fun h gi hgi => at_bind (valid_createOn (.inr ⟨g, gi, hgi, rfl⟩)) fun r h' _ => ?_
    exact (keeps_bind (valid_tryAccGrad _ _ _) fun _ => keeps_bind (keeps_getT _) fun i => keeps_bind (keeps_lift _) fun i =>
      valid_catBackGo t dim xs _ : Keeps VK (do
        tryAccGrad x (some r) none
        let xi ← getT x
        let d ← M.lift (vecAt xi.view.sizes dim)
        catBackGo t dim (wrapU (s + d)) xs)) h'

theorem valid_divBackNum (d a b : Nat) : Keeps (F := F) VK (divBackNum d a b) := by
  unfold divBackNum
  refine keeps_bind (keeps_getT _) fun i => keeps_bind (keeps_getT _) fun i => keeps_bind (keeps_getT _) fun i => ?_
  split
  · exact valid_writes (keeps_tensorDivBackNum trivial _ _ _ _ _)
  · exact keeps_undef _

theorem valid_divBackDen (t d : Nat) : Keeps (F := F) VK (divBackDen t d) := by
  unfold divBackDen
  refine keeps_bind (keeps_getT _) fun i => keeps_bind (keeps_getT _) fun i => ?_
  split
  · refine keeps_bind (keeps_derefGrad _) fun i => keeps_bind (keeps_derefGrad _) fun i => keeps_bind (keeps_getT _) fun i =>
      keeps_bind (keeps_getT _) fun i => ?_
    exact valid_writes (keeps_tensorDivBackDen trivial _ _ _ _ _)
  · exact keeps_undef _

theorem valid_stepBack (t : Nat) (g : GradFn) : Keeps (F := F) VK (stepBack t g) := by
  unfold stepBack
  cases g.kind with
  | add =>
    refine keeps_bind (keeps_inputAt _ _) fun a => keeps_bind (keeps_derefGrad _) fun o => keeps_bind (valid_tryAccGrad _ _ _) fun _ => ?_
    exact keeps_bind (keeps_inputAt _ _) fun a => keeps_bind (keeps_derefGrad _) fun o => valid_tryAccGrad _ _ _
  | sub =>
    refine keeps_bind (keeps_inputAt _ _) fun a => keeps_bind (keeps_derefGrad _) fun o => keeps_bind (valid_tryAccGrad _ _ _) fun _ => ?_
    exact keeps_bind (valid_createScalar _ _) fun m => keeps_bind (keeps_inputAt _ _) fun a => keeps_bind (keeps_derefGrad _) fun o => valid_tryAccGrad _ _ _
  | mul =>
    refine keeps_bind (keeps_inputAt _ _) fun a => keeps_bind (keeps_inputAt _ _) fun b => keeps_bind (keeps_derefGrad _) fun o => keeps_bind (valid_tryAccGrad _ _ _) fun _ => ?_
    exact keeps_bind (keeps_inputAt _ _) fun a => keeps_bind (keeps_inputAt _ _) fun b => keeps_bind (keeps_derefGrad _) fun o => valid_tryAccGrad _ _ _
  | div =>
    refine keeps_bind (keeps_inputAt _ _) fun a => keeps_bind (keeps_inputAt _ _) fun b => keeps_bind (valid_tryAccUpdate _) fun _ => ?_
    refine keeps_bind (keeps_derefGrad _) fun o => keeps_bind (keeps_derefGrad _) fun o => keeps_bind (valid_divBackNum _ _ _) fun _ => ?_
    exact keeps_bind (valid_tryAccUpdate _) fun _ => valid_divBackDen _ _
  | sum =>
    refine keeps_bind (keeps_inputAt _ _) fun a => keeps_bind (valid_onesLike _) fun b => keeps_bind (keeps_derefGrad _) fun o => ?_
    exact valid_tryAccGrad _ _ _
  | mean =>
    refine keeps_bind (keeps_inputAt _ _) fun a => keeps_bind (keeps_getT _) fun b => keeps_bind (valid_full _ _ _ _) fun o => ?_
    exact valid_tryAccGrad _ _ _
  | noBack =>
    exact keeps_bind (keeps_inputAt _ _) fun a => valid_tryAccGrad _ _ _
  | clone =>
    exact keeps_bind (keeps_inputAt _ _) fun a => keeps_bind (keeps_derefGrad _) fun o => valid_tryAccGrad _ _ _
  | cat dim => exact valid_catBackGo _ _ _ _
  | knownGrad k =>
    exact keeps_bind (keeps_inputAt _ _) fun a => keeps_bind (keeps_derefGrad _) fun o => valid_tryAccGrad _ _ _


theorem valid_setGF (x : Nat) (g : GradFn) : Keeps (F := F) VK (setGF x g) := by
  unfold setGF
  exact keepsR_getT fun h i hi => valid_set hi rfl (.inl rfl)

theorem valid_resetInputs : ∀ (l : List Nat), Keeps (F := F) VK (resetInputs l)
  | [] => keeps_pure _
  | x :: xs => by
    unfold resetInputs
    refine keeps_bind (keeps_getT _) fun i => keeps_bind keeps_getVersion fun v => ?_
    cases hg : i.gradFn with
    | none => exact valid_resetInputs xs
    | some g =>
      simp only
      split
      · exact keeps_bind (valid_setGF _ _) fun _ => keeps_bind (valid_resetInputs xs) fun _ => keeps_pure _
      · exact valid_resetInputs xs

theorem valid_countInputs : ∀ (l : List Nat), Keeps (F := F) VK (countInputs l)
  | [] => keeps_pure _
  | x :: xs => by
    unfold countInputs
    refine keeps_bind (keeps_getT _) fun i => keeps_bind keeps_getVersion fun v => ?_
    cases hg : i.gradFn with
    | none => exact valid_countInputs xs
    | some g =>
      simp only
      split
      · exact keeps_bind (valid_setGF _ _) fun _ => keeps_bind (valid_countInputs xs) fun _ => keeps_pure _
      · exact keeps_bind (valid_setGF _ _) fun _ => valid_countInputs xs

theorem valid_readyInputs : ∀ (l : List Nat), Keeps (F := F) VK (readyInputs l)
  | [] => keeps_pure _
  | x :: xs => by
    unfold readyInputs
    refine keeps_bind (keeps_getT _) fun i => keeps_bind keeps_getVersion fun v => ?_
    cases hg : i.gradFn with
    | none => exact valid_readyInputs xs
    | some g =>
      simp only
      split
      · exact keeps_bind (valid_setGF _ _) fun _ => keeps_bind (valid_readyInputs xs) fun _ => keeps_pure _
      · exact valid_readyInputs xs

theorem valid_queueLoop {visit : Nat → M F (List Nat)} (hv : ∀ x, Keeps VK (visit x)) : ∀ (n : Nat) (q : List Nat),
    Keeps VK (queueLoop visit n q)
  | _, [] => by unfold queueLoop; exact keeps_pure _
  | 0, _ :: _ => by unfold queueLoop; exact keeps_undef _
  | n + 1, x :: q => by unfold queueLoop; exact keeps_bind (hv x) fun new => valid_queueLoop hv n _

theorem valid_bump : Keeps (F := F) VK bumpVersion := fun h => valid_of_ts rfl (Nat.le_refl _)

theorem valid_backVisit (t : Nat) : Keeps (F := F) VK (backVisit t) := by
  unfold backVisit
  refine keeps_bind (keeps_getGradFn _) fun g => keeps_bind (valid_stepBack _ _) fun _ => ?_
  have tail : Keeps (F := F) VK (getGradFn t >>= fun g => readyInputs g.inputs) :=
    keeps_bind (keeps_getGradFn _) fun g => valid_readyInputs _
  refine keepsR_getT fun h i hi => ?_
  split
  · exact at_bind (valid_set hi rfl (.inr (by simp))) fun _ h' _ => tail h'
  · exact tail h

theorem valid_refreshNOutway (t : Nat) : Keeps (F := F) VK (refreshNOutway t) := by
  unfold refreshNOutway
  refine keeps_bind keeps_heapSize fun n => keeps_bind valid_bump fun v => keeps_bind (keeps_getGradFn _) fun g =>
    keeps_bind (valid_setGF _ _) fun _ => ?_
  refine keeps_bind (valid_queueLoop (fun x => keeps_bind (keeps_getGradFn _) fun g => valid_resetInputs _) _ _) fun _ => ?_
  refine keeps_bind valid_bump fun v => keeps_bind (keeps_getGradFn _) fun g => keeps_bind (valid_setGF _ _) fun _ => ?_
  exact valid_queueLoop (fun x => keeps_bind (keeps_getGradFn _) fun g => valid_countInputs _) _ _

theorem onesLike_lt {t r : Nat} {h h' : Heap F} (e : onesLike t h = .ok r h') : r < h'.ts.length := by
  have := (frameInv_extends h).onesLike (extends_refl h) t
  rw [e] at this
  obtain ⟨_, _, j, hj, _⟩ := this
  exact getElem?_lt hj

theorem valid_backward (t : Nat) : Keeps (F := F) VK (backward t) := by
  unfold backward
  refine keeps_bind (keeps_getT _) fun i => keeps_bind (keeps_expect _) fun _ => keeps_bind (keeps_expect _) fun _ =>
    keeps_bind (keeps_expect _) fun _ => keeps_bind keeps_heapSize fun n => keeps_bind (valid_refreshNOutway _) fun _ => ?_
  intro h
  refine validat (valid_onesLike _) fun o h' e => at_getT fun i hi => ?_
  refine at_bind (valid_set hi rfl (.inr fun k hk => by cases hk; exact onesLike_lt e)) fun _ h'' _ => ?_
  exact (keeps_bind valid_bump fun v => keeps_bind (keeps_getGradFn _) fun g => keeps_bind (valid_setGF _ _) fun _ =>
    valid_queueLoop valid_backVisit _ _ : Keeps VK (do
      let v ← bumpVersion
      let g ← getGradFn t
      setGF t { g with backVersion := v }
      queueLoop backVisit (n + 1) [t])) h''

theorem valid_run (c : Call F) : Keeps VK c.run := by
  have S : ∀ {x : M F Nat}, Keeps VK x → Keeps VK (some' x) := fun hx => keeps_bind hx fun _ => keeps_pure _
  have N : ∀ {α : Type} {x : M F α}, Keeps VK x → Keeps VK (none' x) := fun hx => keeps_bind hx fun _ => keeps_pure _
  cases c with
  | scalar dt v => exact S ((valid_createScalar _ _))
  | empty s dt => exact S ((valid_create _ _ _))
  | init tree => exact valid_ofInit tree
  | ones s dt => exact S ((valid_ones _ _))
  | zeros s dt => exact S ((valid_zeros _ _))
  | onesLike t => exact S ((valid_onesLike _))
  | zerosLike t => exact S ((valid_zerosLike _))
  | fullInt s n dt => exact S ((valid_full _ _ _ _))
  | fullReal s n dt => exact S ((valid_full _ _ _ _))
  | eye n m dt => exact S ((valid_eye _ _ _))
  | fromBlob data s dt => exact S ((valid_fromBlob _ _ _))
  | randn rnd s dt => exact S ((valid_randn _ _ _))
  | randnLike rnd t => exact keeps_bind (keeps_getT _) fun i => S ((valid_randn _ _ _))
  | slice t s => exact S (valid_slice _ _)
  | transpose t a b => exact S (valid_transpose _ _ _)
  | reshape t s => exact S (valid_reshape _ _)
  | reshapeAs t u => exact S (valid_reshapeAs _ _)
  | detach t => exact S ((valid_detach _))
  | clone t => exact S (valid_clone _)
  | contiguous t => exact S (valid_clone _)
  | toType t dt => exact S (valid_toType _ _)
  | add l r => exact S (valid_addT _ _)
  | sub l r => exact S (valid_subT _ _)
  | mul l r => exact S (valid_mulT _ _)
  | div l r => exact S (valid_divT _ _)
  | pos t => exact S (keeps_pure _)
  | neg t => exact S (valid_negT _)
  | cmp o l r => exact S ((valid_cmp _ _ _))
  | sum t => exact S (valid_sumT _)
  | mean t => exact S (valid_meanT _)
  | abs t => exact S (valid_absT _)
  | max t => exact S (valid_extreme _ _)
  | min t => exact S (valid_extreme _ _)
  | cat ts d => exact S (valid_catT _ _)
  | addAssign t r => exact N ((valid_addAssign _ _))
  | setRequiresGrad t b => exact N ((valid_setRequiresGrad _ _))
  | setRetainGrad t b => exact N ((valid_setRetainGrad _ _))
  | zeroGrad t => exact N ((valid_zeroGrad _))
  | release t => exact N ((valid_release _))
  | backward t => exact N ((valid_backward _))
  | grad t => exact keeps_gradOf _
  | all t => exact N (keeps_allT _)
  | toString t => exact N (keeps_toString _)
  | stride t => exact N (keeps_stride _)
  | query t => exact N (keeps_getT _)


theorem valid_history {h : Heap F} (hh : History h) : Valid h := by
  induction hh with
  | start => exact ⟨fun t i hi => by simp [Heap.empty] at hi, fun t g i hi => by simp [Heap.empty] at hi⟩
  | @returned h h' c t _ hr ih =>
    have := valid_run c h
    rw [hr] at this
    exact this.valid ih
  | @threw h h' c e _ hr ih =>
    have := valid_run c h
    rw [hr] at this
    exact this.valid ih

end INNC
