import Verif.Lemmas.Valid
import Verif.Props.Frame
import Verif.Spec.Apart
/-
Storages of gradients are new or were storages of gradients before: gradients stay apart from the tensors a program computes with.
(The same induction over the calls as in `Valid`.)
-/
namespace INNC
open Spec Tensor
variable {F : Type}

/-- `d` is the storage of a gradient. -/
def GradIn (h : Heap F) (d : Nat) : Prop := ∃ y, gradStore h y = some d

/-- Storages of gradients were so before, or (unless `q`) are new. -/
structure AK (q : Bool) (h h' : Heap F) : Prop where
  vk : VK h h'
  grads : Valid h → ∀ d, GradIn h' d → GradIn h d ∨ (q = false ∧ h.st.length ≤ d)

variable {q : Bool}

instance : Pre (F := F) (AK q) where
  refl _ := ⟨Pre.refl (R := VK) _, fun _ d hd => .inl hd⟩
  trans h1 h2 := ⟨Pre.trans (R := VK) h1.vk h2.vk, fun hv d hd => by
      rcases h2.grads (h1.vk.valid hv) d hd with h | ⟨hq, h⟩
      · exact h1.grads hv d h
      · exact .inr ⟨hq, by have := h1.vk.slen; omega⟩⟩

theorem gradIn_iff {h : Heap F} {d : Nat} : GradIn h d ↔ ∃ (y : Nat) (i : Impl) (g : Nat) (j : Impl), h.ts[y]? = some i ∧ i.grad = some g ∧ h.ts[g]? = some j ∧ j.data = d := by
  unfold GradIn gradStore
  constructor
  · rintro ⟨y, e⟩
    cases hi : h.ts[y]? with
    | none => rw [hi] at e; simp at e
    | some i =>
      cases hg : i.grad with
      | none => rw [hi] at e; simp [hg] at e
      | some g =>
        cases hj : h.ts[g]? with
        | none => rw [hi] at e; simp [hg, hj] at e
        | some j => rw [hi] at e; exact ⟨y, i, g, j, hi, hg, hj, by simpa [hg, hj] using e⟩
  · rintro ⟨y, i, g, j, hi, hg, hj, e⟩
    exact ⟨y, by simp [hi, hg, hj, e]⟩

theorem ak_of_ts {h h' : Heap F} (ht : h'.ts = h.ts) (hs : h.st.length ≤ h'.st.length) : AK q h h' :=
  ⟨valid_of_ts ht hs, fun _ d hd => .inl (by unfold GradIn gradStore at *; rw [ht] at hd; exact hd)⟩

/-- Changing a tensor in place, since the state `h0`. -/
theorem ak_set_from {h0 h : Heap F} (h1 : AK q h0 h) {x : Nat} {i k : Impl} (hi : h.ts[x]? = some i) (hd : k.data = i.data)
    (hg : k.grad = i.grad ∨ ∀ g, k.grad = some g → ∃ j, h.ts[g]? = some j ∧ (GradIn h0 j.data ∨ (q = false ∧ h0.st.length ≤ j.data))) :
    AK q h0 { h with ts := h.ts.set x k } := by
  have hset := List.getElem?_set_self (l := h.ts) (a := k) (getElem?_lt hi)
  have back : ∀ (t : Nat) (j' : Impl), (h.ts.set x k)[t]? = some j' → ∃ j, h.ts[t]? = some j ∧ j'.data = j.data := fun t j' hj => by
    by_cases hxt : x = t
    · subst hxt
      rw [hset] at hj
      obtain rfl := Option.some.inj hj
      exact ⟨i, hi, hd⟩
    · rw [List.getElem?_set_ne hxt] at hj; exact ⟨j', hj, rfl⟩
  refine ⟨Pre.trans (R := VK) h1.vk (valid_set hi hd (hg.imp id fun hg g hk => ?_)), fun hv d hG => ?_⟩
  · obtain ⟨j, hj, _⟩ := hg g hk
    exact getElem?_lt hj
  · obtain ⟨y, iy, g, j, hy, hgy, hj, rfl⟩ := gradIn_iff.1 hG
    obtain ⟨j0, hj0, e⟩ := back g j hj
    by_cases hxy : x = y
    · subst hxy
      simp only at hy
      rw [hset] at hy
      obtain rfl := Option.some.inj hy
      rcases hg with hg | hg
      · exact h1.grads hv _ (gradIn_iff.2 ⟨x, i, g, j0, hi, hg ▸ hgy, hj0, e.symm⟩)
      · obtain ⟨j1, hj1, hc⟩ := hg g hgy
        rw [hj0] at hj1
        obtain rfl := Option.some.inj hj1
        rw [e]; exact hc
    · simp only at hy
      rw [List.getElem?_set_ne hxy] at hy
      exact h1.grads hv _ (gradIn_iff.2 ⟨y, iy, g, j0, hy, hgy, hj0, e.symm⟩)

theorem ak_set {h : Heap F} {x : Nat} {i k : Impl} (hi : h.ts[x]? = some i) (hd : k.data = i.data) (hg : k.grad = i.grad ∨ k.grad = none) :
    AK q h { h with ts := h.ts.set x k } :=
  ak_set_from (Pre.refl (R := AK q) h) hi hd (hg.imp id fun e g hk => by rw [e] at hk; cases hk)

theorem ak_new {h : Heap F} {i : Impl} (hi : i.grad = none) (hd : i.data < h.st.length ∨ ∃ (u : Nat) (j : Impl), h.ts[u]? = some j ∧ j.data = i.data) :
    AK q h { h with ts := h.ts ++ [i] } := by
  refine ⟨valid_new hi hd, fun hv d hG => ?_⟩
  obtain ⟨y, iy, g, j, hy, hgy, hj, rfl⟩ := gradIn_iff.1 hG
  simp only at hy hj
  by_cases hlt : y < h.ts.length
  · rw [List.getElem?_append_left hlt] at hy
    rw [List.getElem?_append_left (hv.grad y g iy hy hgy)] at hj
    exact .inl (gradIn_iff.2 ⟨y, iy, g, j, hy, hgy, hj, rfl⟩)
  · rw [List.getElem?_append_right (by omega)] at hy
    cases hk : y - h.ts.length with
    | zero => rw [hk] at hy; obtain rfl : i = iy := by simpa using hy
              rw [hi] at hgy; cases hgy
    | succ n => rw [hk] at hy; simp at hy

/-- A new gradient on a new storage. -/
theorem ak_install {β : Type} {x : M F Nat} {p : Nat} {f : Nat → M F β} {h : Heap F} (hx : KeepsAt (AK false) x h)
    (hn : ∀ g h1, x h = .ok g h1 → ∃ j, h1.ts[g]? = some j ∧ h.st.length ≤ j.data)
    (hf : ∀ (g : Nat) (h2 : Heap F) (i j : Impl), h2.ts[p]? = some i → i.grad = some g → h2.ts[g]? = some j → KeepsAt (AK false) (f g) h2) :
    KeepsAt (AK false) (x >>= fun g => getT p >>= fun i => setT p { i with grad := some g } >>= fun _ => f g) h := by
  unfold KeepsAt at hx ⊢
  rw [M.bind_def]
  cases e : x h with
  | ub u => trivial
  | throw a h' => rw [e] at hx; exact hx
  | ok g h1 =>
    rw [e] at hx
    obtain ⟨j, hj, hle⟩ := hn g h1 e
    cases hi : h1.ts[p]? with
    | none =>
      have e1 : (getT p : M F Impl) h1 = .ub .nullptr := by unfold getT; rw [hi]
      simp only
      rw [M.bind_ub e1]; trivial
    | some i =>
      have h2 := ak_set_from hx hi (k := { i with grad := some g }) rfl (.inr fun g' hg' => by cases hg'; exact ⟨j, hj, .inr ⟨rfl, hle⟩⟩)
      simp only
      rw [M.bind_ok (getT_ok hi), M.bind_def]
      simp only [setT]
      obtain ⟨j', hj'⟩ : ∃ j', (h1.ts.set p { i with grad := some g })[g]? = some j' := ⟨_, List.getElem?_eq_getElem (by simpa using getElem?_lt hj)⟩
      have := hf g { h1 with ts := h1.ts.set p { i with grad := some g } } _ j' (List.getElem?_set_self (getElem?_lt hi)) rfl hj'
      unfold KeepsAt at this
      split at this <;> rename_i e2 <;> rw [e2]
      · exact Pre.trans h2 this
      · exact Pre.trans h2 this
      · trivial

theorem akat {α β : Type} {x : M F α} {f : α → M F β} {h : Heap F} (hx : Keeps (AK q) x) (hf : ∀ a h', x h = .ok a h' → KeepsAt (AK q) (f a) h') :
    KeepsAt (AK q) (x >>= f) h := at_bind (hx h) hf

theorem ak_writes {α : Type} {x : M F α} (hx : Keeps (Writes fun _ => True) x) : Keeps (AK q) x :=
  keeps_mono hx fun _ _ h => ak_of_ts h.ts (by rw [h.len])

theorem ak_newS (s : Storage F) : Keeps (AK q) (newS s) := fun _ => ak_of_ts rfl (by simp)
theorem ak_setS (d : Nat) (s : Storage F) : Keeps (AK q) (setS d s) := fun _ => ak_of_ts rfl (by simp)
theorem ak_createOn {dt : DType} {v : Layout} {d : Nat} {h : Heap F} (hd : d < h.st.length ∨ ∃ (u : Nat) (j : Impl), h.ts[u]? = some j ∧ j.data = d) :
    KeepsAt (F := F) (AK q) (createOn dt v d) h := ak_new rfl hd
theorem ak_create (dt : DType) (v : Layout) (b : Bool) : Keeps (F := F) (AK q) (create dt v b) := by
  unfold create mkStorage
  have key : ∀ s : Storage F, Keeps (AK q) (newS s >>= fun d => createOn dt v d) := fun s h =>
    akat (ak_newS s) fun d h' e => ak_createOn (by cases e; simp)
  split
  · split
    · exact key _
    · exact fun h => Pre.refl (R := (AK q)) h
  · exact key _
theorem create_data {dt : DType} {v : Layout} {b : Bool} {h h' : Heap F} {r : Nat} (e : create dt v b h = .ok r h') :
    ∃ j, h'.ts[r]? = some j ∧ h.st.length ≤ j.data := by
  have := create_made (dt := dt) (v := v) (b := b) h
  rw [e] at this
  obtain ⟨_, _, j, hj, _, _, _, hd, _⟩ := this
  exact ⟨j, hj, hd⟩
theorem ak_allocS (d : Nat) : Keeps (F := F) (AK q) (allocS d) := by
  unfold allocS
  refine keeps_bind (keeps_getS _) fun s => ?_
  split
  · exact ak_setS _ _
  · exact keeps_raise _

variable [FOps F]

theorem ak_zeroS (d : Nat) : Keeps (F := F) (AK q) (zeroS d) := ak_writes (keeps_zeroS trivial)
theorem ak_createScalar (dt : DType) (v : Val F) : Keeps (AK q) (createScalar dt v) := by
  unfold createScalar
  refine keeps_bind (ak_create _ _ _) fun t => keeps_bind (keeps_getT _) fun i => ?_
  exact keeps_bind (ak_writes (keeps_store trivial _ _ _)) fun _ => keeps_pure _
theorem ak_full (s : List Nat) (n : DType) (v : Val F) (dt : DType) : Keeps (AK q) (full s n v dt) := by
  unfold full
  refine keeps_bind (ak_createScalar _ _) fun t => keeps_bind (ak_create _ _ _) fun r => keeps_bind (keeps_getT _) fun i =>
    keeps_bind (keeps_getT _) fun i => ?_
  exact keeps_bind (ak_writes (keeps_tensorFill trivial _ _ _)) fun _ => keeps_pure _
theorem ak_ones (s : List Nat) (dt : DType) : Keeps (F := F) (AK q) (ones s dt) := ak_full s .i8 (.i 1) dt
theorem ak_zeros (s : List Nat) (dt : DType) : Keeps (F := F) (AK q) (zeros s dt) := by
  unfold zeros
  refine keeps_bind (ak_create _ _ _) fun r => keeps_bind (keeps_getT _) fun i => ?_
  exact keeps_bind (ak_zeroS _) fun _ => keeps_pure _
theorem ak_onesLike (t : Nat) : Keeps (F := F) (AK q) (onesLike t) := by
  unfold onesLike
  exact keeps_bind (keeps_getT _) fun i => ak_ones _ _
theorem ak_zerosLike (t : Nat) : Keeps (F := F) (AK q) (zerosLike t) := by
  unfold zerosLike
  exact keeps_bind (keeps_getT _) fun i => ak_zeros _ _
theorem ak_eye (n m : Nat) (dt : DType) : Keeps (F := F) (AK q) (eye n m dt) := by
  unfold eye
  refine keeps_bind (ak_create _ _ _) fun r => keeps_bind (keeps_getT _) fun i => ?_
  refine keeps_bind (ak_zeroS _) fun _ => ?_
  exact keeps_bind (ak_writes (keeps_tensorEye trivial _)) fun _ => keeps_pure _
theorem ak_fromBlob (data : List (Val F)) (s : List Nat) (dt : DType) : Keeps (AK q) (fromBlob data s dt) := by
  unfold fromBlob
  refine keeps_bind (ak_create _ _ _) fun r => keeps_bind (keeps_getT _) fun i => ?_
  simp only
  split
  · exact keeps_bind (keeps_undef _) fun _ => keeps_pure _
  · exact keeps_bind (ak_writes (keeps_blobGo trivial _ _ _)) fun _ => keeps_pure _
theorem ak_randn (rnd : Nat → F) (s : List Nat) (dt : DType) : Keeps (AK q) (randn rnd s dt) := by
  unfold randn
  refine keeps_bind (keeps_expect _) fun _ => keeps_bind (ak_create _ _ _) fun r => keeps_bind (keeps_getT _) fun i =>
    keeps_bind (keeps_getS _) fun st => ?_
  exact keeps_bind (ak_writes (keeps_randGo trivial _ _ _ _)) fun _ => keeps_pure _
theorem ak_detach (t : Nat) : Keeps (F := F) (AK q) (detach t) := by
  unfold detach
  exact keepsR_getT fun h i hi => ak_createOn (.inr ⟨t, i, hi, rfl⟩)
theorem ak_applyNoGradBinary {k : Kernel F}
    (hk : ∀ (L R : DType) (d l r : Impl), Keeps (Writes fun _ => True) (k L R d l r)) (l r : Nat) (o : Bool) :
    Keeps (AK q) (applyNoGradBinary k l r o) := by
  unfold applyNoGradBinary
  refine keeps_bind (keeps_getT _) fun li => keeps_bind (keeps_getT _) fun ri => keeps_bind (keeps_lift _) fun range =>
    keeps_bind (ak_create _ _ _) fun t => keeps_bind (keeps_getT _) fun d => ?_
  have key : ∀ (L R : DType) (a b : Impl), Keeps (AK q) (k L R d a b >>= fun _ => (pure t : M F Nat)) := fun L R a b =>
    keeps_bind (ak_writes (hk _ _ _ _ _)) fun _ => keeps_pure _
  split
  · split
    · exact key _ _ _ _
    · exact key _ _ _ _
  · exact key _ _ _ _
theorem ak_cmp (op : COp) (l r : Nat) : Keeps (F := F) (AK q) (Tensor.cmp op l r) := by
  unfold Tensor.cmp
  refine keeps_bind (keeps_getT _) fun li => keeps_bind (keeps_getT _) fun ri => keeps_bind (keeps_lift _) fun range =>
    keeps_bind (ak_create _ _ _) fun t => keeps_bind (keeps_getT _) fun d => ?_
  exact keeps_bind (ak_writes (keeps_tensorCmp trivial _ _ _ _ _)) fun _ => keeps_pure _
theorem ak_addAssign (t r : Nat) : Keeps (F := F) (AK q) (addAssign t r) := by
  unfold addAssign
  refine keeps_bind (keeps_getT _) fun i => keeps_bind (keeps_expect _) fun _ => keeps_bind (keeps_getT _) fun j => ?_
  exact ak_writes (keeps_tensorAdd trivial _ _ _ _)
theorem ak_zeroGrad (t : Nat) : Keeps (F := F) (AK q) (zeroGrad t) := by
  unfold zeroGrad
  refine keeps_bind (keeps_getT _) fun i => ?_
  cases i.grad with
  | none => exact keeps_pure _
  | some g => exact keeps_bind (keeps_getT _) fun i => ak_zeroS _
omit [FOps F] in
theorem ak_release (t : Nat) : Keeps (F := F) (AK q) (release t) := by
  unfold release releaseS
  exact keeps_bind (keeps_getT _) fun i => keeps_bind (keeps_getS _) fun s => ak_setS _ _
omit [FOps F] in
theorem ak_setRequiresGrad (t : Nat) (b : Bool) : Keeps (F := F) (AK q) (setRequiresGrad t b) := by
  unfold setRequiresGrad
  refine keeps_bind (keeps_getT _) fun i => ?_
  have key : Keeps (F := F) (AK q) (getT t >>= fun i => setT t { i with requiresGrad := b }) :=
    keepsR_getT fun h i hi => ak_set hi rfl (.inl rfl)
  split
  · exact keeps_bind (keeps_expect _) fun _ => key
  · exact key
omit [FOps F] in
theorem ak_setRetainGrad (t : Nat) (b : Bool) : Keeps (F := F) (AK q) (setRetainGrad t b) := by
  unfold setRetainGrad
  exact keepsR_getT fun h i hi => ak_set hi rfl (.inl rfl)

omit [FOps F] in
theorem ak_shareGradStorage (dst frm : Nat) : Keeps (F := F) (AK false) (shareGradStorage dst frm) := by
  unfold shareGradStorage
  have tail : ∀ (g : Nat) (h : Heap F) (f : Impl), h.ts[frm]? = some f → f.grad = some g → KeepsAt (F := F) (AK false) (do
      let gi ← getT g
      let t ← getT dst
      let g' ← createOn t.dtype t.view gi.data
      let t ← getT dst
      setT dst { t with grad := some g' }) h := fun g h f hf hg => by
    refine at_getT fun gi hgi => at_getT fun t ht => ?_
    have hG : GradIn h gi.data := gradIn_iff.2 ⟨frm, f, g, gi, hf, hg, hgi, rfl⟩
    have hc : AK false h { h with ts := h.ts ++ [⟨t.dtype, t.view, gi.data, none, false, false, none⟩] } := ak_new rfl (.inr ⟨g, gi, hgi, rfl⟩)
    have hl : (h.ts ++ [(⟨t.dtype, t.view, gi.data, none, false, false, none⟩ : Impl)])[dst]? = some t := by
      rw [List.getElem?_append_left (getElem?_lt ht)]; exact ht
    unfold KeepsAt
    rw [M.bind_def]
    simp only [createOn, newT]
    rw [M.bind_ok (getT_ok hl)]
    simp only [setT]
    refine ak_set_from hc hl rfl (.inr fun g' hg' => ?_)
    cases hg'
    exact ⟨⟨t.dtype, t.view, gi.data, none, false, false, none⟩, by simp, .inl hG⟩
  refine keepsR_getT fun h f hf => ?_
  cases hg : f.grad with
  | some g => exact tail g h f hf hg
  | none =>
    exact ak_install (x := create f.dtype f.view false) (ak_create f.dtype f.view false h) (fun g h1 e => create_data e) fun g h2 i j hi hgi _ => tail g h2 i hi hgi

section
omit [FOps F]
theorem ak_setGradFn (t : Nat) (kind : BackKind) (inputs : List Nat) : Keeps (F := F) (AK q) (setGradFn t kind inputs) := by
  unfold setGradFn
  exact keepsR_getT fun h i hi => ak_set hi rfl (.inl rfl)

theorem ak_makeView {dt : DType} {v : Layout} {d base : Nat} {h : Heap F} (hd : ∃ (u : Nat) (j : Impl), h.ts[u]? = some j ∧ j.data = d) :
    KeepsAt (AK false) (makeView dt v d base) h := by
  unfold makeView
  refine at_bind (ak_createOn (.inr hd)) fun r h1 e => ?_
  refine at_getT fun i hi => ?_
  split
  · exact (keeps_pure r : Keeps (AK false) _) h1
  · refine at_bind (ak_setGradFn _ _ _ h1) fun _ h2 _ => ?_
    exact keeps_bind (ak_shareGradStorage _ _) (fun _ => (keeps_pure r : Keeps (AK false) _)) h2
theorem ak_slice (t : Nat) (s : Str) : Keeps (F := F) (AK false) (Tensor.slice t s) := by
  unfold Tensor.slice
  refine keepsR_getT fun h i hi => at_bind (keeps_lift _ h) fun v h' e => ?_
  have : h' = h := by
    unfold M.lift at e; split at e <;> cases e; rfl
  subst this
  exact ak_makeView ⟨t, i, hi, rfl⟩

theorem ak_transpose (t a b : Nat) : Keeps (F := F) (AK false) (Tensor.transpose t a b) := by
  unfold Tensor.transpose
  refine keepsR_getT fun h i hi => at_bind (keeps_lift _ h) fun v h' e => ?_
  have : h' = h := by
    unfold M.lift at e; split at e <;> cases e; rfl
  subst this
  exact ak_makeView ⟨t, i, hi, rfl⟩
theorem ak_pure {α : Type} (a : α) (h : Heap F) : KeepsAt (AK q) (pure a : M F α) h := (keeps_pure a : Keeps (AK q) _) h
end

theorem ak_clone (t : Nat) : Keeps (F := F) (AK q) (Tensor.clone t) := by
  unfold Tensor.clone
  refine keepsR_getT fun h i hi => ?_
  refine at_bind ((ak_create _ _ _) h) fun r h1 e => ?_
  have hr := create_idx e
  refine at_getT fun d hd => at_bind ((ak_writes (keeps_copyLoop trivial _ _ _)) h1) fun _ h2 _ => ?_
  split
  · exact ak_pure _ _
  · have := getElem?_lt hi
    exact at_bind (ak_setGradFn _ _ _ _) fun _ h3 _ => ak_pure _ _

theorem ak_reshapeSizes (t : Nat) (s : List Nat) : Keeps (F := F) (AK false) (Tensor.reshapeSizes t s) := by
  unfold Tensor.reshapeSizes
  dsimp only
  refine keepsR_getT fun h i hi => ?_
  refine at_reads (keeps_expect _) fun _ => ?_
  have rest : ∀ H : Heap F, (∃ (u : Nat) (j : Impl), H.ts[u]? = some j ∧ j.data = i.data) → KeepsAt (AK false) (if i.view.sizes.length < i.view.strides.length then M.undef .vecOob
    else do
    let iso ← M.lift (isometry i.view.sizes i.view.strides)
    if iso then
      let strides ← if s.length ≠ 0 then do
          let last ← M.lift (vecAt i.view.strides (i.view.strides.length - 1))
          pure (scaledStrides last s)
        else pure i.view.strides
      Tensor.makeView i.dtype ⟨s, strides, i.view.offset⟩ i.data t
    else do
      let m ← Tensor.clone t
      let mi ← getT m
      Tensor.makeView i.dtype (Layout.contig s) mi.data m : M F Nat) H := by
    intro H hle
    split
    · trivial
    refine at_reads (keeps_lift _) fun iso => ?_
    split
    · dsimp only
      split
      · exact at_reads (keeps_lift _) fun _ => ak_makeView hle
      · exact ak_makeView hle
    · refine at_bind (ak_clone t H) fun m h4 _ => at_getT fun mi hmi => ?_
      exact ak_makeView ⟨m, mi, hmi, rfl⟩
  split
  · have hm := ak_makeView (dt := i.dtype) (v := ⟨s, List.replicate s.length 1, i.view.offset⟩) (d := i.data) (base := t) ⟨t, i, hi, rfl⟩
    refine at_bind hm fun r h3 e => ?_
    unfold KeepsAt at hm
    rw [e] at hm
    obtain ⟨i', hi', e'⟩ := hm.vk.keep t i hi
    cases hq : i.requiresGrad
    · exact ak_pure _ _
    · exact rest h3 ⟨t, i', hi', e'⟩
  · exact rest h ⟨t, i, hi, rfl⟩

theorem ak_reshape (t : Nat) (s : List Int) : Keeps (F := F) (AK false) (Tensor.reshape t s) := by
  unfold Tensor.reshape
  exact keeps_bind (keeps_getT _) fun i => keeps_bind (keeps_lift _) fun z => ak_reshapeSizes t z

theorem ak_reshapeAs (t u : Nat) : Keeps (F := F) (AK false) (Tensor.reshapeAs t u) := by
  unfold Tensor.reshapeAs
  exact keeps_bind (keeps_getT _) fun i => ak_reshapeSizes t _

theorem ak_toType (t : Nat) (dt : DType) : Keeps (F := F) (AK q) (Tensor.toType t dt) := by
  unfold Tensor.toType
  refine keepsR_getT fun h i hi => ?_
  split
  · exact (keeps_raise _ : Keeps (AK q) (M.raise .runtime : M F Nat)) h
  split
  · exact ak_pure _ _
  refine at_bind ((ak_create _ _ _) h) fun r h1 e => ?_
  have hr := create_idx e
  refine at_getT fun d hd => at_bind ((ak_writes (keeps_copyLoop trivial _ _ _)) h1) fun _ h2 _ => ?_
  split
  · exact ak_pure _ _
  · have := getElem?_lt hi
    exact at_bind (ak_setGradFn _ _ _ _) fun _ h3 _ => ak_pure _ _

theorem ak_applyBinary {k : Kernel F} {back : BackKind} (hb : Arity back 2)
    (hk : ∀ (L R : DType) (d l r : Impl), Keeps (Writes fun _ => True) (k L R d l r)) (l r : Nat) (o : Bool) :
    Keeps (AK q) (Tensor.applyBinary k back l r o) := by
  unfold Tensor.applyBinary Tensor.applyNoGradBinary
  simp only [bind_assoc]
  refine keepsR_getT fun h li hl => at_getT fun ri hr => at_reads (keeps_lift _) fun range => ?_
  refine at_bind ((ak_create _ _ _) h) fun t h1 e => ?_
  have ht := create_idx e
  have tail : Keeps (F := F) (AK q) (do
      let li ← getT l
      let ri ← getT r
      if !li.requiresGrad && !ri.requiresGrad then return t
      Tensor.setGradFn t back [l, r]
      return t) := by
    refine keeps_bind (keeps_getT _) fun _ => keeps_bind (keeps_getT _) fun _ => ?_
    split
    · exact keeps_pure _
    · exact keeps_bind (ak_setGradFn _ _ _) fun _ => keeps_pure _
  refine at_getT fun d hd => ?_
  split
  · split
    · rw [bind_assoc]; exact at_bind ((ak_writes (hk _ _ _ _ _)) h1) fun _ h2 _ => tail h2
    · rw [bind_assoc]; exact at_bind ((ak_writes (hk _ _ _ _ _)) h1) fun _ h2 _ => tail h2
  · rw [bind_assoc]; exact at_bind ((ak_writes (hk _ _ _ _ _)) h1) fun _ h2 _ => tail h2

theorem ak_addT (l r : Nat) : Keeps (F := F) (AK q) (addT l r) :=
  ak_applyBinary (back := .add) rfl (fun _ _ _ _ _ => keeps_tensorAdd trivial _ _ _ _) l r false
theorem ak_subT (l r : Nat) : Keeps (F := F) (AK q) (subT l r) :=
  ak_applyBinary (back := .sub) rfl (fun _ _ _ _ _ => keeps_tensorSub trivial _ _ _ _) l r true
theorem ak_mulT (l r : Nat) : Keeps (F := F) (AK q) (mulT l r) :=
  ak_applyBinary (back := .mul) rfl (fun _ _ _ _ _ => keeps_tensorMul trivial _ _ _ _) l r false
theorem ak_divT (l r : Nat) : Keeps (F := F) (AK q) (divT l r) :=
  ak_applyBinary (back := .div) rfl (fun _ _ _ _ _ => keeps_tensorDiv trivial _ _ _ _) l r true
theorem ak_negT (t : Nat) : Keeps (F := F) (AK q) (negT t) := by
  unfold negT
  exact keeps_bind ((ak_createScalar _ _)) fun z => ak_subT _ _

theorem ak_sumLike {k : DType → DType → Impl → Impl → M F Unit} {back : BackKind} (hb : Arity back 1)
    (hk : ∀ (T S : DType) (d l : Impl), Keeps (Writes fun _ => True) (k T S d l)) (t : Nat) :
    Keeps (F := F) (AK q) (do
      let i ← getT t
      let tf ← zeros [] (sumType i.dtype)
      k (sumType i.dtype) i.dtype (← getT tf) i
      if i.requiresGrad then Tensor.setGradFn tf back [t]
      return tf) := by
  refine keepsR_getT fun h i hi => at_bind ((ak_zeros _ _) h) fun tf h1 e => ?_
  have hr := zeros_idx e
  have := getElem?_lt hi
  refine at_getT fun d hd => at_bind ((ak_writes (hk _ _ _ _)) h1) fun _ h2 _ => ?_
  split
  · exact at_bind (ak_setGradFn _ _ _ _) fun _ h3 _ => ak_pure _ _
  · exact ak_pure _ _

theorem ak_sumT (t : Nat) : Keeps (F := F) (AK q) (sumT t) := by
  unfold sumT
  exact ak_sumLike (k := tensorSum) (back := .sum) rfl (fun _ _ _ _ => keeps_tensorSum trivial _ _ _) t
theorem ak_meanT (t : Nat) : Keeps (F := F) (AK q) (meanT t) := by
  unfold meanT
  exact ak_sumLike (k := tensorMean) (back := .mean) rfl (fun _ _ _ _ => keeps_tensorMean trivial _ _ _) t

theorem ak_absT (t : Nat) : Keeps (F := F) (AK q) (absT t) := by
  unfold absT
  refine keepsR_getT fun h i hi => at_bind ((ak_create _ _ _) h) fun r h1 e => ?_
  have hr := create_idx e
  have := getElem?_lt hi
  split
  · refine at_getT fun d hd => at_bind ((ak_writes (keeps_tensorAbs trivial _ _ _ _ (by simp))) h1) fun _ h2 _ => ak_pure _ _
  · refine at_bind ((ak_create _ _ _) h1) fun g h2 _ => at_getT fun d hd => at_getT fun d hd => ?_
    refine at_bind ((ak_writes (keeps_tensorAbs trivial _ _ _ _ (by simp))) h2) fun _ h3 _ => ?_
    exact at_bind (ak_setGradFn _ _ _ _) fun _ h3 _ => ak_pure _ _

theorem ak_extreme (c : COp) (t : Nat) : Keeps (F := F) (AK q) (extreme c t) := by
  unfold extreme
  refine keepsR_getT fun h i hi => at_bind ((ak_zeros _ _) h) fun r h1 e => ?_
  have hr := zeros_idx e
  have := getElem?_lt hi
  split
  · refine at_getT fun d hd => at_bind ((ak_writes (keeps_tensorExtreme trivial _ _ _ _ (by simp))) h1) fun _ h2 _ => ak_pure _ _
  · refine at_bind ((ak_zerosLike _) h1) fun g h2 _ => at_getT fun d hd => at_getT fun d hd => ?_
    refine at_bind ((ak_writes (keeps_tensorExtreme trivial _ _ _ _ (by simp))) h2) fun _ h3 _ => ?_
    exact at_bind (ak_setGradFn _ _ _ _) fun _ h3 _ => ak_pure _ _

theorem ak_catT (ts : List Nat) (d : Nat) : Keeps (F := F) (AK q) (catT ts d) := by
  unfold catT
  cases ts with
  | nil => exact keeps_undef _
  | cons t0 rest =>
    refine keepsR_getT fun h i hi => at_reads (keeps_expect _) fun _ => ?_
    have hs := getAll_spec rest h
    refine at_bind (keeps_getAll rest h) fun others h1 e => ?_
    rw [e] at hs
    obtain ⟨rfl, hmap⟩ := hs
    refine at_reads (keeps_catCheck _ _ _) fun _ => ?_
    refine at_bind ((ak_create _ _ _) h1) fun r h2 e => ?_
    have hr := create_idx e
    refine at_getT fun j hj => at_bind ((ak_writes (keeps_catGo trivial _ _ _ _)) h2) fun _ h3 _ => ?_
    split
    · exact at_bind (ak_setGradFn _ _ _ _) fun _ h3 _ => ak_pure _ _
    · exact ak_pure _ _

theorem ak_ofInit (tree : InitTree F) : Keeps (AK q) (ofInit tree) := by
  unfold ofInit
  refine keeps_bind (keeps_lift _) fun init => ?_
  unfold createImpl
  split
  · exact keeps_pure _
  · cases init.dtype with
    | none => exact keeps_undef _
    | some dt =>
      exact keeps_bind ((ak_create _ _ _)) fun t => keeps_bind (keeps_getT _) fun i => keeps_bind (keeps_getS _) fun s =>
        keeps_bind ((ak_setS _ _)) fun _ => keeps_pure _

theorem ak_tryAccUpdate (p : Nat) : Keeps (F := F) (AK false) (tryAccUpdate p) := by
  unfold tryAccUpdate
  refine keepsR_getT fun h i hi => ?_
  have rest : Keeps (AK false) (match i.grad with
    | none => do
      let g ← INNC.create i.dtype i.view true
      let i ← getT p
      INNC.setT p { i with grad := some g }
      let gi ← getT g
      zeroS gi.data
    | some g => do
      let gi ← getT g
      let al ← isAllocS gi.data
      if !al then do
        INNC.allocS gi.data
        zeroS gi.data
      else pure () : M F Unit) := by
    cases i.grad with
    | none =>
      intro h
      refine ak_install (x := create i.dtype i.view true) (f := fun g => getT g >>= fun gi => zeroS gi.data) (ak_create i.dtype i.view true h)
        (fun g h1 e => create_data e) fun g h2 _ _ _ _ _ => ?_
      exact (keeps_bind (keeps_getT _) fun _ => ak_zeroS _ : Keeps (AK false) (getT g >>= fun gi => zeroS gi.data)) h2
    | some g =>
      refine keeps_bind (keeps_getT _) fun gi => keeps_bind (keeps_isAllocS _) fun al => ?_
      split
      · exact keeps_bind (ak_allocS _) fun _ => ak_zeroS _
      · exact keeps_pure _
  split
  · exact (keeps_pure () : Keeps (AK false) _) h
  · cases hg : i.gradFn with
    | none => exact rest h
    | some g =>
      refine at_bind ?_ fun _ h' _ => rest h'
      exact ak_set hi rfl (.inl rfl)

theorem ak_mulAddF (d a b : Nat) : Keeps (F := F) (AK false) (mulAddF d a b) := by
  unfold mulAddF
  refine keeps_bind (keeps_getT _) fun i => keeps_bind (keeps_getT _) fun i => keeps_bind (keeps_getT _) fun i => ?_
  split
  · exact ak_writes (keeps_tensorMulAccF trivial _ _ _ _ _)
  · exact keeps_undef _

theorem ak_tryAccGrad (p : Nat) (w o : Option Nat) : Keeps (F := F) (AK false) (tryAccGrad p w o) := by
  unfold tryAccGrad
  refine keeps_bind (keeps_getT _) fun i => ?_
  split
  · exact keeps_pure _
  refine keeps_bind (ak_tryAccUpdate p) fun _ => ?_
  cases w with
  | none => cases o with
    | none => exact keeps_pure _
    | some o => exact keeps_undef _
  | some w => cases o with
    | none => exact keeps_bind (keeps_derefGrad _) fun g => ak_addAssign _ _
    | some o =>
      refine keeps_bind (keeps_getT _) fun wi => keeps_bind (keeps_derefGrad _) fun g => ?_
      split
      · exact ak_mulAddF _ _ _
      · exact ak_mulAddF _ _ _

theorem ak_catBackGo (t dim : Nat) : ∀ (xs : List Nat) (s : Nat), Keeps (F := F) (AK false) (catBackGo t dim s xs)
  | [], _ => keeps_pure _
  | x :: xs, s => by
    unfold catBackGo
    refine keeps_bind (keeps_getT _) fun i => keeps_bind (keeps_getT _) fun i => keeps_bind (keeps_lift _) fun i =>
      keeps_bind (keeps_derefGrad _) fun g => keepsR_getT fun h gi hgi => at_bind (ak_createOn (.inr ⟨g, gi, hgi, rfl⟩)) fun r h' _ => ?_
    exact (keeps_bind (ak_tryAccGrad _ _ _) fun _ => keeps_bind (keeps_getT _) fun i => keeps_bind (keeps_lift _) fun i =>
      ak_catBackGo t dim xs _ : Keeps (AK false) (do
        tryAccGrad x (some r) none
        let xi ← getT x
        let d ← M.lift (vecAt xi.view.sizes dim)
        catBackGo t dim (wrapU (s + d)) xs)) h'

theorem ak_divBackNum (d a b : Nat) : Keeps (F := F) (AK false) (divBackNum d a b) := by
  unfold divBackNum
  refine keeps_bind (keeps_getT _) fun i => keeps_bind (keeps_getT _) fun i => keeps_bind (keeps_getT _) fun i => ?_
  split
  · exact ak_writes (keeps_tensorDivBackNum trivial _ _ _ _ _)
  · exact keeps_undef _

theorem ak_divBackDen (t d : Nat) : Keeps (F := F) (AK false) (divBackDen t d) := by
  unfold divBackDen
  refine keeps_bind (keeps_getT _) fun i => keeps_bind (keeps_getT _) fun i => ?_
  split
  · refine keeps_bind (keeps_derefGrad _) fun i => keeps_bind (keeps_derefGrad _) fun i => keeps_bind (keeps_getT _) fun i =>
      keeps_bind (keeps_getT _) fun i => ?_
    exact ak_writes (keeps_tensorDivBackDen trivial _ _ _ _ _)
  · exact keeps_undef _

theorem ak_stepBack (t : Nat) (g : GradFn) : Keeps (F := F) (AK false) (stepBack t g) := by
  unfold stepBack
  cases g.kind with
  | add =>
    refine keeps_bind (keeps_inputAt _ _) fun a => keeps_bind (keeps_derefGrad _) fun o => keeps_bind (ak_tryAccGrad _ _ _) fun _ => ?_
    exact keeps_bind (keeps_inputAt _ _) fun a => keeps_bind (keeps_derefGrad _) fun o => ak_tryAccGrad _ _ _
  | sub =>
    refine keeps_bind (keeps_inputAt _ _) fun a => keeps_bind (keeps_derefGrad _) fun o => keeps_bind (ak_tryAccGrad _ _ _) fun _ => ?_
    exact keeps_bind (ak_createScalar _ _) fun m => keeps_bind (keeps_inputAt _ _) fun a => keeps_bind (keeps_derefGrad _) fun o => ak_tryAccGrad _ _ _
  | mul =>
    refine keeps_bind (keeps_inputAt _ _) fun a => keeps_bind (keeps_inputAt _ _) fun b => keeps_bind (keeps_derefGrad _) fun o => keeps_bind (ak_tryAccGrad _ _ _) fun _ => ?_
    exact keeps_bind (keeps_inputAt _ _) fun a => keeps_bind (keeps_inputAt _ _) fun b => keeps_bind (keeps_derefGrad _) fun o => ak_tryAccGrad _ _ _
  | div =>
    refine keeps_bind (keeps_inputAt _ _) fun a => keeps_bind (keeps_inputAt _ _) fun b => keeps_bind (ak_tryAccUpdate _) fun _ => ?_
    refine keeps_bind (keeps_derefGrad _) fun o => keeps_bind (keeps_derefGrad _) fun o => keeps_bind (ak_divBackNum _ _ _) fun _ => ?_
    exact keeps_bind (ak_tryAccUpdate _) fun _ => ak_divBackDen _ _
  | sum =>
    refine keeps_bind (keeps_inputAt _ _) fun a => keeps_bind (ak_onesLike _) fun b => keeps_bind (keeps_derefGrad _) fun o => ?_
    exact ak_tryAccGrad _ _ _
  | mean =>
    refine keeps_bind (keeps_inputAt _ _) fun a => keeps_bind (keeps_getT _) fun b => keeps_bind (ak_full _ _ _ _) fun o => ?_
    exact ak_tryAccGrad _ _ _
  | noBack =>
    exact keeps_bind (keeps_inputAt _ _) fun a => ak_tryAccGrad _ _ _
  | clone =>
    exact keeps_bind (keeps_inputAt _ _) fun a => keeps_bind (keeps_derefGrad _) fun o => ak_tryAccGrad _ _ _
  | cat dim => exact ak_catBackGo _ _ _ _
  | knownGrad k =>
    exact keeps_bind (keeps_inputAt _ _) fun a => keeps_bind (keeps_derefGrad _) fun o => ak_tryAccGrad _ _ _


theorem ak_setGF (x : Nat) (g : GradFn) : Keeps (F := F) (AK false) (setGF x g) := by
  unfold setGF
  exact keepsR_getT fun h i hi => ak_set hi rfl (.inl rfl)

theorem ak_resetInputs : ∀ (l : List Nat), Keeps (F := F) (AK false) (resetInputs l)
  | [] => keeps_pure _
  | x :: xs => by
    unfold resetInputs
    refine keeps_bind (keeps_getT _) fun i => keeps_bind keeps_getVersion fun v => ?_
    cases hg : i.gradFn with
    | none => exact ak_resetInputs xs
    | some g =>
      simp only
      split
      · exact keeps_bind (ak_setGF _ _) fun _ => keeps_bind (ak_resetInputs xs) fun _ => keeps_pure _
      · exact ak_resetInputs xs

theorem ak_countInputs : ∀ (l : List Nat), Keeps (F := F) (AK false) (countInputs l)
  | [] => keeps_pure _
  | x :: xs => by
    unfold countInputs
    refine keeps_bind (keeps_getT _) fun i => keeps_bind keeps_getVersion fun v => ?_
    cases hg : i.gradFn with
    | none => exact ak_countInputs xs
    | some g =>
      simp only
      split
      · exact keeps_bind (ak_setGF _ _) fun _ => keeps_bind (ak_countInputs xs) fun _ => keeps_pure _
      · exact keeps_bind (ak_setGF _ _) fun _ => ak_countInputs xs

theorem ak_readyInputs : ∀ (l : List Nat), Keeps (F := F) (AK false) (readyInputs l)
  | [] => keeps_pure _
  | x :: xs => by
    unfold readyInputs
    refine keeps_bind (keeps_getT _) fun i => keeps_bind keeps_getVersion fun v => ?_
    cases hg : i.gradFn with
    | none => exact ak_readyInputs xs
    | some g =>
      simp only
      split
      · exact keeps_bind (ak_setGF _ _) fun _ => keeps_bind (ak_readyInputs xs) fun _ => keeps_pure _
      · exact ak_readyInputs xs

theorem ak_queueLoop {visit : Nat → M F (List Nat)} (hv : ∀ x, Keeps (AK false) (visit x)) : ∀ (n : Nat) (q : List Nat),
    Keeps (AK false) (queueLoop visit n q)
  | _, [] => by unfold queueLoop; exact keeps_pure _
  | 0, _ :: _ => by unfold queueLoop; exact keeps_undef _
  | n + 1, x :: q => by unfold queueLoop; exact keeps_bind (hv x) fun new => ak_queueLoop hv n _

theorem ak_bump : Keeps (F := F) (AK false) bumpVersion := fun h => ak_of_ts rfl (Nat.le_refl _)

theorem ak_backVisit (t : Nat) : Keeps (F := F) (AK false) (backVisit t) := by
  unfold backVisit
  refine keeps_bind (keeps_getGradFn _) fun g => keeps_bind (ak_stepBack _ _) fun _ => ?_
  have tail : Keeps (F := F) (AK false) (getGradFn t >>= fun g => readyInputs g.inputs) :=
    keeps_bind (keeps_getGradFn _) fun g => ak_readyInputs _
  refine keepsR_getT fun h i hi => ?_
  split
  · exact at_bind (ak_set hi rfl (.inr rfl)) fun _ h' _ => tail h'
  · exact tail h

theorem ak_refreshNOutway (t : Nat) : Keeps (F := F) (AK false) (refreshNOutway t) := by
  unfold refreshNOutway
  refine keeps_bind keeps_heapSize fun n => keeps_bind ak_bump fun v => keeps_bind (keeps_getGradFn _) fun g =>
    keeps_bind (ak_setGF _ _) fun _ => ?_
  refine keeps_bind (ak_queueLoop (fun x => keeps_bind (keeps_getGradFn _) fun g => ak_resetInputs _) _ _) fun _ => ?_
  refine keeps_bind ak_bump fun v => keeps_bind (keeps_getGradFn _) fun g => keeps_bind (ak_setGF _ _) fun _ => ?_
  exact ak_queueLoop (fun x => keeps_bind (keeps_getGradFn _) fun g => ak_countInputs _) _ _

theorem ak_backward (t : Nat) : Keeps (F := F) (AK false) (backward t) := by
  unfold backward
  refine keeps_bind (keeps_getT _) fun i => keeps_bind (keeps_expect _) fun _ => keeps_bind (keeps_expect _) fun _ =>
    keeps_bind (keeps_expect _) fun _ => keeps_bind keeps_heapSize fun n => keeps_bind (ak_refreshNOutway _) fun _ => ?_
  intro h
  refine ak_install (x := onesLike t) (f := fun _ => do
      let v ← bumpVersion
      let g ← getGradFn t
      setGF t { g with backVersion := v }
      queueLoop backVisit (n + 1) [t]) (ak_onesLike _ h) (fun g h1 e => ?_) fun g h2 _ _ _ _ _ => ?_
  · have := (frameInv_extends h).onesLike (extends_refl h) t
    rw [e] at this
    obtain ⟨_, _, j, hj, hd⟩ := this
    exact ⟨j, hj, hd⟩
  · exact (keeps_bind ak_bump fun v => keeps_bind (keeps_getGradFn _) fun g => keeps_bind (ak_setGF _ _) fun _ =>
      ak_queueLoop ak_backVisit _ _ : Keeps (AK false) _) h2

theorem ak_run (c : Call F) : Keeps (AK false) c.run := by
  have S : ∀ {x : M F Nat}, Keeps (AK false) x → Keeps (AK false) (some' x) := fun hx => keeps_bind hx fun _ => keeps_pure _
  have N : ∀ {α : Type} {x : M F α}, Keeps (AK false) x → Keeps (AK false) (none' x) := fun hx => keeps_bind hx fun _ => keeps_pure _
  cases c with
  | scalar dt v => exact S ((ak_createScalar _ _))
  | empty s dt => exact S ((ak_create _ _ _))
  | init tree => exact ak_ofInit tree
  | ones s dt => exact S ((ak_ones _ _))
  | zeros s dt => exact S ((ak_zeros _ _))
  | onesLike t => exact S ((ak_onesLike _))
  | zerosLike t => exact S ((ak_zerosLike _))
  | fullInt s n dt => exact S ((ak_full _ _ _ _))
  | fullReal s n dt => exact S ((ak_full _ _ _ _))
  | eye n m dt => exact S ((ak_eye _ _ _))
  | fromBlob data s dt => exact S ((ak_fromBlob _ _ _))
  | randn rnd s dt => exact S ((ak_randn _ _ _))
  | randnLike rnd t => exact keeps_bind (keeps_getT _) fun i => S ((ak_randn _ _ _))
  | slice t s => exact S (ak_slice _ _)
  | transpose t a b => exact S (ak_transpose _ _ _)
  | reshape t s => exact S (ak_reshape _ _)
  | reshapeAs t u => exact S (ak_reshapeAs _ _)
  | detach t => exact S ((ak_detach _))
  | clone t => exact S (ak_clone _)
  | contiguous t => exact S (ak_clone _)
  | toType t dt => exact S (ak_toType _ _)
  | add l r => exact S (ak_addT _ _)
  | sub l r => exact S (ak_subT _ _)
  | mul l r => exact S (ak_mulT _ _)
  | div l r => exact S (ak_divT _ _)
  | pos t => exact S (keeps_pure _)
  | neg t => exact S (ak_negT _)
  | cmp o l r => exact S ((ak_cmp _ _ _))
  | sum t => exact S (ak_sumT _)
  | mean t => exact S (ak_meanT _)
  | abs t => exact S (ak_absT _)
  | max t => exact S (ak_extreme _ _)
  | min t => exact S (ak_extreme _ _)
  | cat ts d => exact S (ak_catT _ _)
  | addAssign t r => exact N ((ak_addAssign _ _))
  | setRequiresGrad t b => exact N ((ak_setRequiresGrad _ _))
  | setRetainGrad t b => exact N ((ak_setRetainGrad _ _))
  | zeroGrad t => exact N ((ak_zeroGrad _))
  | release t => exact N ((ak_release _))
  | backward t => exact N ((ak_backward _))
  | grad t => exact keeps_gradOf _
  | all t => exact N (keeps_allT _)
  | toString t => exact N (keeps_toString _)
  | stride t => exact N (keeps_stride _)
  | query t => exact N (keeps_getT _)

theorem ak_quiet (c : Call F) (hc : Computes c = true) : Keeps (AK true) c.run := by
  have S : ∀ {x : M F Nat}, Keeps (AK true) x → Keeps (AK true) (some' x) := fun hx => keeps_bind hx fun _ => keeps_pure _
  cases c <;> first | (simp [Computes] at hc; done) | skip
  case scalar dt v => exact S ((ak_createScalar _ _))
  case empty s dt => exact S ((ak_create _ _ _))
  case init tree => exact ak_ofInit tree
  case ones s dt => exact S ((ak_ones _ _))
  case zeros s dt => exact S ((ak_zeros _ _))
  case onesLike t => exact S ((ak_onesLike _))
  case zerosLike t => exact S ((ak_zerosLike _))
  case fullInt s n dt => exact S ((ak_full _ _ _ _))
  case fullReal s n dt => exact S ((ak_full _ _ _ _))
  case eye n m dt => exact S ((ak_eye _ _ _))
  case fromBlob data s dt => exact S ((ak_fromBlob _ _ _))
  case randn rnd s dt => exact S ((ak_randn _ _ _))
  case randnLike rnd t => exact keeps_bind (keeps_getT _) fun i => S ((ak_randn _ _ _))
  case clone t => exact S (ak_clone _)
  case contiguous t => exact S (ak_clone _)
  case add l r => exact S (ak_addT _ _)
  case sub l r => exact S (ak_subT _ _)
  case mul l r => exact S (ak_mulT _ _)
  case div l r => exact S (ak_divT _ _)
  case neg t => exact S (ak_negT _)
  case cmp o l r => exact S ((ak_cmp _ _ _))
  case sum t => exact S (ak_sumT _)
  case mean t => exact S (ak_meanT _)
  case abs t => exact S (ak_absT _)
  case max t => exact S (ak_extreme _ _)
  case min t => exact S (ak_extreme _ _)
  case cat ts d => exact S (ak_catT _ _)

/-! ### Results -/

theorem gradIn_lt {h : Heap F} (hv : Valid h) {d : Nat} (hd : GradIn h d) : d < h.st.length := by
  obtain ⟨y, i, g, j, _, _, hj, rfl⟩ := gradIn_iff.1 hd
  exact hv.data g j hj

/-- The tensor exists and its storage holds no gradient. -/
def ValueOf (h : Heap F) (t : Nat) : Prop := ∃ i, h.ts[t]? = some i ∧ ¬ GradIn h i.data

theorem ValueOf.keep {h h' : Heap F} {t : Nat} (ht : ValueOf h t) (hv : Valid h) (hk : AK false h h') : ValueOf h' t := by
  obtain ⟨i, hi, hg⟩ := ht
  obtain ⟨i', hi', e⟩ := hk.vk.keep t i hi
  refine ⟨i', hi', fun hG => ?_⟩
  rw [e] at hG
  rcases hk.grads hv _ hG with h1 | ⟨_, h1⟩
  · exact hg h1
  · have := hv.data t i hi; omega

/-- If the computation returns, its result is a value. -/
def Lands (x : M F Nat) (h : Heap F) : Prop := ∀ r h', x h = .ok r h' → ValueOf h' r

theorem lands_bind {α : Type} {x : M F α} {f : α → M F Nat} {h : Heap F} (hf : ∀ a h', x h = .ok a h' → Lands (f a) h') : Lands (x >>= f) h := by
  intro r h' e
  rw [M.bind_def] at e
  cases hx : x h with
  | ok a h1 => rw [hx] at e; exact hf a h1 hx r h' e
  | throw a h1 => rw [hx] at e; cases e
  | ub u => rw [hx] at e; cases e

theorem lands_pure {h : Heap F} {r : Nat} (hr : ValueOf h r) : Lands (pure r : M F Nat) h := by
  intro r' h' e
  cases e
  exact hr

theorem lands_getT {t : Nat} {f : Impl → M F Nat} {h : Heap F} (hf : ∀ i, h.ts[t]? = some i → Lands (f i) h) : Lands (getT t >>= f) h := by
  refine lands_bind fun i h' e => ?_
  unfold getT at e
  split at e
  · rename_i j hj; cases e; exact hf _ hj
  · cases e

theorem lands_lift {α : Type} {x : Res α} {f : α → M F Nat} {h : Heap F} (hf : ∀ a, Lands (f a) h) : Lands (M.lift x >>= f) h := by
  refine lands_bind fun i h' e => ?_
  unfold M.lift at e
  split at e <;> cases e
  exact hf _

theorem lands_expect {b : Bool} {f : Unit → M F Nat} {h : Heap F} (hf : Lands (f ()) h) : Lands (expect b >>= f) h := by
  refine lands_bind fun i h' e => ?_
  unfold expect at e
  split at e <;> cases e
  exact hf

theorem lands_makeView {dt : DType} {v : Layout} {base : Nat} {t : Nat} {i : Impl} {h : Heap F} (hv : Valid h) (hi : h.ts[t]? = some i)
    (hg : ¬ GradIn h i.data) : Lands (makeView dt v i.data base) h := by
  unfold makeView
  refine lands_bind fun r h1 e => ?_
  have hk : AK true h h1 := by
    have : KeepsAt (AK true) (createOn dt v i.data) h := ak_createOn (.inr ⟨t, i, hi, rfl⟩)
    unfold KeepsAt at this
    rw [e] at this
    exact this
  have hr : ValueOf h1 r := by
    cases e
    refine ⟨⟨dt, v, i.data, none, false, false, none⟩, by simp, fun hG => ?_⟩
    rcases hk.grads hv _ hG with h | ⟨h, _⟩
    · exact hg h
    · cases h
  refine lands_getT fun b hb => ?_
  split
  · exact lands_pure hr
  · refine lands_bind fun _ h2 e2 => lands_bind fun _ h3 e3 => lands_pure ?_
    have k2 := (ak_setGradFn (q := false) r .noBack [base]) h1
    rw [e2] at k2
    have k3 := (ak_shareGradStorage r base) h2
    rw [e3] at k3
    have hv1 := hk.vk.valid hv
    exact (hr.keep hv1 k2).keep (k2.vk.valid hv1) k3

theorem lands_fresh {h h' : Heap F} {t : Nat} (hv : Valid h) (hk : AK true h h') (hf : Spec.Fresh h h' t) : ValueOf h' t := by
  obtain ⟨_, i, hi, hd⟩ := hf
  refine ⟨i, hi, fun hG => ?_⟩
  rcases hk.grads hv _ hG with h1 | ⟨h1, _⟩
  · have := gradIn_lt hv h1; omega
  · cases h1

theorem lands_reshapeSizes {t : Nat} {s : List Nat} {h : Heap F} (hv : Valid h) (ht : ValueOf h t) : Lands (Tensor.reshapeSizes t s) h := by
  unfold Tensor.reshapeSizes
  dsimp only
  refine lands_getT fun i hi => lands_expect ?_
  obtain ⟨i0, hi0, hg⟩ := ht
  rw [hi] at hi0
  obtain rfl := Option.some.inj hi0
  have rest : ∀ H : Heap F, Valid H → (∃ j, H.ts[t]? = some j ∧ j.data = i.data ∧ ¬ GradIn H j.data) → Lands (if i.view.sizes.length < i.view.strides.length then M.undef .vecOob
    else do
    let iso ← M.lift (isometry i.view.sizes i.view.strides)
    if iso then
      let strides ← if s.length ≠ 0 then do
          let last ← M.lift (vecAt i.view.strides (i.view.strides.length - 1))
          pure (scaledStrides last s)
        else pure i.view.strides
      Tensor.makeView i.dtype ⟨s, strides, i.view.offset⟩ i.data t
    else do
      let m ← Tensor.clone t
      let mi ← getT m
      Tensor.makeView i.dtype (Layout.contig s) mi.data m : M F Nat) H := by
    rintro H hV ⟨j, hj, e, hgj⟩
    split
    · intro r h' e; cases e
    refine lands_lift fun iso => ?_
    rw [← e]
    split
    · dsimp only
      split
      · exact lands_lift fun _ => lands_makeView hV hj hgj
      · exact lands_makeView hV hj hgj
    · refine lands_bind fun m h4 e4 => lands_getT fun mi hmi => ?_
      have hk := ak_clone (q := true) t H
      rw [e4] at hk
      obtain ⟨i', hi', hg'⟩ := lands_fresh hV hk ((C19_independent (.clone t) rfl H h4 (some m) (by
        simp only [Call.run, some', bind, M.bind]; rw [e4]; rfl)).2 m rfl)
      rw [hmi] at hi'
      obtain rfl := Option.some.inj hi'
      exact lands_makeView (hk.vk.valid hV) hmi hg'
  split
  · refine lands_bind fun r h3 e => ?_
    have hm := ak_makeView (dt := i.dtype) (v := ⟨s, List.replicate s.length 1, i.view.offset⟩) (d := i.data) (base := t) (h := h) ⟨t, i, hi, rfl⟩
    unfold KeepsAt at hm
    rw [e] at hm
    have hr := lands_makeView (dt := i.dtype) (v := ⟨s, List.replicate s.length 1, i.view.offset⟩) (base := t) hv hi hg r h3 e
    cases hq : i.requiresGrad
    · exact lands_pure hr
    · obtain ⟨j, hj, hgj⟩ := ValueOf.keep ⟨i, hi, hg⟩ hv hm
      obtain ⟨j', hj', e'⟩ := hm.vk.keep t i hi
      rw [hj] at hj'
      obtain rfl := Option.some.inj hj'
      exact rest h3 (hm.vk.valid hv) ⟨j, hj, e', hgj⟩
  · exact rest h hv ⟨i, hi, rfl, hg⟩

/-- Calls on values other than `grad()` return values. -/
theorem value_result {h h' : Heap F} (hv : Valid h) {c : Call F} (hc : ∀ t, c ≠ .grad t) (ha : ∀ a ∈ args c, ValueOf h a) {t : Nat}
    (e : c.run h = .ok (some t) h') : ValueOf h' t := by
  by_cases hp : Computes c = true
  · have hk := ak_quiet c hp h
    rw [e] at hk
    exact lands_fresh hv hk ((C19_independent c hp h h' _ e).2 t rfl)
  have S : ∀ {x : M F Nat}, Lands x h → some' x h = .ok (some t) h' → ValueOf h' t := fun {x} hx e => by
    unfold some' at e
    rw [M.bind_def] at e
    cases hx' : x h with
    | ok a h1 => rw [hx'] at e; cases e; exact hx _ _ hx'
    | throw a h1 => rw [hx'] at e; cases e
    | ub u => rw [hx'] at e; cases e
  have N : ∀ {α : Type} {x : M F α}, none' x h = .ok (some t) h' → ValueOf h' t := fun {α x} e => by
    unfold none' at e
    rw [M.bind_def] at e
    cases hx' : x h with
    | ok a h1 => rw [hx'] at e; cases e
    | throw a h1 => rw [hx'] at e; cases e
    | ub u => rw [hx'] at e; cases e
  have V : ∀ {u : Nat} {dt : DType} {v : Layout} {i : Impl}, ValueOf h u → h.ts[u]? = some i → Lands (makeView dt v i.data u) h := fun {u dt v i} hu hi => by
    obtain ⟨i', hi', hg⟩ := hu
    rw [hi] at hi'
    obtain rfl := Option.some.inj hi'
    exact lands_makeView hv hi hg
  cases c <;> first | (exact absurd rfl hp) | (exact absurd rfl (hc _)) | (exact N e) | skip
  case slice u s =>
    refine S ?_ e
    unfold Tensor.slice
    exact lands_getT fun i hi => lands_lift fun v => V (ha u (by simp [args])) hi
  case transpose u a b =>
    refine S ?_ e
    unfold Tensor.transpose
    exact lands_getT fun i hi => lands_lift fun v => V (ha u (by simp [args])) hi
  case reshape u s =>
    refine S ?_ e
    unfold Tensor.reshape
    exact lands_getT fun i hi => lands_lift fun v => lands_reshapeSizes hv (ha u (by simp [args]))
  case reshapeAs u w =>
    refine S ?_ e
    unfold Tensor.reshapeAs
    exact lands_getT fun i hi => lands_reshapeSizes hv (ha u (by simp [args]))
  case detach u =>
    refine S ?_ e
    unfold Tensor.detach
    refine lands_getT fun i hi => ?_
    obtain ⟨i', hi', hg⟩ := ha u (by simp [args])
    rw [hi] at hi'
    obtain rfl := Option.some.inj hi'
    intro r h1 e1
    have : KeepsAt (AK true) (createOn i.dtype i.view i.data) h := ak_createOn (.inr ⟨u, i, hi, rfl⟩)
    unfold KeepsAt at this
    rw [e1] at this
    cases e1
    refine ⟨⟨i.dtype, i.view, i.data, none, false, false, none⟩, by simp, fun hG => ?_⟩
    rcases this.grads hv _ hG with h | ⟨h, _⟩
    · exact hg h
    · cases h
  case toType u dt =>
    refine S (fun r h1 e1 => ?_) e
    rcases (C19_type u dt h h1 r e1).2 with hf | ⟨rfl, rfl⟩
    · have hk := ak_toType (q := true) u dt h
      rw [e1] at hk
      exact lands_fresh hv hk hf
    · exact ha r (by simp [args])
  case pos u =>
    refine S (lands_pure (ha u (by simp [args]))) e

theorem ungraded_history {h : Heap F} {vs : List Nat} (hu : Ungraded h vs) : History h := by
  induction hu with
  | start => exact .start
  | returned _ _ _ e ih => exact ih.returned e
  | threw _ _ _ e ih => exact ih.threw e

theorem ungraded_values {h : Heap F} {vs : List Nat} (hu : Ungraded h vs) : ∀ v ∈ vs, ValueOf h v := by
  induction hu with
  | start => simp
  | @returned h h' vs c o hu hc ha e ih =>
    have hv := valid_history (ungraded_history hu)
    have hk := ak_run c h
    rw [e] at hk
    intro v hm
    rcases List.mem_append.1 hm with hm | hm
    · obtain rfl := Option.mem_toList.1 hm
      exact value_result hv hc (fun a h => ih a (ha a h)) e
    · exact (ih v hm).keep hv hk
  | @threw h h' vs c x hu hc ha e ih =>
    have hv := valid_history (ungraded_history hu)
    have hk := ak_run c h
    rw [e] at hk
    exact fun v hm => (ih v hm).keep hv hk

end INNC
