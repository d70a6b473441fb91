import Verif.Lemmas.Valid
import Verif.Lemmas.MemViews
/-
Which gradients and operations a call that makes no view adds: no gradient, and operations whose back-propagation reads elements of
operands only for its result. (The same induction over the calls as in `Valid`.)
-/
namespace INNC
open Spec Tensor
variable {F : Type}

/-- Operations whose back-propagation reads gradients only. -/
def Simple : BackKind → Prop
  | .add | .sub | .sum | .mean | .noBack | .clone => True
  | _ => False

/-- No gradient is new, unallocated storages stay so, and new operations are simple or allowed by `P`,
and new tensors that require grad belong to `R`. -/
structure NK (P : Nat → BackKind → List Nat → Prop) (R : Nat → Prop) (h h' : Heap F) : Prop where
  idle : ∀ (d : Nat) (s : Storage F), h.st[d]? = some s → s.blob = none → h'.st[d]? = some s
  grads : ∀ (x g : Nat) (i' : Impl), h'.ts[x]? = some i' → i'.grad = some g → ∃ i, h.ts[x]? = some i ∧ i.grad = some g
  nodes : ∀ x f', opOf h' x = some f' → (∃ f, opOf h x = some f ∧ f'.kind = f.kind ∧ f'.inputs = f.inputs) ∨ Simple f'.kind ∨ P x f'.kind f'.inputs
  req : ∀ (x : Nat) (i' : Impl), h'.ts[x]? = some i' → i'.requiresGrad = true → (∃ i, h.ts[x]? = some i ∧ i.requiresGrad = true) ∨ R x

variable {P : Nat → BackKind → List Nat → Prop} {R : Nat → Prop}

instance : Pre (F := F) (NK P R) where
  refl _ := ⟨fun _ _ h _ => h, fun _ _ i h hg => ⟨i, h, hg⟩, fun _ f h => .inl ⟨f, h, rfl, rfl⟩, fun _ i h hr => .inl ⟨i, h, hr⟩⟩
  trans h1 h2 := ⟨fun d s hs hb => h2.idle d s (h1.idle d s hs hb) hb, fun x g i hi hg => by
      obtain ⟨j, hj, e⟩ := h2.grads x g i hi hg
      exact h1.grads x g j hj e, fun x f hf => by
      rcases h2.nodes x f hf with ⟨f1, e1, e2, e3⟩ | h
      · rcases h1.nodes x f1 e1 with ⟨f0, q1, q2, q3⟩ | h
        · exact .inl ⟨f0, q1, e2.trans q2, e3.trans q3⟩
        · exact .inr (by rw [e2, e3]; exact h)
      · exact .inr h, fun x i hi hr => by
      rcases h2.req x i hi hr with ⟨j, hj, e⟩ | h
      · exact h1.req x j hj e
      · exact .inr h⟩

theorem nk_of_ts {h h' : Heap F} (ht : h'.ts = h.ts) (hs : ∀ (d : Nat) (s : Storage F), h.st[d]? = some s → s.blob = none → h'.st[d]? = some s) :
    NK P R h h' :=
  ⟨hs, fun x g i hi hg => ⟨i, ht ▸ hi, hg⟩, fun x f hf => .inl ⟨f, by unfold opOf at *; rw [ht] at hf; exact hf, rfl, rfl⟩, fun x i hi hr => .inl ⟨i, ht ▸ hi, hr⟩⟩

theorem nk_set {h : Heap F} {x : Nat} {i k : Impl} (hi : h.ts[x]? = some i) (hg : k.grad = i.grad ∨ k.grad = none)
    (hf : ∀ f', k.gradFn = some f' → (∃ f, i.gradFn = some f ∧ f'.kind = f.kind ∧ f'.inputs = f.inputs) ∨ Simple f'.kind ∨ P x f'.kind f'.inputs)
    (hq : k.requiresGrad = true → i.requiresGrad = true ∨ R x) : NK P R h { h with ts := h.ts.set x k } := by
  refine ⟨fun d s hs _ => hs, fun y g j hj hjg => ?_, fun y f hy => ?_, fun y j hj hr => ?_⟩
  · simp only at hj
    by_cases hxy : x = y
    · subst hxy
      rw [List.getElem?_set_self (getElem?_lt hi)] at hj
      obtain rfl := Option.some.inj hj
      rcases hg with hg | hg
      · exact ⟨i, hi, hg ▸ hjg⟩
      · rw [hg] at hjg; cases hjg
    · rw [List.getElem?_set_ne hxy] at hj
      exact ⟨j, hj, hjg⟩
  · rw [opOf_set (getElem?_lt hi)] at hy
    by_cases hxy : y = x
    · subst hxy
      rw [if_pos rfl] at hy
      rw [opOf_some hi]
      exact hf f hy
    · rw [if_neg hxy] at hy
      exact .inl ⟨f, hy, rfl, rfl⟩
  · simp only at hj
    by_cases hxy : x = y
    · subst hxy
      rw [List.getElem?_set_self (getElem?_lt hi)] at hj
      obtain rfl := Option.some.inj hj
      exact (hq hr).imp_left fun e => ⟨i, hi, e⟩
    · rw [List.getElem?_set_ne hxy] at hj
      exact .inl ⟨j, hj, hr⟩

theorem nk_new {h : Heap F} {i : Impl} (hi : i.grad = none) (hf : i.gradFn = none) (hq : i.requiresGrad = false) : NK P R h { h with ts := h.ts ++ [i] } := by
  have key : ∀ (x : Nat) (j : Impl), (h.ts ++ [i])[x]? = some j → h.ts[x]? = some j ∨ j = i := fun x j hj => by
    by_cases hlt : x < h.ts.length
    · rw [List.getElem?_append_left hlt] at hj
      exact .inl hj
    · rw [List.getElem?_append_right (by omega)] at hj
      cases hk : x - h.ts.length with
      | zero => rw [hk] at hj; exact .inr (by simpa using hj.symm)
      | succ n => rw [hk] at hj; simp at hj
  refine ⟨fun d s hs _ => hs, fun x g j hj hg => ?_, fun x f hx => .inl ⟨f, ?_, rfl, rfl⟩, fun x j hj hr => ?_⟩
  · rcases key x j hj with hj | rfl
    · exact ⟨j, hj, hg⟩
    · rw [hi] at hg; cases hg
  · unfold opOf at hx ⊢
    simp only at hx
    cases hj : (h.ts ++ [i])[x]? with
    | none => rw [hj] at hx; cases hx
    | some j =>
      rw [hj] at hx
      rcases key x j hj with hj' | rfl
      · rw [hj']; exact hx
      · have : j.gradFn = some f := hx
        rw [hf] at this; cases this
  · rcases key x j hj with hj | rfl
    · exact .inl ⟨j, hj, hr⟩
    · rw [hq] at hr; cases hr

theorem nkat {α β : Type} {x : M F α} {f : α → M F β} {h : Heap F} (hx : Keeps (NK P R) x) (hf : ∀ a h', x h = .ok a h' → KeepsAt (NK P R) (f a) h') :
    KeepsAt (NK P R) (x >>= f) h := at_bind (hx h) hf

theorem nk_writes_idle {h h' : Heap F} {D : Nat → Prop} (hw : Writes D h h') (d : Nat) (s : Storage F) (hs : h.st[d]? = some s)
    (hb : s.blob = none) : h'.st[d]? = some s := by
  obtain ⟨s', e, e1, e2, e3⟩ := hw.shape d s hs
  rw [e]
  cases s; cases s'
  simp only at e1 e2 e3 hb
  subst hb e1 e2
  simp only [Option.map_none] at e3
  rw [Option.map_eq_none_iff.1 e3]

theorem nk_writes {α : Type} {x : M F α} (hx : Keeps (Writes fun _ => True) x) : Keeps (NK P R) x :=
  keeps_mono hx fun _ _ h => nk_of_ts h.ts (nk_writes_idle h)

theorem nk_newS (s : Storage F) : Keeps (NK P R) (newS s) := fun h => nk_of_ts rfl fun d s' hs _ => by
  show (h.st ++ [s])[d]? = some s'
  rw [List.getElem?_append_left (getElem?_lt hs)]; exact hs
theorem nk_createOn (dt : DType) (v : Layout) (d : Nat) : Keeps (F := F) (NK P R) (createOn dt v d) := fun _ => nk_new rfl rfl rfl
theorem nk_create (dt : DType) (v : Layout) (b : Bool) : Keeps (F := F) (NK P R) (create dt v b) := by
  unfold create mkStorage
  have key : ∀ s : Storage F, Keeps (NK P R) (newS s >>= fun d => createOn dt v d) := fun s =>
    keeps_bind (nk_newS s) fun d => nk_createOn _ _ _
  split
  · split
    · exact key _
    · exact fun h => Pre.refl (R := NK P R) h
  · exact key _

variable [FOps F]

theorem nk_zeroS (d : Nat) : Keeps (F := F) (NK P R) (zeroS d) := nk_writes (keeps_zeroS trivial)
theorem nk_createScalar (dt : DType) (v : Val F) : Keeps (NK P R) (createScalar dt v) := by
  unfold createScalar
  refine keeps_bind (nk_create _ _ _) fun t => keeps_bind (keeps_getT _) fun i => ?_
  exact keeps_bind (nk_writes (keeps_store trivial _ _ _)) fun _ => keeps_pure _
theorem nk_full (s : List Nat) (nt : DType) (v : Val F) (dt : DType) : Keeps (NK P R) (full s nt v dt) := by
  unfold full
  refine keeps_bind (nk_createScalar _ _) fun t => keeps_bind (nk_create _ _ _) fun r => keeps_bind (keeps_getT _) fun i =>
    keeps_bind (keeps_getT _) fun i => ?_
  exact keeps_bind (nk_writes (keeps_tensorFill trivial _ _ _)) fun _ => keeps_pure _
theorem nk_ones (s : List Nat) (dt : DType) : Keeps (F := F) (NK P R) (ones s dt) := nk_full s .i8 (.i 1) dt
theorem nk_zeros (s : List Nat) (dt : DType) : Keeps (F := F) (NK P R) (zeros s dt) := by
  unfold zeros
  refine keeps_bind (nk_create _ _ _) fun r => keeps_bind (keeps_getT _) fun i => ?_
  exact keeps_bind (nk_zeroS _) fun _ => keeps_pure _
theorem nk_onesLike (t : Nat) : Keeps (F := F) (NK P R) (onesLike t) := by
  unfold onesLike
  exact keeps_bind (keeps_getT _) fun i => nk_ones _ _
theorem nk_zerosLike (t : Nat) : Keeps (F := F) (NK P R) (zerosLike t) := by
  unfold zerosLike
  exact keeps_bind (keeps_getT _) fun i => nk_zeros _ _
theorem nk_eye (n m : Nat) (dt : DType) : Keeps (F := F) (NK P R) (eye n m dt) := by
  unfold eye
  refine keeps_bind (nk_create _ _ _) fun r => keeps_bind (keeps_getT _) fun i => ?_
  refine keeps_bind (nk_zeroS _) fun _ => ?_
  exact keeps_bind (nk_writes (keeps_tensorEye trivial _)) fun _ => keeps_pure _
theorem nk_fromBlob (data : List (Val F)) (s : List Nat) (dt : DType) : Keeps (NK P R) (fromBlob data s dt) := by
  unfold fromBlob
  refine keeps_bind (nk_create _ _ _) fun r => keeps_bind (keeps_getT _) fun i => ?_
  simp only
  split
  · exact keeps_bind (keeps_undef _) fun _ => keeps_pure _
  · exact keeps_bind (nk_writes (keeps_blobGo trivial _ _ _)) fun _ => keeps_pure _
theorem nk_randn (rnd : Nat → F) (s : List Nat) (dt : DType) : Keeps (NK P R) (randn rnd s dt) := by
  unfold randn
  refine keeps_bind (keeps_expect _) fun _ => keeps_bind (nk_create _ _ _) fun r => keeps_bind (keeps_getT _) fun i =>
    keeps_bind (keeps_getS _) fun st => ?_
  exact keeps_bind (nk_writes (keeps_randGo trivial _ _ _ _)) fun _ => keeps_pure _
theorem nk_detach (t : Nat) : Keeps (F := F) (NK P R) (detach t) := by
  unfold detach
  exact keeps_bind (keeps_getT _) fun i => nk_createOn _ _ _
theorem nk_applyNoGradBinary {k : Kernel F}
    (hk : ∀ (L R : DType) (d l r : Impl), Keeps (Writes fun _ => True) (k L R d l r)) (l r : Nat) (o : Bool) :
    Keeps (NK P R) (applyNoGradBinary k l r o) := by
  unfold applyNoGradBinary
  refine keeps_bind (keeps_getT _) fun li => keeps_bind (keeps_getT _) fun ri => keeps_bind (keeps_lift _) fun range =>
    keeps_bind (nk_create _ _ _) fun t => keeps_bind (keeps_getT _) fun d => ?_
  have key : ∀ (L L' : DType) (a b : Impl), Keeps (NK P R) (k L L' d a b >>= fun _ => (pure t : M F Nat)) := fun L L' a b =>
    keeps_bind (nk_writes (hk _ _ _ _ _)) fun _ => keeps_pure _
  split
  · split
    · exact key _ _ _ _
    · exact key _ _ _ _
  · exact key _ _ _ _
theorem nk_cmp (op : COp) (l r : Nat) : Keeps (F := F) (NK P R) (Tensor.cmp op l r) := by
  unfold Tensor.cmp
  refine keeps_bind (keeps_getT _) fun li => keeps_bind (keeps_getT _) fun ri => keeps_bind (keeps_lift _) fun range =>
    keeps_bind (nk_create _ _ _) fun t => keeps_bind (keeps_getT _) fun d => ?_
  exact keeps_bind (nk_writes (keeps_tensorCmp trivial _ _ _ _ _)) fun _ => keeps_pure _
theorem nk_addAssign (t r : Nat) : Keeps (F := F) (NK P R) (addAssign t r) := by
  unfold addAssign
  refine keeps_bind (keeps_getT _) fun i => keeps_bind (keeps_expect _) fun _ => keeps_bind (keeps_getT _) fun j => ?_
  exact nk_writes (keeps_tensorAdd trivial _ _ _ _)
theorem nk_zeroGrad (t : Nat) : Keeps (F := F) (NK P R) (zeroGrad t) := by
  unfold zeroGrad
  refine keeps_bind (keeps_getT _) fun i => ?_
  cases i.grad with
  | none => exact keeps_pure _
  | some g => exact keeps_bind (keeps_getT _) fun i => nk_zeroS _
omit [FOps F] in
theorem nk_setRequiresGrad (t : Nat) (b : Bool) : Keeps (F := F) (NK P (· = t)) (setRequiresGrad t b) := by
  unfold setRequiresGrad
  refine keeps_bind (keeps_getT _) fun i => ?_
  have key : Keeps (F := F) (NK P (· = t)) (getT t >>= fun i => setT t { i with requiresGrad := b }) :=
    keepsR_getT fun h i hi => nk_set hi (.inl rfl) (fun f hf => .inl ⟨f, hf, rfl, rfl⟩) fun _ => .inr rfl
  split
  · exact keeps_bind (keeps_expect _) fun _ => key
  · exact key
omit [FOps F] in
theorem nk_setRetainGrad (t : Nat) (b : Bool) : Keeps (F := F) (NK P R) (setRetainGrad t b) := by
  unfold setRetainGrad
  exact keepsR_getT fun h i hi => nk_set hi (.inl rfl) (fun f hf => .inl ⟨f, hf, rfl, rfl⟩) .inl

theorem nk_ofInit (tree : InitTree F) : Keeps (NK P R) (ofInit tree) := by
  unfold ofInit
  refine keeps_bind (keeps_lift _) fun init => ?_
  unfold createImpl
  split
  · exact keeps_pure _
  · cases init.dtype with
    | none => exact keeps_undef _
    | some dt =>
      intro h
      have h1 := create_made (dt := dt) (v := Layout.contig init.shape) (b := false) h
      have h2 := nk_create (P := P) (R := R) dt (Layout.contig init.shape) false h
      simp only
      rw [M.bind_def]
      cases hc : create dt (Layout.contig init.shape) false h with
      | ok t H =>
        rw [hc] at h1 h2
        obtain ⟨hx, _, j, hj, _, _, _, hd, _⟩ := h1
        simp only
        rw [M.bind_ok (getT_ok hj), M.bind_def]
        unfold getS
        cases hs : H.st[j.data]? with
        | none => trivial
        | some s =>
          refine ⟨fun d s' hs' hb => ?_, h2.grads, h2.nodes, h2.req⟩
          show (H.st.set j.data _)[d]? = some s'
          have := getElem?_lt hs'
          rw [List.getElem?_set_ne (by omega)]
          exact h2.idle d s' hs' hb
      | throw e H => rw [hc] at h2; exact h2
      | ub u => trivial


/-! ### Differentiable operations -/

/-- New operations are simple or belong to the result and are allowed by `K`; only the result requires grad; there is none if the
call throws. -/
def Adds (K : BackKind → List Nat → Prop) (x : M F Nat) (h : Heap F) : Prop :=
  match x h with
  | .ok r h' => NK (fun x k ins => x = r ∧ K k ins) (· = r) h h'
  | .throw _ h' => NK (fun _ _ _ => False) (fun _ => False) h h'
  | .ub _ => True

variable {K : BackKind → List Nat → Prop}

/-- No operation. -/
def noK : BackKind → List Nat → Prop := fun _ _ => False

section
omit [FOps F]

theorem NK.mono {P' : Nat → BackKind → List Nat → Prop} {R' : Nat → Prop} {h h' : Heap F} (hk : NK P R h h')
    (hp : ∀ x k ins, P x k ins → P' x k ins) (hr : ∀ x, R x → R' x) : NK P' R' h h' :=
  ⟨hk.idle, hk.grads, fun x f hf => (hk.nodes x f hf).imp_right fun h => h.imp_right (hp x _ _), fun x i hi h => (hk.req x i hi h).imp_right (hr x)⟩

theorem adds_pure {r : Nat} {h : Heap F} : Adds K (pure r) h := Pre.refl (R := NK _ _) h

theorem adds_undef {u : UB} {h : Heap F} : Adds K (M.undef u) h := trivial

theorem adds_raise {e : Exc} {h : Heap F} : Adds K (M.raise e) h := Pre.refl (R := NK _ _) h

theorem adds_bind {α : Type} {x : M F α} {f : α → M F Nat} {h : Heap F} (hx : Keeps (NK (fun _ _ _ => False) fun _ => False) x)
    (hf : ∀ a h', Adds K (f a) h') : Adds K (x >>= f) h := by
  unfold Adds
  rw [M.bind_def]
  have := hx h
  cases hxh : x h with
  | ok a h1 =>
    rw [hxh] at this
    have h2 := hf a h1
    unfold Adds at h2
    simp only
    split
    · rename_i e; rw [e] at h2; exact Pre.trans (R := NK _ _) (this.mono (fun _ _ _ h => h.elim) fun _ h => h.elim) h2
    · rename_i e; rw [e] at h2; exact Pre.trans (R := NK _ _) this h2
    · trivial
  | throw e h1 => rw [hxh] at this; exact this
  | ub u => trivial

theorem adds_record {t : Nat} {kind : BackKind} {inputs : List Nat} {h : Heap F} (hs : Simple kind ∨ K kind inputs) :
    Adds (F := F) K (do Tensor.setGradFn t kind inputs; return t) h := by
  unfold Adds Tensor.setGradFn
  simp only [bind_assoc]
  rw [M.bind_def]
  unfold getT
  cases hi : h.ts[t]? with
  | none => trivial
  | some i =>
    refine nk_set hi (.inl rfl) (fun f hf => .inr ?_) fun _ => .inr rfl
    cases hf
    exact hs.imp_right fun h => ⟨rfl, h⟩

end

theorem adds_copyTail {t r : Nat} {i : Impl} {h : Heap F} : Adds (F := F) noK (do
      if !i.requiresGrad then return r
      Tensor.setGradFn r .clone [t]
      return r) h := by
  split
  · exact adds_pure
  · exact adds_record (.inl trivial)

theorem adds_clone (t : Nat) (h : Heap F) : Adds (F := F) noK (Tensor.clone t) h := by
  unfold Tensor.clone
  refine adds_bind (keeps_getT _) fun i _ => adds_bind (nk_create _ _ _) fun r _ => adds_bind (keeps_getT _) fun d _ => ?_
  exact adds_bind (nk_writes (keeps_copyLoop trivial _ _ _)) fun _ _ => adds_copyTail

theorem adds_toType (t : Nat) (dt : DType) (h : Heap F) : Adds (F := F) noK (Tensor.toType t dt) h := by
  unfold Tensor.toType
  refine adds_bind (keeps_getT _) fun i _ => ?_
  split
  · exact adds_raise
  split
  · exact adds_pure
  refine adds_bind (nk_create _ _ _) fun r _ => adds_bind (keeps_getT _) fun d _ => ?_
  exact adds_bind (nk_writes (keeps_copyLoop trivial _ _ _)) fun _ _ => adds_copyTail

theorem adds_applyBinary {l r : Nat} {k : Kernel F} {back : BackKind} (hs : Simple back ∨ K back [l, r])
    (hk : ∀ (L R : DType) (d l r : Impl), Keeps (Writes fun _ => True) (k L R d l r)) (o : Bool) (h : Heap F) :
    Adds K (Tensor.applyBinary k back l r o) h := by
  unfold Tensor.applyBinary
  refine adds_bind (nk_applyNoGradBinary hk l r o) fun t _ => adds_bind (keeps_getT _) fun _ _ => adds_bind (keeps_getT _) fun _ _ => ?_
  split
  · exact adds_pure
  · exact adds_record hs

theorem adds_addT (l r : Nat) (h : Heap F) : Adds (F := F) noK (addT l r) h :=
  adds_applyBinary (back := .add) (.inl trivial) (fun _ _ _ _ _ => keeps_tensorAdd trivial _ _ _ _) false h
theorem adds_subT (l r : Nat) (h : Heap F) : Adds (F := F) noK (subT l r) h :=
  adds_applyBinary (back := .sub) (.inl trivial) (fun _ _ _ _ _ => keeps_tensorSub trivial _ _ _ _) true h
theorem adds_mulT (l r : Nat) (h : Heap F) : Adds (F := F) (fun k ins => k = .mul ∧ ins = [l, r]) (mulT l r) h :=
  adds_applyBinary (.inr ⟨rfl, rfl⟩) (fun _ _ _ _ _ => keeps_tensorMul trivial _ _ _ _) false h
theorem adds_divT (l r : Nat) (h : Heap F) : Adds (F := F) (fun k ins => k = .div ∧ ins = [l, r]) (divT l r) h :=
  adds_applyBinary (.inr ⟨rfl, rfl⟩) (fun _ _ _ _ _ => keeps_tensorDiv trivial _ _ _ _) true h
theorem adds_negT (t : Nat) (h : Heap F) : Adds (F := F) noK (negT t) h := by
  unfold negT
  exact adds_bind (nk_createScalar _ _) fun z h' => adds_subT _ _ h'

theorem adds_sumLike {k : DType → DType → Impl → Impl → M F Unit} {back : BackKind} (hb : Simple back)
    (hk : ∀ (T S : DType) (d l : Impl), Keeps (Writes fun _ => True) (k T S d l)) (t : Nat) (h : Heap F) :
    Adds (F := F) noK (do
      let i ← getT t
      let tf ← zeros [] (sumType i.dtype)
      k (sumType i.dtype) i.dtype (← getT tf) i
      if i.requiresGrad then Tensor.setGradFn tf back [t]
      return tf) h := by
  refine adds_bind (keeps_getT _) fun i _ => adds_bind (nk_zeros _ _) fun tf _ => adds_bind (keeps_getT _) fun d _ =>
    adds_bind (nk_writes (hk _ _ _ _)) fun _ _ => ?_
  split
  · exact adds_record (.inl hb)
  · exact adds_pure

theorem adds_sumT (t : Nat) (h : Heap F) : Adds (F := F) noK (sumT t) h := by
  unfold sumT
  exact adds_sumLike (k := tensorSum) (back := .sum) trivial (fun _ _ _ _ => keeps_tensorSum trivial _ _ _) t h
theorem adds_meanT (t : Nat) (h : Heap F) : Adds (F := F) noK (meanT t) h := by
  unfold meanT
  exact adds_sumLike (k := tensorMean) (back := .mean) trivial (fun _ _ _ _ => keeps_tensorMean trivial _ _ _) t h

theorem adds_absT {t : Nat} {h : Heap F} {i : Impl} (hi : h.ts[t]? = some i) :
    Adds (F := F) (fun k _ => i.requiresGrad = true ∧ ∃ g, k = .knownGrad g) (absT t) h := by
  unfold Adds absT
  rw [M.bind_ok (getT_ok hi)]
  refine adds_bind (nk_create _ _ _) fun r _ => ?_
  split
  · refine adds_bind (keeps_getT _) fun d _ => adds_bind (nk_writes (keeps_tensorAbs trivial _ _ _ _ (by simp))) fun _ _ => adds_pure
  · next hr =>
    refine adds_bind (nk_create _ _ _) fun g _ => adds_bind (keeps_getT _) fun d _ => adds_bind (keeps_getT _) fun d _ => ?_
    exact adds_bind (nk_writes (keeps_tensorAbs trivial _ _ _ _ (by simp))) fun _ _ => adds_record (.inr ⟨by simpa using hr, _, rfl⟩)

theorem adds_extreme {c : COp} {t : Nat} {h : Heap F} {i : Impl} (hi : h.ts[t]? = some i) :
    Adds (F := F) (fun k _ => i.requiresGrad = true ∧ ∃ g, k = .knownGrad g) (extreme c t) h := by
  unfold Adds extreme
  rw [M.bind_ok (getT_ok hi)]
  refine adds_bind (nk_zeros _ _) fun r _ => ?_
  split
  · refine adds_bind (keeps_getT _) fun d _ => adds_bind (nk_writes (keeps_tensorExtreme trivial _ _ _ _ (by simp))) fun _ _ => adds_pure
  · next hr =>
    refine adds_bind (nk_zerosLike _) fun g _ => adds_bind (keeps_getT _) fun d _ => adds_bind (keeps_getT _) fun d _ => ?_
    exact adds_bind (nk_writes (keeps_tensorExtreme trivial _ _ _ _ (by simp))) fun _ _ => adds_record (.inr ⟨by simpa using hr, _, rfl⟩)

theorem adds_catT (ts : List Nat) (d : Nat) (h : Heap F) : Adds (F := F) (fun k ins => k = .cat d ∧ ins = ts) (catT ts d) h := by
  unfold catT
  cases ts with
  | nil => exact adds_undef
  | cons t0 rest =>
    refine adds_bind (keeps_getT _) fun i _ => adds_bind (keeps_expect _) fun _ _ => adds_bind (keeps_getAll _) fun others _ =>
      adds_bind (keeps_catCheck _ _ _) fun _ _ => ?_
    refine adds_bind (nk_create _ _ _) fun r _ => adds_bind (keeps_getT _) fun j _ => adds_bind (nk_writes (keeps_catGo trivial _ _ _ _)) fun _ _ => ?_
    split
    · exact adds_record (.inr ⟨rfl, rfl⟩)
    · exact adds_pure

end INNC
