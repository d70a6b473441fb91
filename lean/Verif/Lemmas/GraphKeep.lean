import Verif.Lemmas.Graph
import Verif.Lemmas.Track
/-
Every call keeps the graph of operations well formed.
-/
namespace INNC
open Spec Tensor
variable {F : Type}

/-! ### Steps that record no operation -/

/-- No operation is recorded: only counters change. -/
structure NoOp (h h' : Heap F) : Prop where
  gver : h.gver ≤ h'.gver
  len : h.ts.length ≤ h'.ts.length
  ops : ∀ x g', opOf h' x = some g' → ∃ g, opOf h x = some g ∧ g'.kind = g.kind ∧ g'.inputs = g.inputs ∧
    (g'.backVersion = g.backVersion ∨ g'.backVersion ≤ h'.gver)
  keep : ∀ x g, opOf h x = some g → ∃ g', opOf h' x = some g' ∧ g.accOutway ≤ g'.accOutway

instance : Pre (F := F) NoOp where
  refl h := ⟨Nat.le_refl _, Nat.le_refl _, fun x g' hg => ⟨g', hg, rfl, rfl, .inl rfl⟩, fun x g hg => ⟨g, hg, Nat.le_refl _⟩⟩
  trans {a b c} h1 h2 := by
    refine ⟨Nat.le_trans h1.gver h2.gver, Nat.le_trans h1.len h2.len, fun x g'' hg => ?_, fun x g hg => ?_⟩
    rotate_left
    · obtain ⟨g', e1, e2⟩ := h1.keep x g hg
      obtain ⟨g'', f1, f2⟩ := h2.keep x g' e1
      exact ⟨g'', f1, Nat.le_trans e2 f2⟩
    obtain ⟨g', e1, e2, e3, e4⟩ := h2.ops x g'' hg
    obtain ⟨g, f1, f2, f3, f4⟩ := h1.ops x g' e1
    refine ⟨g, f1, e2.trans f2, e3.trans f3, ?_⟩
    have := h2.gver
    rcases e4 with e4 | e4
    · rcases f4 with f4 | f4
      · exact .inl (e4.trans f4)
      · exact .inr (by omega)
    · exact .inr e4

theorem noOp_of_ops {h h' : Heap F} (hv : h'.gver = h.gver) (hl : h.ts.length ≤ h'.ts.length)
    (ho : ∀ x g, opOf h' x = some g → opOf h x = some g) (hk : ∀ x g, opOf h x = some g → opOf h' x = some g) : NoOp h h' :=
  ⟨by rw [hv], hl, fun x g' hg => ⟨g', ho x g' hg, rfl, rfl, .inl rfl⟩, fun x g hg => ⟨g, hk x g hg, Nat.le_refl _⟩⟩

theorem noOp_of_ts {h h' : Heap F} (hv : h'.gver = h.gver) (ht : h'.ts = h.ts) : NoOp h h' :=
  noOp_of_ops hv (by rw [ht]) (fun x g hg => by unfold opOf at *; rw [ht] at hg; exact hg)
    fun x g hg => by unfold opOf at *; rw [ht]; exact hg

theorem NoOp.graph {h h' : Heap F} (hn : NoOp h h') (hg : Graph h) : Graph h' := by
  refine ⟨fun x y hu => ?_, fun x g' hx => ?_, fun x g' hx => ?_⟩
  · unfold Uses operands at hu
    cases ho : opOf h' x with
    | none => rw [ho] at hu; simp at hu
    | some g' =>
      obtain ⟨g, e1, e2, e3, _⟩ := hn.ops x g' ho
      rw [ho] at hu
      refine hg.older x y ?_
      unfold Uses operands
      rw [e1]; show y ∈ g.inputs; rw [← e3]; exact hu
  · obtain ⟨g, e1, e2, e3, _⟩ := hn.ops x g' hx
    rw [e2, e3]; exact hg.arity x g e1
  · obtain ⟨g, e1, e2, e3, e4⟩ := hn.ops x g' hx
    have := hn.gver
    rcases e4 with e4 | e4
    · have := hg.version x g e1; omega
    · exact e4

theorem opOf_set {h : Heap F} {x : Nat} {k : Impl} (hx : x < h.ts.length) (y : Nat) :
    opOf { h with ts := h.ts.set x k } y = if y = x then k.gradFn else opOf h y := by
  unfold opOf
  simp only
  by_cases hxy : y = x
  · subst hxy
    rw [List.getElem?_set_self hx, if_pos rfl]; rfl
  · rw [List.getElem?_set_ne (Ne.symm hxy), if_neg hxy]

theorem noOp_set {h : Heap F} {x : Nat} {i k : Impl} (hi : h.ts[x]? = some i)
    (hk : ∀ g', k.gradFn = some g' → ∃ g, i.gradFn = some g ∧ g'.kind = g.kind ∧ g'.inputs = g.inputs ∧
      (g'.backVersion = g.backVersion ∨ g'.backVersion ≤ h.gver))
    (ha : ∀ g, i.gradFn = some g → ∃ g', k.gradFn = some g' ∧ g.accOutway ≤ g'.accOutway) :
    NoOp h { h with ts := h.ts.set x k } := by
  refine ⟨Nat.le_refl _, by simp, fun y g' hg => ?_, fun y g hg => ?_⟩
  rotate_left
  · rw [opOf_set (getElem?_lt hi)]
    by_cases hy : y = x
    · rw [if_pos hy]
      subst hy
      rw [opOf_some hi] at hg
      exact ha g hg
    · rw [if_neg hy]
      exact ⟨g, hg, Nat.le_refl _⟩
  rw [opOf_set (getElem?_lt hi)] at hg
  by_cases hy : y = x
  · rw [if_pos hy] at hg
    subst hy
    rw [opOf_some hi]
    exact hk g' hg
  · rw [if_neg hy] at hg
    exact ⟨g', hg, rfl, rfl, .inl rfl⟩

theorem noOp_set_same {h : Heap F} {x : Nat} {i k : Impl} (hi : h.ts[x]? = some i) (hk : k.gradFn = i.gradFn) :
    NoOp h { h with ts := h.ts.set x k } :=
  noOp_set hi (fun g' hg => ⟨g', hk ▸ hg, rfl, rfl, .inl rfl⟩) fun g hg => ⟨g, hk ▸ hg, Nat.le_refl _⟩

theorem noOp_new {h : Heap F} {i : Impl} (hi : i.gradFn = none) : NoOp h { h with ts := h.ts ++ [i] } := by
  refine noOp_of_ops rfl (by simp) (fun x g hg => ?_) fun x g hg => ?_
  rotate_left
  · unfold opOf at *
    simp only
    by_cases hlt : x < h.ts.length
    · rwa [List.getElem?_append_left hlt]
    · rw [List.getElem?_eq_none (by omega)] at hg; simp at hg
  unfold opOf at *
  simp only at hg
  by_cases hlt : x < h.ts.length
  · rwa [List.getElem?_append_left hlt] at hg
  · rw [List.getElem?_append_right (by omega)] at hg
    cases hk : x - h.ts.length with
    | zero => rw [hk] at hg; simp [hi] at hg
    | succ n => rw [hk] at hg; simp at hg

theorem keeps_mono {α : Type} {R S : Heap F → Heap F → Prop} {x : M F α} (hx : Keeps R x) (hRS : ∀ a b, R a b → S a b) :
    Keeps S x := by
  intro h
  have := hx h
  cases hxh : x h with
  | ok a h' => rw [hxh] at this; exact hRS _ _ this
  | throw e h' => rw [hxh] at this; exact hRS _ _ this
  | ub u => trivial

/-- `Keeps` at one state. -/
def KeepsAt {α : Type} (R : Heap F → Heap F → Prop) (x : M F α) (h : Heap F) : Prop :=
  match x h with
  | .ok _ h' => R h h'
  | .throw _ h' => R h h'
  | .ub _ => True

theorem keeps_of_at {α : Type} {R : Heap F → Heap F → Prop} {x : M F α} (hx : ∀ h, KeepsAt R x h) : Keeps R x := hx

section
variable {R : Heap F → Heap F → Prop} [Pre R] {α β : Type}

theorem at_bind {x : M F α} {f : α → M F β} {h : Heap F} (hx : KeepsAt R x h)
    (hf : ∀ a h', x h = .ok a h' → KeepsAt R (f a) h') : KeepsAt R (x >>= f) h := by
  unfold KeepsAt at *
  rw [M.bind_def]
  cases hxh : x h with
  | ok a h' =>
    rw [hxh] at hx
    have h2 := hf a h' hxh
    simp only
    cases hfa : f a h' <;> rw [hfa] at h2 <;> simp only <;> first | exact Pre.trans hx h2 | trivial
  | throw e h' => rw [hxh] at hx; exact hx
  | ub u => trivial

theorem at_getT {t : Nat} {f : Impl → M F β} {h : Heap F} (hf : ∀ i, h.ts[t]? = some i → KeepsAt R (f i) h) :
    KeepsAt R (getT t >>= f) h := by
  cases hi : h.ts[t]? with
  | none =>
    have e : (getT t : M F Impl) h = .ub .nullptr := by unfold getT; rw [hi]
    unfold KeepsAt; rw [M.bind_ub e]; trivial
  | some i =>
    have := hf i hi
    unfold KeepsAt at *
    rw [M.bind_ok (getT_ok hi)]
    exact this

theorem at_reads {x : M F α} {f : α → M F β} {h : Heap F} (hx : Keeps (fun a b : Heap F => b = a) x)
    (hf : ∀ a, KeepsAt R (f a) h) : KeepsAt R (x >>= f) h := by
  refine at_bind (keeps_mono hx (fun _ b e => by subst e; exact Pre.refl b) h) fun a h' e => ?_
  have := hx h
  rw [e] at this
  subst this
  exact hf a

theorem keepsR_getT {t : Nat} {f : Impl → M F β} (hf : ∀ h i, h.ts[t]? = some i → KeepsAt R (f i) h) :
    Keeps R (getT t >>= f) := fun h => at_getT (hf h)

end

theorem noOp_writes {α : Type} {x : M F α} (hx : Keeps (Writes fun _ => True) x) : Keeps NoOp x :=
  keeps_mono hx fun _ _ h => noOp_of_ts h.gver h.ts

theorem noOp_newS (s : Storage F) : Keeps NoOp (newS s) := fun _ => noOp_of_ts rfl rfl
theorem noOp_setS (d : Nat) (s : Storage F) : Keeps NoOp (setS d s) := fun _ => noOp_of_ts rfl rfl
theorem noOp_createOn (dt : DType) (v : Layout) (d : Nat) : Keeps (F := F) NoOp (createOn dt v d) := fun _ => noOp_new rfl
theorem noOp_mkStorage (dt : DType) (n : Nat) (b : Bool) : Keeps (F := F) NoOp (mkStorage dt n b) := by
  unfold mkStorage
  split
  · split
    · exact noOp_newS _
    · exact keeps_raise _
  · exact noOp_newS _
theorem noOp_create (dt : DType) (v : Layout) (b : Bool) : Keeps (F := F) NoOp (create dt v b) := by
  unfold create
  exact keeps_bind (noOp_mkStorage _ _ _) fun _ => noOp_createOn _ _ _
theorem noOp_allocS (d : Nat) : Keeps (F := F) NoOp (allocS d) := by
  unfold allocS
  refine keeps_bind (keeps_getS _) fun s => ?_
  split
  · exact noOp_setS _ _
  · exact keeps_raise _

variable [FOps F]

theorem noOp_zeroS (d : Nat) : Keeps (F := F) NoOp (zeroS d) := noOp_writes (keeps_zeroS trivial)
theorem noOp_createScalar (dt : DType) (v : Val F) : Keeps NoOp (createScalar dt v) := by
  unfold createScalar
  refine keeps_bind (noOp_create _ _ _) fun t => keeps_bind (keeps_getT _) fun i => ?_
  exact keeps_bind (noOp_writes (keeps_store trivial _ _ _)) fun _ => keeps_pure _
theorem noOp_full (s : List Nat) (n : DType) (v : Val F) (dt : DType) : Keeps NoOp (full s n v dt) := by
  unfold full
  refine keeps_bind (noOp_createScalar _ _) fun t => keeps_bind (noOp_create _ _ _) fun r => keeps_bind (keeps_getT _) fun i =>
    keeps_bind (keeps_getT _) fun i => ?_
  exact keeps_bind (noOp_writes (keeps_tensorFill trivial _ _ _)) fun _ => keeps_pure _
theorem noOp_ones (s : List Nat) (dt : DType) : Keeps (F := F) NoOp (ones s dt) := noOp_full s .i8 (.i 1) dt
theorem noOp_zeros (s : List Nat) (dt : DType) : Keeps (F := F) NoOp (zeros s dt) := by
  unfold zeros
  refine keeps_bind (noOp_create _ _ _) fun r => keeps_bind (keeps_getT _) fun i => ?_
  exact keeps_bind (noOp_zeroS _) fun _ => keeps_pure _
theorem noOp_onesLike (t : Nat) : Keeps (F := F) NoOp (onesLike t) := by
  unfold onesLike
  exact keeps_bind (keeps_getT _) fun i => noOp_ones _ _
theorem noOp_zerosLike (t : Nat) : Keeps (F := F) NoOp (zerosLike t) := by
  unfold zerosLike
  exact keeps_bind (keeps_getT _) fun i => noOp_zeros _ _
theorem noOp_eye (n m : Nat) (dt : DType) : Keeps (F := F) NoOp (eye n m dt) := by
  unfold eye
  refine keeps_bind (noOp_create _ _ _) fun r => keeps_bind (keeps_getT _) fun i => ?_
  refine keeps_bind (noOp_zeroS _) fun _ => ?_
  exact keeps_bind (noOp_writes (keeps_tensorEye trivial _)) fun _ => keeps_pure _
theorem noOp_fromBlob (data : List (Val F)) (s : List Nat) (dt : DType) : Keeps NoOp (fromBlob data s dt) := by
  unfold fromBlob
  refine keeps_bind (noOp_create _ _ _) fun r => keeps_bind (keeps_getT _) fun i => ?_
  simp only
  split
  · exact keeps_bind (keeps_undef _) fun _ => keeps_pure _
  · exact keeps_bind (noOp_writes (keeps_blobGo trivial _ _ _)) fun _ => keeps_pure _
theorem noOp_randn (rnd : Nat → F) (s : List Nat) (dt : DType) : Keeps NoOp (randn rnd s dt) := by
  unfold randn
  refine keeps_bind (keeps_expect _) fun _ => keeps_bind (noOp_create _ _ _) fun r => keeps_bind (keeps_getT _) fun i =>
    keeps_bind (keeps_getS _) fun st => ?_
  exact keeps_bind (noOp_writes (keeps_randGo trivial _ _ _ _)) fun _ => keeps_pure _
theorem noOp_detach (t : Nat) : Keeps (F := F) NoOp (detach t) := by
  unfold detach
  exact keeps_bind (keeps_getT _) fun i => noOp_createOn _ _ _
theorem noOp_applyNoGradBinary {k : Kernel F}
    (hk : ∀ (L R : DType) (d l r : Impl), Keeps (Writes fun _ => True) (k L R d l r)) (l r : Nat) (o : Bool) :
    Keeps NoOp (applyNoGradBinary k l r o) := by
  unfold applyNoGradBinary
  refine keeps_bind (keeps_getT _) fun li => keeps_bind (keeps_getT _) fun ri => keeps_bind (keeps_lift _) fun range =>
    keeps_bind (noOp_create _ _ _) fun t => keeps_bind (keeps_getT _) fun d => ?_
  have key : ∀ (L R : DType) (a b : Impl), Keeps NoOp (k L R d a b >>= fun _ => (pure t : M F Nat)) := fun L R a b =>
    keeps_bind (noOp_writes (hk _ _ _ _ _)) fun _ => keeps_pure _
  split
  · split
    · exact key _ _ _ _
    · exact key _ _ _ _
  · exact key _ _ _ _
theorem noOp_cmp (op : COp) (l r : Nat) : Keeps (F := F) NoOp (Tensor.cmp op l r) := by
  unfold Tensor.cmp
  refine keeps_bind (keeps_getT _) fun li => keeps_bind (keeps_getT _) fun ri => keeps_bind (keeps_lift _) fun range =>
    keeps_bind (noOp_create _ _ _) fun t => keeps_bind (keeps_getT _) fun d => ?_
  exact keeps_bind (noOp_writes (keeps_tensorCmp trivial _ _ _ _ _)) fun _ => keeps_pure _
theorem noOp_addAssign (t r : Nat) : Keeps (F := F) NoOp (addAssign t r) := by
  unfold addAssign
  refine keeps_bind (keeps_getT _) fun i => keeps_bind (keeps_expect _) fun _ => keeps_bind (keeps_getT _) fun j => ?_
  exact noOp_writes (keeps_tensorAdd trivial _ _ _ _)
theorem noOp_zeroGrad (t : Nat) : Keeps (F := F) NoOp (zeroGrad t) := by
  unfold zeroGrad
  refine keeps_bind (keeps_getT _) fun i => ?_
  cases i.grad with
  | none => exact keeps_pure _
  | some g => exact keeps_bind (keeps_getT _) fun i => noOp_zeroS _
omit [FOps F] in
theorem noOp_release (t : Nat) : Keeps (F := F) NoOp (release t) := by
  unfold release releaseS
  exact keeps_bind (keeps_getT _) fun i => keeps_bind (keeps_getS _) fun s => noOp_setS _ _
omit [FOps F] in
theorem noOp_setRequiresGrad (t : Nat) (b : Bool) : Keeps (F := F) NoOp (setRequiresGrad t b) := by
  unfold setRequiresGrad
  refine keeps_bind (keeps_getT _) fun i => ?_
  have key : Keeps (F := F) NoOp (getT t >>= fun i => setT t { i with requiresGrad := b }) :=
    keepsR_getT fun h i hi => noOp_set_same hi rfl
  split
  · exact keeps_bind (keeps_expect _) fun _ => key
  · exact key
omit [FOps F] in
theorem noOp_setRetainGrad (t : Nat) (b : Bool) : Keeps (F := F) NoOp (setRetainGrad t b) := by
  unfold setRetainGrad
  exact keepsR_getT fun h i hi => noOp_set_same hi rfl

omit [FOps F] in
theorem noOp_shareGradStorage (dst frm : Nat) : Keeps (F := F) NoOp (shareGradStorage dst frm) := by
  unfold shareGradStorage
  have setg : ∀ (t : Nat) (gr : Option Nat), Keeps (F := F) NoOp (getT t >>= fun i => setT t { i with grad := gr }) := fun t gr =>
    keepsR_getT fun h i hi => noOp_set_same hi rfl
  have tail : ∀ g : Nat, Keeps (F := F) NoOp (do
      let gi ← getT g
      let t ← getT dst
      let g' ← createOn t.dtype t.view gi.data
      let t ← getT dst
      setT dst { t with grad := some g' }) := fun g =>
    keeps_bind (keeps_getT _) fun i => keeps_bind (keeps_getT _) fun i => keeps_bind (noOp_createOn _ _ _) fun g' => setg _ _
  refine keeps_bind (keeps_getT _) fun f => ?_
  cases f.grad with
  | some g => exact tail g
  | none =>
    exact keeps_bind (noOp_create _ _ _) fun g => keepsR_getT fun h i hi => at_bind (noOp_set_same hi rfl) fun _ h' _ => tail g h'

/-! ### Back-propagation -/

theorem noOp_tryAccUpdate (p : Nat) : Keeps (F := F) NoOp (tryAccUpdate p) := by
  unfold tryAccUpdate
  refine keepsR_getT fun h i hi => ?_
  have setg : ∀ (t : Nat) (gr : Option Nat), Keeps (F := F) NoOp (getT t >>= fun i => setT t { i with grad := gr }) := fun t gr =>
    keepsR_getT fun h i hi => noOp_set_same hi rfl
  have rest : Keeps NoOp (match i.grad with
    | none => do
      let g ← INNC.create i.dtype i.view true
      let i ← getT p
      INNC.setT p { i with grad := some g }
      let gi ← getT g
      zeroS gi.data
    | some g => do
      let gi ← getT g
      let al ← isAllocS gi.data
      if !al then do
        INNC.allocS gi.data
        zeroS gi.data
      else pure () : M F Unit) := by
    cases i.grad with
    | none =>
      refine keeps_bind (noOp_create _ _ _) fun g => ?_
      have : (do let i ← getT p; INNC.setT p { i with grad := some g }; let gi ← getT g; zeroS gi.data : M F Unit) =
        ((getT p >>= fun i => setT p { i with grad := some g }) >>= fun _ => getT g >>= fun gi => zeroS gi.data) := by rw [bind_assoc]
      rw [this]
      exact keeps_bind (setg _ _) fun _ => keeps_bind (keeps_getT _) fun _ => noOp_zeroS _
    | some g =>
      refine keeps_bind (keeps_getT _) fun gi => keeps_bind (keeps_isAllocS _) fun al => ?_
      split
      · exact keeps_bind (noOp_allocS _) fun _ => noOp_zeroS _
      · exact keeps_pure _
  split
  · exact (keeps_pure () : Keeps NoOp _) h
  · cases hg : i.gradFn with
    | none => exact rest h
    | some g =>
      refine at_bind ?_ fun _ h' _ => rest h'
      exact noOp_set hi (fun g' hg' => ⟨g, hg, by cases hg'; exact ⟨rfl, rfl, .inl rfl⟩⟩) fun g' hg' =>
        ⟨_, rfl, by obtain rfl : g = g' := Option.some.inj (hg.symm.trans hg'); exact Nat.le_succ _⟩

theorem noOp_mulAddF (d a b : Nat) : Keeps (F := F) NoOp (mulAddF d a b) := by
  unfold mulAddF
  refine keeps_bind (keeps_getT _) fun i => keeps_bind (keeps_getT _) fun i => keeps_bind (keeps_getT _) fun i => ?_
  split
  · exact noOp_writes (keeps_tensorMulAccF trivial _ _ _ _ _)
  · exact keeps_undef _

theorem noOp_tryAccGrad (p : Nat) (w o : Option Nat) : Keeps (F := F) NoOp (tryAccGrad p w o) := by
  unfold tryAccGrad
  refine keeps_bind (keeps_getT _) fun i => ?_
  split
  · exact keeps_pure _
  refine keeps_bind (noOp_tryAccUpdate p) fun _ => ?_
  cases w with
  | none => cases o with
    | none => exact keeps_pure _
    | some o => exact keeps_undef _
  | some w => cases o with
    | none => exact keeps_bind (keeps_derefGrad _) fun g => noOp_addAssign _ _
    | some o =>
      refine keeps_bind (keeps_getT _) fun wi => keeps_bind (keeps_derefGrad _) fun g => ?_
      split
      · exact noOp_mulAddF _ _ _
      · exact noOp_mulAddF _ _ _

theorem noOp_catBackGo (t dim : Nat) : ∀ (xs : List Nat) (s : Nat), Keeps (F := F) NoOp (catBackGo t dim s xs)
  | [], _ => keeps_pure _
  | x :: xs, s => by
    unfold catBackGo
    refine keeps_bind (keeps_getT _) fun i => keeps_bind (keeps_getT _) fun i => keeps_bind (keeps_lift _) fun i =>
      keeps_bind (keeps_derefGrad _) fun i => keeps_bind (keeps_getT _) fun i => keeps_bind (noOp_createOn _ _ _) fun r =>
      keeps_bind (noOp_tryAccGrad _ _ _) fun _ => keeps_bind (keeps_getT _) fun i => keeps_bind (keeps_lift _) fun i => ?_
    exact noOp_catBackGo t dim xs _

theorem noOp_divBackNum (d a b : Nat) : Keeps (F := F) NoOp (divBackNum d a b) := by
  unfold divBackNum
  refine keeps_bind (keeps_getT _) fun i => keeps_bind (keeps_getT _) fun i => keeps_bind (keeps_getT _) fun i => ?_
  split
  · exact noOp_writes (keeps_tensorDivBackNum trivial _ _ _ _ _)
  · exact keeps_undef _

theorem noOp_divBackDen (t d : Nat) : Keeps (F := F) NoOp (divBackDen t d) := by
  unfold divBackDen
  refine keeps_bind (keeps_getT _) fun i => keeps_bind (keeps_getT _) fun i => ?_
  split
  · refine keeps_bind (keeps_derefGrad _) fun i => keeps_bind (keeps_derefGrad _) fun i => keeps_bind (keeps_getT _) fun i =>
      keeps_bind (keeps_getT _) fun i => ?_
    exact noOp_writes (keeps_tensorDivBackDen trivial _ _ _ _ _)
  · exact keeps_undef _

theorem noOp_stepBack (t : Nat) (g : GradFn) : Keeps (F := F) NoOp (stepBack t g) := by
  unfold stepBack
  cases g.kind with
  | add =>
    refine keeps_bind (keeps_inputAt _ _) fun a => keeps_bind (keeps_derefGrad _) fun o => keeps_bind (noOp_tryAccGrad _ _ _) fun _ => ?_
    exact keeps_bind (keeps_inputAt _ _) fun a => keeps_bind (keeps_derefGrad _) fun o => noOp_tryAccGrad _ _ _
  | sub =>
    refine keeps_bind (keeps_inputAt _ _) fun a => keeps_bind (keeps_derefGrad _) fun o => keeps_bind (noOp_tryAccGrad _ _ _) fun _ => ?_
    exact keeps_bind (noOp_createScalar _ _) fun m => keeps_bind (keeps_inputAt _ _) fun a => keeps_bind (keeps_derefGrad _) fun o => noOp_tryAccGrad _ _ _
  | mul =>
    refine keeps_bind (keeps_inputAt _ _) fun a => keeps_bind (keeps_inputAt _ _) fun b => keeps_bind (keeps_derefGrad _) fun o => keeps_bind (noOp_tryAccGrad _ _ _) fun _ => ?_
    exact keeps_bind (keeps_inputAt _ _) fun a => keeps_bind (keeps_inputAt _ _) fun b => keeps_bind (keeps_derefGrad _) fun o => noOp_tryAccGrad _ _ _
  | div =>
    refine keeps_bind (keeps_inputAt _ _) fun a => keeps_bind (keeps_inputAt _ _) fun b => keeps_bind (noOp_tryAccUpdate _) fun _ => ?_
    refine keeps_bind (keeps_derefGrad _) fun o => keeps_bind (keeps_derefGrad _) fun o => keeps_bind (noOp_divBackNum _ _ _) fun _ => ?_
    exact keeps_bind (noOp_tryAccUpdate _) fun _ => noOp_divBackDen _ _
  | sum =>
    refine keeps_bind (keeps_inputAt _ _) fun a => keeps_bind (noOp_onesLike _) fun b => keeps_bind (keeps_derefGrad _) fun o => ?_
    exact noOp_tryAccGrad _ _ _
  | mean =>
    refine keeps_bind (keeps_inputAt _ _) fun a => keeps_bind (keeps_getT _) fun b => keeps_bind (noOp_full _ _ _ _) fun o => ?_
    exact noOp_tryAccGrad _ _ _
  | noBack =>
    exact keeps_bind (keeps_inputAt _ _) fun a => noOp_tryAccGrad _ _ _
  | clone =>
    exact keeps_bind (keeps_inputAt _ _) fun a => keeps_bind (keeps_derefGrad _) fun o => noOp_tryAccGrad _ _ _
  | cat dim => exact noOp_catBackGo _ _ _ _
  | knownGrad k =>
    exact keeps_bind (keeps_inputAt _ _) fun a => keeps_bind (keeps_derefGrad _) fun o => noOp_tryAccGrad _ _ _

section
omit [FOps F]

theorem at_setGF {x : Nat} {i : Impl} {g g' : GradFn} {h : Heap F} (hi : h.ts[x]? = some i) (hg : i.gradFn = some g)
    (h1 : g'.kind = g.kind) (h2 : g'.inputs = g.inputs) (h3 : g'.backVersion = g.backVersion ∨ g'.backVersion ≤ h.gver)
    (h4 : g.accOutway ≤ g'.accOutway) : KeepsAt NoOp (setGF x g') h := by
  unfold setGF
  refine at_getT fun j hj => ?_
  rw [hi] at hj
  obtain rfl := Option.some.inj hj
  exact noOp_set hi (fun g'' hg'' => ⟨g, hg, by cases hg''; exact ⟨h1, h2, h3⟩⟩) fun g'' hg'' =>
    ⟨_, rfl, by obtain rfl : g = g'' := Option.some.inj (hg.symm.trans hg''); exact h4⟩

theorem at_getVersion {β : Type} {f : Nat → M F β} {h : Heap F} (hf : KeepsAt NoOp (f h.gver) h) :
    KeepsAt NoOp (getVersion >>= f) h := hf

theorem noOp_resetInputs : ∀ (l : List Nat), Keeps (F := F) NoOp (resetInputs l)
  | [] => keeps_pure _
  | x :: xs => by
    unfold resetInputs
    refine keepsR_getT fun h i hi => at_getVersion ?_
    cases hg : i.gradFn with
    | none => exact noOp_resetInputs xs h
    | some g =>
      simp only
      split
      · exact at_bind (at_setGF hi hg rfl rfl (.inr (Nat.le_refl _)) (Nat.le_refl _)) fun _ h' _ =>
          keeps_bind (noOp_resetInputs xs) (fun _ => keeps_pure _) h'
      · exact noOp_resetInputs xs h

theorem noOp_countInputs : ∀ (l : List Nat), Keeps (F := F) NoOp (countInputs l)
  | [] => keeps_pure _
  | x :: xs => by
    unfold countInputs
    refine keepsR_getT fun h i hi => at_getVersion ?_
    cases hg : i.gradFn with
    | none => exact noOp_countInputs xs h
    | some g =>
      simp only
      split
      · exact at_bind (at_setGF hi hg rfl rfl (.inr (Nat.le_refl _)) (Nat.le_refl _)) fun _ h' _ =>
          keeps_bind (noOp_countInputs xs) (fun _ => keeps_pure _) h'
      · exact at_bind (at_setGF hi hg rfl rfl (.inl rfl) (Nat.le_refl _)) fun _ h' _ => noOp_countInputs xs h'

theorem noOp_readyInputs : ∀ (l : List Nat), Keeps (F := F) NoOp (readyInputs l)
  | [] => keeps_pure _
  | x :: xs => by
    unfold readyInputs
    refine keepsR_getT fun h i hi => at_getVersion ?_
    cases hg : i.gradFn with
    | none => exact noOp_readyInputs xs h
    | some g =>
      simp only
      split
      · exact at_bind (at_setGF hi hg rfl rfl (.inr (Nat.le_refl _)) (Nat.le_refl _)) fun _ h' _ =>
          keeps_bind (noOp_readyInputs xs) (fun _ => keeps_pure _) h'
      · exact noOp_readyInputs xs h

theorem noOp_queueLoop {visit : Nat → M F (List Nat)} (hv : ∀ x, Keeps NoOp (visit x)) : ∀ (n : Nat) (q : List Nat),
    Keeps NoOp (queueLoop visit n q)
  | _, [] => by unfold queueLoop; exact keeps_pure _
  | 0, _ :: _ => by unfold queueLoop; exact keeps_undef _
  | n + 1, x :: q => by unfold queueLoop; exact keeps_bind (hv x) fun new => noOp_queueLoop hv n _

theorem noOp_bump : Keeps (F := F) NoOp bumpVersion := fun h =>
  ⟨Nat.le_succ _, Nat.le_refl _, fun x g hg => ⟨g, hg, rfl, rfl, .inl rfl⟩, fun x g hg => ⟨g, hg, Nat.le_refl _⟩⟩

theorem noOp_getSetGF {β : Type} (t : Nat) (f : Nat → GradFn → GradFn) (rest : M F β) (hr : Keeps NoOp rest)
    (h1 : ∀ v g, (f v g).kind = g.kind) (h2 : ∀ v g, (f v g).inputs = g.inputs) (h3 : ∀ v g, (f v g).backVersion = v)
    (h4 : ∀ v g, (f v g).accOutway = g.accOutway) :
    Keeps NoOp (bumpVersion >>= fun v => getGradFn t >>= fun g => setGF t (f v g) >>= fun _ => rest) := by
  intro h
  refine at_bind (noOp_bump h) fun v h' hv => ?_
  unfold getGradFn
  rw [bind_assoc]
  refine at_getT fun i hi => ?_
  cases hg : i.gradFn with
  | none => trivial
  | some g =>
    have hvv : v = h'.gver := by cases hv; rfl
    have e := at_setGF hi hg (h1 v g) (h2 v g) (.inr (by rw [h3, hvv])) (by rw [h4])
    exact (at_bind e fun _ h'' _ => hr h'' : KeepsAt NoOp (setGF t (f v g) >>= fun _ => rest) h')

end

theorem noOp_backVisit (t : Nat) : Keeps (F := F) NoOp (backVisit t) := by
  unfold backVisit
  refine keeps_bind (keeps_getGradFn _) fun g => keeps_bind (noOp_stepBack _ _) fun _ => ?_
  have tail : Keeps (F := F) NoOp (getGradFn t >>= fun g => readyInputs g.inputs) :=
    keeps_bind (keeps_getGradFn _) fun g => noOp_readyInputs _
  refine keepsR_getT fun h i hi => ?_
  split
  · exact at_bind (noOp_set_same hi rfl) fun _ h' _ => tail h'
  · exact tail h

theorem noOp_refreshNOutway (t : Nat) : Keeps (F := F) NoOp (refreshNOutway t) := by
  unfold refreshNOutway
  refine keeps_bind keeps_heapSize fun n => ?_
  refine noOp_getSetGF t (fun v g => { g with nOutway := 0, backVersion := v }) _ ?_ (fun _ _ => rfl) (fun _ _ => rfl) (fun _ _ => rfl) (fun _ _ => rfl)
  refine keeps_bind (noOp_queueLoop (fun x => keeps_bind (keeps_getGradFn _) fun g => noOp_resetInputs _) _ _) fun _ => ?_
  exact noOp_getSetGF t (fun v g => { g with backVersion := v }) _
    (noOp_queueLoop (fun x => keeps_bind (keeps_getGradFn _) fun g => noOp_countInputs _) _ _) (fun _ _ => rfl) (fun _ _ => rfl) (fun _ _ => rfl) (fun _ _ => rfl)

theorem noOp_backward (t : Nat) : Keeps (F := F) NoOp (backward t) := by
  unfold backward
  refine keeps_bind (keeps_getT _) fun i => keeps_bind (keeps_expect _) fun _ => keeps_bind (keeps_expect _) fun _ =>
    keeps_bind (keeps_expect _) fun _ => keeps_bind keeps_heapSize fun n => keeps_bind (noOp_refreshNOutway _) fun _ =>
    keeps_bind (noOp_onesLike _) fun o => ?_
  refine keepsR_getT fun h i hi => ?_
  refine at_bind (noOp_set_same hi rfl) fun _ h' _ => ?_
  exact noOp_getSetGF t (fun v g => { g with backVersion := v }) _ (noOp_queueLoop noOp_backVisit _ _) (fun _ _ => rfl) (fun _ _ => rfl) (fun _ _ => rfl) (fun _ _ => rfl) h'

/-! ### Steps that record an operation -/

/-- The graph stays well formed and no tensor disappears. -/
def Grows (h h' : Heap F) : Prop := (Graph h → Graph h') ∧ h.ts.length ≤ h'.ts.length

omit [FOps F] in
theorem NoOp.grows {h h' : Heap F} (hn : NoOp h h') : Grows h h' := ⟨hn.graph, hn.len⟩

instance : Pre (F := F) Grows where
  refl h := ⟨id, Nat.le_refl _⟩
  trans h1 h2 := ⟨h2.1 ∘ h1.1, Nat.le_trans h1.2 h2.2⟩

section
omit [FOps F]
theorem grows_of {α : Type} {x : M F α} (hx : Keeps NoOp x) : Keeps Grows x := keeps_mono hx fun _ _ => NoOp.grows

theorem keeps_len {α : Type} {x : M F α} (hx : Keeps NoOp x) {h h' : Heap F} {a : α} (e : x h = .ok a h') :
    h.ts.length ≤ h'.ts.length := by
  have := hx h
  rw [e] at this
  exact this.len

theorem createOn_idx {dt : DType} {v : Layout} {d : Nat} {h h' : Heap F} {r : Nat} (e : createOn dt v d h = .ok r h') :
    r = h.ts.length := by cases e; rfl

theorem create_idx {dt : DType} {v : Layout} {b : Bool} {h h' : Heap F} {r : Nat} (e : create dt v b h = .ok r h') :
    h.ts.length ≤ r := by
  unfold create at e
  rw [M.bind_def] at e
  have := noOp_mkStorage (F := F) dt (wrapU (dt.size * numel v.sizes)) b h
  cases hm : mkStorage dt (wrapU (dt.size * numel v.sizes)) b h with
  | ok d h1 =>
    rw [hm] at this e
    rw [createOn_idx e]
    exact this.len
  | throw _ _ => rw [hm] at e; cases e
  | ub _ => rw [hm] at e; cases e

theorem at_setGradFn {t : Nat} {kind : BackKind} {inputs : List Nat} {h : Heap F} (ha : Arity kind inputs.length)
    (hl : ∀ y ∈ inputs, y < t) : KeepsAt Grows (setGradFn t kind inputs) h := by
  unfold setGradFn
  refine at_getT fun i hi => ?_
  refine ⟨fun hg => ⟨fun x y hu => ?_, fun x g hx => ?_, fun x g hx => ?_⟩, by simp⟩
  · unfold Uses operands at hu
    rw [opOf_set (getElem?_lt hi)] at hu
    by_cases hx : x = t
    · rw [if_pos hx] at hu
      subst hx
      exact hl y hu
    · rw [if_neg hx] at hu
      exact hg.older x y hu
  · rw [opOf_set (getElem?_lt hi)] at hx
    by_cases hxt : x = t
    · rw [if_pos hxt] at hx
      obtain rfl := Option.some.inj hx
      exact ha
    · rw [if_neg hxt] at hx
      exact hg.arity x g hx
  · rw [opOf_set (getElem?_lt hi)] at hx
    by_cases hxt : x = t
    · rw [if_pos hxt] at hx
      obtain rfl := Option.some.inj hx
      exact Nat.zero_le _
    · rw [if_neg hxt] at hx
      exact hg.version x g hx

theorem at_makeView {dt : DType} {v : Layout} {d base : Nat} {h : Heap F} (hb : base < h.ts.length) :
    KeepsAt Grows (makeView dt v d base) h := by
  unfold makeView
  refine at_bind (grows_of (noOp_createOn _ _ _) h) fun r h1 e => ?_
  have := createOn_idx e
  refine at_getT fun i hi => ?_
  split
  · exact (keeps_pure r : Keeps Grows _) h1
  · refine at_bind (at_setGradFn (show Arity .noBack 1 from rfl) (by simp; omega)) fun _ h2 _ => ?_
    exact keeps_bind (grows_of (noOp_shareGradStorage _ _)) (fun _ => (keeps_pure r : Keeps Grows _)) h2

theorem grows_slice (t : Nat) (s : Str) : Keeps (F := F) Grows (Tensor.slice t s) := by
  unfold Tensor.slice
  refine keepsR_getT fun h i hi => at_bind (keeps_lift _ h) fun v h' e => ?_
  have : h' = h := by
    unfold M.lift at e; split at e <;> cases e; rfl
  subst this
  exact at_makeView (getElem?_lt hi)

theorem grows_transpose (t a b : Nat) : Keeps (F := F) Grows (Tensor.transpose t a b) := by
  unfold Tensor.transpose
  refine keepsR_getT fun h i hi => at_bind (keeps_lift _ h) fun v h' e => ?_
  have : h' = h := by
    unfold M.lift at e; split at e <;> cases e; rfl
  subst this
  exact at_makeView (getElem?_lt hi)
theorem at_pure {α : Type} (a : α) (h : Heap F) : KeepsAt Grows (pure a : M F α) h := (keeps_pure a : Keeps Grows _) h
end

theorem grows_clone (t : Nat) : Keeps (F := F) Grows (Tensor.clone t) := by
  unfold Tensor.clone
  refine keepsR_getT fun h i hi => ?_
  refine at_bind (grows_of (noOp_create _ _ _) h) fun r h1 e => ?_
  have hr := create_idx e
  refine at_getT fun d hd => at_bind (grows_of (noOp_writes (keeps_copyLoop trivial _ _ _)) h1) fun _ h2 _ => ?_
  split
  · exact at_pure _ _
  · have := getElem?_lt hi
    exact at_bind (at_setGradFn (show Arity .clone 1 from rfl) (by simp; omega)) fun _ h3 _ => at_pure _ _

theorem grows_reshapeSizes (t : Nat) (s : List Nat) : Keeps (F := F) Grows (Tensor.reshapeSizes t s) := by
  unfold Tensor.reshapeSizes
  dsimp only
  refine keepsR_getT fun h i hi => ?_
  have hlt := getElem?_lt hi
  refine at_reads (keeps_expect _) fun _ => ?_
  have rest : ∀ H : Heap F, h.ts.length ≤ H.ts.length → KeepsAt Grows (if i.view.sizes.length < i.view.strides.length then M.undef .vecOob
    else do
    let iso ← M.lift (isometry i.view.sizes i.view.strides)
    if iso then
      let strides ← if s.length ≠ 0 then do
          let last ← M.lift (vecAt i.view.strides (i.view.strides.length - 1))
          pure (scaledStrides last s)
        else pure i.view.strides
      Tensor.makeView i.dtype ⟨s, strides, i.view.offset⟩ i.data t
    else do
      let m ← Tensor.clone t
      let mi ← getT m
      Tensor.makeView i.dtype (Layout.contig s) mi.data m : M F Nat) H := by
    intro H hle
    split
    · trivial
    refine at_reads (keeps_lift _) fun iso => ?_
    split
    · dsimp only
      split
      · exact at_reads (keeps_lift _) fun _ => at_makeView (Nat.lt_of_lt_of_le hlt hle)
      · exact at_makeView (Nat.lt_of_lt_of_le hlt hle)
    · refine at_bind (grows_clone t H) fun m h4 _ => at_getT fun mi hmi => ?_
      exact at_makeView (getElem?_lt hmi)
  split
  · have hm := at_makeView (dt := i.dtype) (v := ⟨s, List.replicate s.length 1, i.view.offset⟩) (d := i.data) hlt
    refine at_bind hm fun r h3 e => ?_
    unfold KeepsAt at hm
    rw [e] at hm
    cases hq : i.requiresGrad
    · exact at_pure _ _
    · exact rest h3 hm.2
  · exact rest h (Nat.le_refl _)

theorem grows_reshape (t : Nat) (s : List Int) : Keeps (F := F) Grows (Tensor.reshape t s) := by
  unfold Tensor.reshape
  exact keeps_bind (keeps_getT _) fun i => keeps_bind (keeps_lift _) fun z => grows_reshapeSizes t z

theorem grows_reshapeAs (t u : Nat) : Keeps (F := F) Grows (Tensor.reshapeAs t u) := by
  unfold Tensor.reshapeAs
  exact keeps_bind (keeps_getT _) fun i => grows_reshapeSizes t _

theorem grows_toType (t : Nat) (dt : DType) : Keeps (F := F) Grows (Tensor.toType t dt) := by
  unfold Tensor.toType
  refine keepsR_getT fun h i hi => ?_
  split
  · exact (keeps_raise _ : Keeps Grows (M.raise .runtime : M F Nat)) h
  split
  · exact at_pure _ _
  refine at_bind (grows_of (noOp_create _ _ _) h) fun r h1 e => ?_
  have hr := create_idx e
  refine at_getT fun d hd => at_bind (grows_of (noOp_writes (keeps_copyLoop trivial _ _ _)) h1) fun _ h2 _ => ?_
  split
  · exact at_pure _ _
  · have := getElem?_lt hi
    exact at_bind (at_setGradFn (show Arity .clone 1 from rfl) (by simp; omega)) fun _ h3 _ => at_pure _ _

theorem grows_applyBinary {k : Kernel F} {back : BackKind} (hb : Arity back 2)
    (hk : ∀ (L R : DType) (d l r : Impl), Keeps (Writes fun _ => True) (k L R d l r)) (l r : Nat) (o : Bool) :
    Keeps Grows (Tensor.applyBinary k back l r o) := by
  unfold Tensor.applyBinary Tensor.applyNoGradBinary
  simp only [bind_assoc]
  refine keepsR_getT fun h li hl => at_getT fun ri hr => at_reads (keeps_lift _) fun range => ?_
  refine at_bind (grows_of (noOp_create _ _ _) h) fun t h1 e => ?_
  have ht := create_idx e
  have tail : Keeps (F := F) Grows (do
      let li ← getT l
      let ri ← getT r
      if !li.requiresGrad && !ri.requiresGrad then return t
      Tensor.setGradFn t back [l, r]
      return t) := by
    refine keeps_bind (keeps_getT _) fun _ => keeps_bind (keeps_getT _) fun _ => ?_
    split
    · exact keeps_pure _
    · refine keeps_bind (fun h' => at_setGradFn hb ?_) fun _ => keeps_pure _
      have := getElem?_lt hl
      have := getElem?_lt hr
      simp; omega
  refine at_getT fun d hd => ?_
  split
  · split
    · rw [bind_assoc]; exact at_bind (grows_of (noOp_writes (hk _ _ _ _ _)) h1) fun _ h2 _ => tail h2
    · rw [bind_assoc]; exact at_bind (grows_of (noOp_writes (hk _ _ _ _ _)) h1) fun _ h2 _ => tail h2
  · rw [bind_assoc]; exact at_bind (grows_of (noOp_writes (hk _ _ _ _ _)) h1) fun _ h2 _ => tail h2

theorem grows_addT (l r : Nat) : Keeps (F := F) Grows (addT l r) :=
  grows_applyBinary (back := .add) rfl (fun _ _ _ _ _ => keeps_tensorAdd trivial _ _ _ _) l r false
theorem grows_subT (l r : Nat) : Keeps (F := F) Grows (subT l r) :=
  grows_applyBinary (back := .sub) rfl (fun _ _ _ _ _ => keeps_tensorSub trivial _ _ _ _) l r true
theorem grows_mulT (l r : Nat) : Keeps (F := F) Grows (mulT l r) :=
  grows_applyBinary (back := .mul) rfl (fun _ _ _ _ _ => keeps_tensorMul trivial _ _ _ _) l r false
theorem grows_divT (l r : Nat) : Keeps (F := F) Grows (divT l r) :=
  grows_applyBinary (back := .div) rfl (fun _ _ _ _ _ => keeps_tensorDiv trivial _ _ _ _) l r true
theorem grows_negT (t : Nat) : Keeps (F := F) Grows (negT t) := by
  unfold negT
  exact keeps_bind (grows_of (noOp_createScalar _ _)) fun z => grows_subT _ _

theorem zeros_idx {s : List Nat} {dt : DType} {h h' : Heap F} {r : Nat} (e : zeros s dt h = .ok r h') : h.ts.length ≤ r := by
  unfold zeros at e
  rw [M.bind_def] at e
  cases hc : create dt (Layout.contig s) true h with
  | ok t h1 =>
    rw [hc] at e
    have hr := create_idx hc
    simp only [M.bind_def] at e
    split at e <;> try cases e
    split at e <;> try cases e
    exact hr
  | throw _ _ => rw [hc] at e; cases e
  | ub _ => rw [hc] at e; cases e

theorem grows_sumLike {k : DType → DType → Impl → Impl → M F Unit} {back : BackKind} (hb : Arity back 1)
    (hk : ∀ (T S : DType) (d l : Impl), Keeps (Writes fun _ => True) (k T S d l)) (t : Nat) :
    Keeps (F := F) Grows (do
      let i ← getT t
      let tf ← zeros [] (sumType i.dtype)
      k (sumType i.dtype) i.dtype (← getT tf) i
      if i.requiresGrad then Tensor.setGradFn tf back [t]
      return tf) := by
  refine keepsR_getT fun h i hi => at_bind (grows_of (noOp_zeros _ _) h) fun tf h1 e => ?_
  have hr := zeros_idx e
  have := getElem?_lt hi
  refine at_getT fun d hd => at_bind (grows_of (noOp_writes (hk _ _ _ _)) h1) fun _ h2 _ => ?_
  split
  · exact at_bind (at_setGradFn hb (by simp; omega)) fun _ h3 _ => at_pure _ _
  · exact at_pure _ _

theorem grows_sumT (t : Nat) : Keeps (F := F) Grows (sumT t) := by
  unfold sumT
  exact grows_sumLike (k := tensorSum) (back := .sum) rfl (fun _ _ _ _ => keeps_tensorSum trivial _ _ _) t
theorem grows_meanT (t : Nat) : Keeps (F := F) Grows (meanT t) := by
  unfold meanT
  exact grows_sumLike (k := tensorMean) (back := .mean) rfl (fun _ _ _ _ => keeps_tensorMean trivial _ _ _) t

theorem grows_absT (t : Nat) : Keeps (F := F) Grows (absT t) := by
  unfold absT
  refine keepsR_getT fun h i hi => at_bind (grows_of (noOp_create _ _ _) h) fun r h1 e => ?_
  have hr := create_idx e
  have := getElem?_lt hi
  split
  · refine at_getT fun d hd => at_bind (grows_of (noOp_writes (keeps_tensorAbs trivial _ _ _ _ (by simp))) h1) fun _ h2 _ => at_pure _ _
  · refine at_bind (grows_of (noOp_create _ _ _) h1) fun g h2 _ => at_getT fun d hd => at_getT fun d hd => ?_
    refine at_bind (grows_of (noOp_writes (keeps_tensorAbs trivial _ _ _ _ (by simp))) h2) fun _ h3 _ => ?_
    exact at_bind (at_setGradFn (show Arity (.knownGrad g) 1 from rfl) (by simp; omega)) fun _ h3 _ => at_pure _ _

theorem grows_extreme (c : COp) (t : Nat) : Keeps (F := F) Grows (extreme c t) := by
  unfold extreme
  refine keepsR_getT fun h i hi => at_bind (grows_of (noOp_zeros _ _) h) fun r h1 e => ?_
  have hr := zeros_idx e
  have := getElem?_lt hi
  split
  · refine at_getT fun d hd => at_bind (grows_of (noOp_writes (keeps_tensorExtreme trivial _ _ _ _ (by simp))) h1) fun _ h2 _ => at_pure _ _
  · refine at_bind (grows_of (noOp_zerosLike _) h1) fun g h2 _ => at_getT fun d hd => at_getT fun d hd => ?_
    refine at_bind (grows_of (noOp_writes (keeps_tensorExtreme trivial _ _ _ _ (by simp))) h2) fun _ h3 _ => ?_
    exact at_bind (at_setGradFn (show Arity (.knownGrad g) 1 from rfl) (by simp; omega)) fun _ h3 _ => at_pure _ _

theorem grows_catT (ts : List Nat) (d : Nat) : Keeps (F := F) Grows (catT ts d) := by
  unfold catT
  cases ts with
  | nil => exact keeps_undef _
  | cons t0 rest =>
    refine keepsR_getT fun h i hi => at_reads (keeps_expect _) fun _ => ?_
    have hs := getAll_spec rest h
    refine at_bind (keeps_getAll rest h) fun others h1 e => ?_
    rw [e] at hs
    obtain ⟨rfl, hmap⟩ := hs
    refine at_reads (keeps_catCheck _ _ _) fun _ => ?_
    refine at_bind (grows_of (noOp_create _ _ _) h1) fun r h2 e => ?_
    have hr := create_idx e
    refine at_getT fun j hj => at_bind (grows_of (noOp_writes (keeps_catGo trivial _ _ _ _)) h2) fun _ h3 _ => ?_
    split
    · refine at_bind (at_setGradFn (show Arity (.cat d) _ from trivial) fun y hy => ?_) fun _ h3 _ => at_pure _ _
      refine Nat.lt_of_lt_of_le ?_ hr
      rcases List.mem_cons.1 hy with rfl | hy
      · exact getElem?_lt hi
      · have : h1.ts[y]? ∈ others.map some := hmap ▸ List.mem_map_of_mem hy
        obtain ⟨k, _, hk⟩ := List.mem_map.1 this
        exact getElem?_lt hk.symm
    · exact at_pure _ _

theorem grows_ofInit (tree : InitTree F) : Keeps Grows (ofInit tree) := by
  unfold ofInit
  refine keeps_bind (keeps_lift _) fun init => ?_
  unfold createImpl
  split
  · exact keeps_pure _
  · cases init.dtype with
    | none => exact keeps_undef _
    | some dt =>
      exact keeps_bind (grows_of (noOp_create _ _ _)) fun t => keeps_bind (keeps_getT _) fun i => keeps_bind (keeps_getS _) fun s =>
        keeps_bind (grows_of (noOp_setS _ _)) fun _ => keeps_pure _

theorem grows_run (c : Call F) : Keeps Grows c.run := by
  have S : ∀ {x : M F Nat}, Keeps Grows x → Keeps Grows (some' x) := fun hx => keeps_bind hx fun _ => keeps_pure _
  have N : ∀ {α : Type} {x : M F α}, Keeps Grows x → Keeps Grows (none' x) := fun hx => keeps_bind hx fun _ => keeps_pure _
  cases c with
  | scalar dt v => exact S (grows_of (noOp_createScalar _ _))
  | empty s dt => exact S (grows_of (noOp_create _ _ _))
  | init tree => exact grows_ofInit tree
  | ones s dt => exact S (grows_of (noOp_ones _ _))
  | zeros s dt => exact S (grows_of (noOp_zeros _ _))
  | onesLike t => exact S (grows_of (noOp_onesLike _))
  | zerosLike t => exact S (grows_of (noOp_zerosLike _))
  | fullInt s n dt => exact S (grows_of (noOp_full _ _ _ _))
  | fullReal s n dt => exact S (grows_of (noOp_full _ _ _ _))
  | eye n m dt => exact S (grows_of (noOp_eye _ _ _))
  | fromBlob data s dt => exact S (grows_of (noOp_fromBlob _ _ _))
  | randn rnd s dt => exact S (grows_of (noOp_randn _ _ _))
  | randnLike rnd t => exact keeps_bind (keeps_getT _) fun i => S (grows_of (noOp_randn _ _ _))
  | slice t s => exact S (grows_slice _ _)
  | transpose t a b => exact S (grows_transpose _ _ _)
  | reshape t s => exact S (grows_reshape _ _)
  | reshapeAs t u => exact S (grows_reshapeAs _ _)
  | detach t => exact S (grows_of (noOp_detach _))
  | clone t => exact S (grows_clone _)
  | contiguous t => exact S (grows_clone _)
  | toType t dt => exact S (grows_toType _ _)
  | add l r => exact S (grows_addT _ _)
  | sub l r => exact S (grows_subT _ _)
  | mul l r => exact S (grows_mulT _ _)
  | div l r => exact S (grows_divT _ _)
  | pos t => exact S (keeps_pure _)
  | neg t => exact S (grows_negT _)
  | cmp o l r => exact S (grows_of (noOp_cmp _ _ _))
  | sum t => exact S (grows_sumT _)
  | mean t => exact S (grows_meanT _)
  | abs t => exact S (grows_absT _)
  | max t => exact S (grows_extreme _ _)
  | min t => exact S (grows_extreme _ _)
  | cat ts d => exact S (grows_catT _ _)
  | addAssign t r => exact N (grows_of (noOp_addAssign _ _))
  | setRequiresGrad t b => exact N (grows_of (noOp_setRequiresGrad _ _))
  | setRetainGrad t b => exact N (grows_of (noOp_setRetainGrad _ _))
  | zeroGrad t => exact N (grows_of (noOp_zeroGrad _))
  | release t => exact N (grows_of (noOp_release _))
  | backward t => exact N (grows_of (noOp_backward _))
  | grad t => exact keeps_gradOf _
  | all t => exact N (keeps_allT _)
  | toString t => exact N (keeps_toString _)
  | stride t => exact N (keeps_stride _)
  | query t => exact N (keeps_getT _)

omit [FOps F] in
theorem graph_empty : Graph (Heap.empty : Heap F) :=
  ⟨fun x y hu => by simp [Uses, operands, opOf, Heap.empty] at hu, fun x g hg => by simp [opOf, Heap.empty] at hg,
    fun x g hg => by simp [opOf, Heap.empty] at hg⟩

theorem graph_history {h : Heap F} (hh : History h) : Graph h := by
  induction hh with
  | start => exact graph_empty
  | @returned h h' c t _ hr ih =>
    have := grows_run c h
    rw [hr] at this
    exact this.1 ih
  | @threw h h' c e _ hr ih =>
    have := grows_run c h
    rw [hr] at this
    exact this.1 ih

end INNC
