import Verif.Lemmas.Valid
/-
Which objects own which: gradients and saved slopes are younger than their owner and record no operation. Every call keeps this.
(The same induction over the calls as in `Valid`.)
-/
namespace INNC
open Spec Tensor
variable {F : Type}

/-- `x` owns `y` as its gradient or as saved slopes. -/
def Side (h : Heap F) (x y : Nat) : Prop :=
  ∃ i, h.ts[x]? = some i ∧ (i.grad = some y ∨ ∃ f, i.gradFn = some f ∧ f.kind = .knownGrad y)

/-- The tensor exists and is not the result of a recorded operation. -/
def NoFn (h : Heap F) (y : Nat) : Prop := ∃ i, h.ts[y]? = some i ∧ i.gradFn = none

def Levelled (h : Heap F) : Prop := ∀ x y, Side h x y → x < y ∧ NoFn h y

/-- New gradients and slopes are younger than their owner and record no operation; tensors that record no operation go on recording
none. -/
structure Prior (h h' : Heap F) : Prop where
  len : h.ts.length ≤ h'.ts.length
  side : ∀ x y, Side h' x y → Side h x y ∨ (x < y ∧ NoFn h' y)
  nofn : ∀ y, NoFn h y → NoFn h' y

instance : Pre (F := F) Prior where
  refl _ := ⟨Nat.le_refl _, fun _ _ h => .inl h, fun _ h => h⟩
  trans h1 h2 := ⟨Nat.le_trans h1.len h2.len, fun x y hs => by
    rcases h2.side x y hs with h | h
    · rcases h1.side x y h with h | ⟨h, hn⟩
      · exact .inl h
      · exact .inr ⟨h, h2.nofn y hn⟩
    · exact .inr h, fun y h => h2.nofn y (h1.nofn y h)⟩

theorem Prior.levelled {h h' : Heap F} (hp : Prior h h') (hl : Levelled h) : Levelled h' := fun x y hs => by
  rcases hp.side x y hs with h | h
  · exact ⟨(hl x y h).1, hp.nofn y (hl x y h).2⟩
  · exact h

/-- The tensors of `h` are unchanged, and the others own nothing. -/
structure Plain (h h' : Heap F) : Prop where
  old : ∀ (x : Nat) (i : Impl), h.ts[x]? = some i → h'.ts[x]? = some i
  new : ∀ (x : Nat) (i : Impl), h'.ts[x]? = some i → h.ts[x]? = some i ∨ (i.grad = none ∧ i.gradFn = none)

instance : Pre (F := F) Plain where
  refl _ := ⟨fun _ _ h => h, fun _ _ h => .inl h⟩
  trans h1 h2 := ⟨fun x i h => h2.old x i (h1.old x i h), fun x i h => by
    rcases h2.new x i h with h | h
    · exact h1.new x i h
    · exact .inr h⟩

theorem Plain.len {h h' : Heap F} (hp : Plain h h') : h.ts.length ≤ h'.ts.length := by
  by_contra hc
  have hlt : h'.ts.length < h.ts.length := by omega
  have := hp.old _ _ (List.getElem?_eq_getElem hlt)
  rw [List.getElem?_eq_none (Nat.le_refl _)] at this
  simp at this

theorem Plain.nofn {h h' : Heap F} (hp : Plain h h') {r : Nat} (h1 : h.ts.length ≤ r) (h2 : r < h'.ts.length) : NoFn h' r := by
  refine ⟨_, List.getElem?_eq_getElem h2, ?_⟩
  rcases hp.new r _ (List.getElem?_eq_getElem h2) with h | h
  · have := getElem?_lt h; omega
  · exact h.2

theorem Plain.prior {h h' : Heap F} (hp : Plain h h') : Prior h h' := by
  refine ⟨hp.len, fun x y hs => ?_, fun y ⟨i, hi, e⟩ => ⟨i, hp.old y i hi, e⟩⟩
  obtain ⟨i, hi, hs⟩ := hs
  rcases hp.new x i hi with h | ⟨h1, h2⟩
  · exact .inl ⟨i, h, hs⟩
  · rcases hs with e | ⟨f, e, _⟩
    · rw [h1] at e; cases e
    · rw [h2] at e; cases e

theorem plain_of_ts {h h' : Heap F} (ht : h'.ts = h.ts) : Plain h h' := ⟨fun x i hi => ht ▸ hi, fun x i hi => .inl (ht ▸ hi)⟩

theorem append_old {h : Heap F} {i : Impl} : ∀ (x : Nat) (j : Impl), (h.ts ++ [i])[x]? = some j → h.ts[x]? = some j ∨ j = i := fun x j hj => by
  by_cases hlt : x < h.ts.length
  · rw [List.getElem?_append_left hlt] at hj
    exact .inl hj
  · rw [List.getElem?_append_right (by omega)] at hj
    cases hk : x - h.ts.length with
    | zero => rw [hk] at hj; exact .inr (by simpa using hj.symm)
    | succ n => rw [hk] at hj; simp at hj

theorem plain_new {h : Heap F} {i : Impl} (hg : i.grad = none) (hf : i.gradFn = none) : Plain h { h with ts := h.ts ++ [i] } := by
  refine ⟨fun x j hj => by simp only; rw [List.getElem?_append_left (getElem?_lt hj)]; exact hj, fun x j hj => ?_⟩
  rcases append_old x j hj with hj | rfl
  · exact .inl hj
  · exact .inr ⟨hg, hf⟩

/-- Changing a tensor in place. -/
theorem prior_set {h : Heap F} {x : Nat} {i k : Impl} (hi : h.ts[x]? = some i)
    (hf : k.gradFn = i.gradFn ∨ ∃ f f', i.gradFn = some f ∧ k.gradFn = some f' ∧ f'.kind = f.kind)
    (hg : k.grad = i.grad ∨ k.grad = none ∨ ∃ g, k.grad = some g ∧ x < g ∧ NoFn h g) :
    Prior h { h with ts := h.ts.set x k } := by
  have hset := List.getElem?_set_self (l := h.ts) (a := k) (getElem?_lt hi)
  have nofn : ∀ y, NoFn h y → NoFn { h with ts := h.ts.set x k } y := fun y ⟨j, hj, e⟩ => by
    by_cases hxy : x = y
    · subst hxy
      rw [hi] at hj
      obtain rfl := Option.some.inj hj
      refine ⟨k, hset, ?_⟩
      rcases hf with h | ⟨f, f', h, _⟩
      · rw [h, e]
      · rw [e] at h; cases h
    · exact ⟨j, by simp only; rw [List.getElem?_set_ne hxy]; exact hj, e⟩
  refine ⟨by simp, fun y z hs => ?_, nofn⟩
  obtain ⟨j, hj, hs⟩ := hs
  simp only at hj
  by_cases hxy : x = y
  · subst hxy
    rw [hset] at hj
    obtain rfl := Option.some.inj hj
    rcases hs with e | ⟨f1, e, hk⟩
    · rcases hg with h | h | ⟨g, h, hlt, hn⟩
      · exact .inl ⟨i, hi, .inl (h ▸ e)⟩
      · rw [h] at e; cases e
      · rw [h] at e; obtain rfl := Option.some.inj e; exact .inr ⟨hlt, nofn _ hn⟩
    · rcases hf with h | ⟨f, f', h, h', hkk⟩
      · exact .inl ⟨i, hi, .inr ⟨f1, h ▸ e, hk⟩⟩
      · rw [h'] at e; cases e; exact .inl ⟨i, hi, .inr ⟨f, h, hkk ▸ hk⟩⟩
  · rw [List.getElem?_set_ne hxy] at hj
    exact .inl ⟨j, hj, hs⟩

theorem prior_of_ts {h h' : Heap F} (ht : h'.ts = h.ts) : Prior h h' := (plain_of_ts ht).prior
theorem prior_of {α : Type} {x : M F α} (hx : Keeps Plain x) : Keeps Prior x := keeps_mono hx fun _ _ => Plain.prior

theorem plain_writes {α : Type} {x : M F α} (hx : Keeps (Writes fun _ => True) x) : Keeps Plain x :=
  keeps_mono hx fun _ _ h => plain_of_ts h.ts
theorem plain_newS (s : Storage F) : Keeps Plain (newS s) := fun _ => plain_of_ts rfl
theorem plain_setS (d : Nat) (s : Storage F) : Keeps Plain (setS d s) := fun _ => plain_of_ts rfl
theorem plain_createOn (dt : DType) (v : Layout) (d : Nat) : Keeps (F := F) Plain (createOn dt v d) := fun _ => plain_new rfl rfl
theorem plain_create (dt : DType) (v : Layout) (b : Bool) : Keeps (F := F) Plain (create dt v b) := by
  unfold create mkStorage
  refine keeps_bind ?_ fun d => plain_createOn _ _ _
  split
  · split
    · exact plain_newS _
    · exact keeps_raise _
  · exact plain_newS _
theorem plain_allocS (d : Nat) : Keeps (F := F) Plain (allocS d) := by
  unfold allocS
  refine keeps_bind (keeps_getS _) fun s => ?_
  split
  · exact plain_setS _ _
  · exact keeps_raise _

variable [FOps F]

theorem plain_zeroS (d : Nat) : Keeps (F := F) Plain (zeroS d) := plain_writes (keeps_zeroS trivial)
theorem plain_createScalar (dt : DType) (v : Val F) : Keeps Plain (createScalar dt v) := by
  unfold createScalar
  refine keeps_bind (plain_create _ _ _) fun t => keeps_bind (keeps_getT _) fun i => ?_
  exact keeps_bind (plain_writes (keeps_store trivial _ _ _)) fun _ => keeps_pure _
theorem plain_full (s : List Nat) (n : DType) (v : Val F) (dt : DType) : Keeps Plain (full s n v dt) := by
  unfold full
  refine keeps_bind (plain_createScalar _ _) fun t => keeps_bind (plain_create _ _ _) fun r => keeps_bind (keeps_getT _) fun i =>
    keeps_bind (keeps_getT _) fun i => ?_
  exact keeps_bind (plain_writes (keeps_tensorFill trivial _ _ _)) fun _ => keeps_pure _
theorem plain_ones (s : List Nat) (dt : DType) : Keeps (F := F) Plain (ones s dt) := plain_full s .i8 (.i 1) dt
theorem plain_zeros (s : List Nat) (dt : DType) : Keeps (F := F) Plain (zeros s dt) := by
  unfold zeros
  refine keeps_bind (plain_create _ _ _) fun r => keeps_bind (keeps_getT _) fun i => ?_
  exact keeps_bind (plain_zeroS _) fun _ => keeps_pure _
theorem plain_onesLike (t : Nat) : Keeps (F := F) Plain (onesLike t) := by
  unfold onesLike
  exact keeps_bind (keeps_getT _) fun i => plain_ones _ _
theorem plain_zerosLike (t : Nat) : Keeps (F := F) Plain (zerosLike t) := by
  unfold zerosLike
  exact keeps_bind (keeps_getT _) fun i => plain_zeros _ _
theorem plain_eye (n m : Nat) (dt : DType) : Keeps (F := F) Plain (eye n m dt) := by
  unfold eye
  refine keeps_bind (plain_create _ _ _) fun r => keeps_bind (keeps_getT _) fun i => ?_
  refine keeps_bind (plain_zeroS _) fun _ => ?_
  exact keeps_bind (plain_writes (keeps_tensorEye trivial _)) fun _ => keeps_pure _
theorem plain_fromBlob (data : List (Val F)) (s : List Nat) (dt : DType) : Keeps Plain (fromBlob data s dt) := by
  unfold fromBlob
  refine keeps_bind (plain_create _ _ _) fun r => keeps_bind (keeps_getT _) fun i => ?_
  simp only
  split
  · exact keeps_bind (keeps_undef _) fun _ => keeps_pure _
  · exact keeps_bind (plain_writes (keeps_blobGo trivial _ _ _)) fun _ => keeps_pure _
theorem plain_randn (rnd : Nat → F) (s : List Nat) (dt : DType) : Keeps Plain (randn rnd s dt) := by
  unfold randn
  refine keeps_bind (keeps_expect _) fun _ => keeps_bind (plain_create _ _ _) fun r => keeps_bind (keeps_getT _) fun i =>
    keeps_bind (keeps_getS _) fun st => ?_
  exact keeps_bind (plain_writes (keeps_randGo trivial _ _ _ _)) fun _ => keeps_pure _
theorem plain_detach (t : Nat) : Keeps (F := F) Plain (detach t) := by
  unfold detach
  exact keeps_bind (keeps_getT _) fun i => plain_createOn _ _ _
theorem plain_applyNoGradBinary {k : Kernel F}
    (hk : ∀ (L R : DType) (d l r : Impl), Keeps (Writes fun _ => True) (k L R d l r)) (l r : Nat) (o : Bool) :
    Keeps Plain (applyNoGradBinary k l r o) := by
  unfold applyNoGradBinary
  refine keeps_bind (keeps_getT _) fun li => keeps_bind (keeps_getT _) fun ri => keeps_bind (keeps_lift _) fun range =>
    keeps_bind (plain_create _ _ _) fun t => keeps_bind (keeps_getT _) fun d => ?_
  have key : ∀ (L R : DType) (a b : Impl), Keeps Plain (k L R d a b >>= fun _ => (pure t : M F Nat)) := fun L R a b =>
    keeps_bind (plain_writes (hk _ _ _ _ _)) fun _ => keeps_pure _
  split
  · split
    · exact key _ _ _ _
    · exact key _ _ _ _
  · exact key _ _ _ _
theorem plain_cmp (op : COp) (l r : Nat) : Keeps (F := F) Plain (Tensor.cmp op l r) := by
  unfold Tensor.cmp
  refine keeps_bind (keeps_getT _) fun li => keeps_bind (keeps_getT _) fun ri => keeps_bind (keeps_lift _) fun range =>
    keeps_bind (plain_create _ _ _) fun t => keeps_bind (keeps_getT _) fun d => ?_
  exact keeps_bind (plain_writes (keeps_tensorCmp trivial _ _ _ _ _)) fun _ => keeps_pure _
theorem plain_addAssign (t r : Nat) : Keeps (F := F) Plain (addAssign t r) := by
  unfold addAssign
  refine keeps_bind (keeps_getT _) fun i => keeps_bind (keeps_expect _) fun _ => keeps_bind (keeps_getT _) fun j => ?_
  exact plain_writes (keeps_tensorAdd trivial _ _ _ _)
theorem plain_zeroGrad (t : Nat) : Keeps (F := F) Plain (zeroGrad t) := by
  unfold zeroGrad
  refine keeps_bind (keeps_getT _) fun i => ?_
  cases i.grad with
  | none => exact keeps_pure _
  | some g => exact keeps_bind (keeps_getT _) fun i => plain_zeroS _
omit [FOps F] in
theorem plain_release (t : Nat) : Keeps (F := F) Plain (release t) := by
  unfold release releaseS
  exact keeps_bind (keeps_getT _) fun i => keeps_bind (keeps_getS _) fun s => plain_setS _ _
theorem plain_ofInit (tree : InitTree F) : Keeps Plain (ofInit tree) := by
  unfold ofInit
  refine keeps_bind (keeps_lift _) fun init => ?_
  unfold createImpl
  split
  · exact keeps_pure _
  · cases init.dtype with
    | none => exact keeps_undef _
    | some dt =>
      exact keeps_bind ((plain_create _ _ _)) fun t => keeps_bind (keeps_getT _) fun i => keeps_bind (keeps_getS _) fun s =>
        keeps_bind ((plain_setS _ _)) fun _ => keeps_pure _


/-! ### Recording an operation -/

section
omit [FOps F]

/-- Whatever the outcome of the computation, the state is `Prior` to `h0`. -/
def To {α : Type} (h0 : Heap F) (x : M F α) (h : Heap F) : Prop :=
  match x h with
  | .ok _ h' => Prior h0 h'
  | .throw _ h' => Prior h0 h'
  | .ub _ => True

theorem to_of {α : Type} {h0 h : Heap F} (hp : Prior h0 h) {x : M F α} (hx : Keeps Prior x) : To h0 x h := by
  have := hx h
  unfold To
  cases e : x h with
  | ok a h' => rw [e] at this; exact Pre.trans hp this
  | throw a h' => rw [e] at this; exact Pre.trans hp this
  | ub u => trivial

theorem to_plain {α β : Type} {h0 h : Heap F} (hp : Plain h0 h) {x : M F α} {f : α → M F β} (hx : Keeps Plain x)
    (hf : ∀ a h', x h = .ok a h' → Plain h0 h' → To h0 (f a) h') : To h0 (x >>= f) h := by
  have := hx h
  unfold To
  rw [M.bind_def]
  cases e : x h with
  | ok a h' => rw [e] at this; exact hf a h' e (Pre.trans hp this)
  | throw a h' => rw [e] at this; exact (Pre.trans hp this : Plain h0 h').prior
  | ub u => trivial

/-- The operation is recorded in a tensor that is new since `h0`. -/
theorem to_setGradFn {β : Type} {h0 h : Heap F} (hp : Plain h0 h) {t : Nat} (ht : h0.ts.length ≤ t) {k : BackKind} {ins : List Nat}
    (hk : ∀ g, k = .knownGrad g → t < g ∧ g < h.ts.length) {f : Unit → M F β} (hf : Keeps Prior (f ())) :
    To h0 (setGradFn t k ins >>= f) h := by
  unfold setGradFn
  cases hi : h.ts[t]? with
  | none =>
    have e : (getT t : M F Impl) h = .ub .nullptr := by unfold getT; rw [hi]
    unfold To; rw [bind_assoc, M.bind_ub e]; trivial
  | some i =>
    have hpr : Prior h0 { h with ts := h.ts.set t { i with requiresGrad := true, gradFn := some ⟨k, ins, 0, 0, 0⟩ } } := by
      have nofn : ∀ y, y ≠ t → NoFn h y → NoFn { h with ts := h.ts.set t { i with requiresGrad := true, gradFn := some ⟨k, ins, 0, 0, 0⟩ } } y :=
        fun y hy ⟨j, hj, e⟩ => ⟨j, by simp only; rw [List.getElem?_set_ne (Ne.symm hy)]; exact hj, e⟩
      refine ⟨by simpa using hp.len, fun x y hs => ?_, fun y hn => ?_⟩
      · obtain ⟨j, hj, hs⟩ := hs
        simp only at hj
        by_cases hxy : t = x
        · subst hxy
          rw [List.getElem?_set_self (getElem?_lt hi)] at hj
          obtain rfl := Option.some.inj hj
          rcases hs with e | ⟨f, e, hkk⟩
          · rcases hp.new t i hi with h | ⟨h, _⟩
            · have := getElem?_lt h; omega
            · simp only at e; rw [h] at e; cases e
          · cases e
            obtain ⟨h1, h2⟩ := hk y hkk
            exact .inr ⟨h1, nofn y (by omega) (hp.nofn (by omega) h2)⟩
        · rw [List.getElem?_set_ne hxy] at hj
          rcases hp.new x j hj with h | ⟨h1, h2⟩
          · exact .inl ⟨j, h, hs⟩
          · rcases hs with e | ⟨f, e, _⟩
            · rw [h1] at e; cases e
            · rw [h2] at e; cases e
      · obtain ⟨j, hj, e⟩ := hn
        exact nofn y (by have := getElem?_lt hj; omega) ⟨j, hp.old y j hj, e⟩
    have := to_of hpr hf
    unfold To at this ⊢
    rw [bind_assoc, M.bind_ok (getT_ok hi)]
    exact this

theorem at_of_to {α : Type} {h : Heap F} {x : M F α} (hx : To h x h) : KeepsAt Prior x h := hx
theorem to_getT {β : Type} {t : Nat} {f : Impl → M F β} {h0 h : Heap F} (hf : ∀ i, h.ts[t]? = some i → To h0 (f i) h) :
    To h0 (getT t >>= f) h := by
  cases hi : h.ts[t]? with
  | none =>
    have e : (getT t : M F Impl) h = .ub .nullptr := by unfold getT; rw [hi]
    unfold To; rw [M.bind_ub e]; trivial
  | some i =>
    have := hf i hi
    unfold To at *
    rw [M.bind_ok (getT_ok hi)]
    exact this
theorem to_pure {α : Type} {h0 h : Heap F} (hp : Plain h0 h) (a : α) : To h0 (pure a : M F α) h := hp.prior

theorem create_new {dt : DType} {v : Layout} {b : Bool} {h h' : Heap F} {r : Nat} (e : create dt v b h = .ok r h') :
    h.ts.length ≤ r ∧ NoFn h' r := by
  have := plain_create dt v b h
  rw [e] at this
  exact ⟨create_idx e, Plain.nofn this (create_idx e) (create_lt e)⟩
end

omit [FOps F] in
theorem prior_setRequiresGrad (t : Nat) (b : Bool) : Keeps (F := F) Prior (setRequiresGrad t b) := by
  unfold setRequiresGrad
  refine keeps_bind (keeps_getT _) fun i => ?_
  have key : Keeps (F := F) Prior (getT t >>= fun i => setT t { i with requiresGrad := b }) :=
    keepsR_getT fun h i hi => prior_set hi (.inl rfl) (.inl rfl)
  split
  · exact keeps_bind (keeps_expect _) fun _ => key
  · exact key
omit [FOps F] in
theorem prior_setRetainGrad (t : Nat) (b : Bool) : Keeps (F := F) Prior (setRetainGrad t b) := by
  unfold setRetainGrad
  exact keepsR_getT fun h i hi => prior_set hi (.inl rfl) (.inl rfl)

omit [FOps F] in
theorem prior_shareGradStorage (dst frm : Nat) : Keeps (F := F) Prior (shareGradStorage dst frm) := by
  unfold shareGradStorage
  have tail : ∀ g : Nat, Keeps (F := F) Prior (do
      let gi ← getT g
      let t ← getT dst
      let g' ← createOn t.dtype t.view gi.data
      let t ← getT dst
      setT dst { t with grad := some g' }) := fun g =>
    keepsR_getT fun h gi hgi => at_getT fun t ht => at_bind (prior_of (plain_createOn _ _ _) h) fun g' h' e =>
      at_getT fun j hj => prior_set hj (.inl rfl) (.inr (.inr ⟨g', rfl, by
        have := getElem?_lt ht
        cases e
        exact ⟨this, ⟨t.dtype, t.view, gi.data, none, false, false, none⟩, by simp, rfl⟩⟩))
  refine keepsR_getT fun h f hf => ?_
  cases f.grad with
  | some g => exact tail g h
  | none =>
    refine at_bind (x := create f.dtype f.view false) (prior_of (plain_create f.dtype f.view false) h) fun g h' e => ?_
    have hn := create_new e
    have := getElem?_lt hf
    exact at_getT fun i hi => at_bind (prior_set hi (.inl rfl) (.inr (.inr ⟨g, rfl, by omega, hn.2⟩))) fun _ h'' _ => tail g h''

theorem prior_makeView (dt : DType) (v : Layout) (d base : Nat) : Keeps (F := F) Prior (makeView dt v d base) := by
  intro h
  unfold makeView
  refine to_plain (Pre.refl h) (plain_createOn _ _ _) fun r h1 e hp => to_getT fun i hi => ?_
  split
  · exact to_pure hp _
  · refine to_setGradFn hp (createOn_idx e).ge (by simp) ?_
    exact keeps_bind (prior_shareGradStorage _ _) fun _ => keeps_pure r
theorem prior_slice (t : Nat) (s : Str) : Keeps (F := F) Prior (Tensor.slice t s) :=
  keeps_bind (keeps_getT _) fun _ => keeps_bind (keeps_lift _) fun _ => prior_makeView _ _ _ _
theorem prior_transpose (t a b : Nat) : Keeps (F := F) Prior (Tensor.transpose t a b) :=
  keeps_bind (keeps_getT _) fun _ => keeps_bind (keeps_lift _) fun _ => prior_makeView _ _ _ _

theorem prior_clone (t : Nat) : Keeps (F := F) Prior (Tensor.clone t) := by
  unfold Tensor.clone
  refine keepsR_getT fun h i hi => to_plain (Pre.refl h) (plain_create _ _ _) fun r h1 e hp => ?_
  refine to_getT fun d hd => to_plain hp (plain_writes (keeps_copyLoop trivial _ _ _)) fun _ h2 _ hp => ?_
  split
  · exact to_pure hp _
  · exact to_setGradFn hp (create_idx e) (by simp) (keeps_pure _)

theorem prior_reshapeSizes (t : Nat) (s : List Nat) : Keeps (F := F) Prior (Tensor.reshapeSizes t s) := by
  unfold Tensor.reshapeSizes
  refine keeps_bind (keeps_getT _) fun i => keeps_bind (keeps_expect _) fun _ => ?_
  lift_lets
  intro st jp
  have hjp : ∀ e, Keeps (F := F) Prior (jp e) := by
    intro early
    cases early with
    | some r => exact keeps_pure _
    | none =>
      dsimp only [jp]
      split
      · exact keeps_undef _
      · refine keeps_bind (keeps_lift _) fun iso => ?_
        split
        · split
          · exact keeps_bind (keeps_lift _) fun _ => prior_makeView _ _ _ _
          · exact prior_makeView _ _ _ _
        · exact keeps_bind (prior_clone t) fun m => keeps_bind (keeps_getT _) fun mi => prior_makeView _ _ _ _
  split
  · exact keeps_bind (prior_makeView _ _ _ _) fun r => hjp _
  · exact hjp none
theorem prior_reshape (t : Nat) (s : List Int) : Keeps (F := F) Prior (Tensor.reshape t s) := by
  unfold Tensor.reshape
  exact keeps_bind (keeps_getT _) fun i => keeps_bind (keeps_lift _) fun z => prior_reshapeSizes t z
theorem prior_reshapeAs (t u : Nat) : Keeps (F := F) Prior (Tensor.reshapeAs t u) := by
  unfold Tensor.reshapeAs
  exact keeps_bind (keeps_getT _) fun i => prior_reshapeSizes t _

theorem prior_toType (t : Nat) (dt : DType) : Keeps (F := F) Prior (Tensor.toType t dt) := by
  unfold Tensor.toType
  refine keepsR_getT fun h i hi => ?_
  split
  · exact (keeps_raise _ : Keeps Prior (M.raise .runtime : M F Nat)) h
  split
  · exact (keeps_pure _ : Keeps Prior (pure t : M F Nat)) h
  refine at_of_to (to_plain (Pre.refl h) (plain_create _ _ _) fun r h1 e hp => ?_)
  refine to_getT fun d hd => to_plain hp (plain_writes (keeps_copyLoop trivial _ _ _)) fun _ h2 _ hp => ?_
  split
  · exact to_pure hp _
  · exact to_setGradFn hp (create_idx e) (by simp) (keeps_pure _)

theorem prior_applyBinary {k : Kernel F} {back : BackKind} (hb : ∀ g, back ≠ .knownGrad g)
    (hk : ∀ (D : Nat → Prop) (L R : DType) (d l r : Impl), D d.data → Keeps (Writes D) (k L R d l r)) (l r : Nat) (o : Bool) :
    Keeps Prior (Tensor.applyBinary k back l r o) := by
  unfold Tensor.applyBinary
  intro h
  refine at_of_to (to_plain (Pre.refl h) (plain_applyNoGradBinary (fun L R d l r => hk _ L R d l r trivial) l r o) fun t h1 e hp => ?_)
  have hn := (frameInv_extends h).applyNoGradBinary (extends_refl h) hk l r o
  rw [e] at hn
  refine to_getT fun d hd => to_getT fun d hd => ?_
  split
  · exact to_pure hp _
  · exact to_setGradFn hp hn.2.1 (fun g hg => absurd hg (hb g)) (keeps_pure _)
theorem prior_addT (l r : Nat) : Keeps (F := F) Prior (addT l r) :=
  prior_applyBinary (back := .add) (by simp) (fun _ _ _ _ _ _ hd => keeps_tensorAdd hd _ _ _ _) l r false
theorem prior_subT (l r : Nat) : Keeps (F := F) Prior (subT l r) :=
  prior_applyBinary (back := .sub) (by simp) (fun _ _ _ _ _ _ hd => keeps_tensorSub hd _ _ _ _) l r true
theorem prior_mulT (l r : Nat) : Keeps (F := F) Prior (mulT l r) :=
  prior_applyBinary (back := .mul) (by simp) (fun _ _ _ _ _ _ hd => keeps_tensorMul hd _ _ _ _) l r false
theorem prior_divT (l r : Nat) : Keeps (F := F) Prior (divT l r) :=
  prior_applyBinary (back := .div) (by simp) (fun _ _ _ _ _ _ hd => keeps_tensorDiv hd _ _ _ _) l r true
theorem prior_negT (t : Nat) : Keeps (F := F) Prior (negT t) := by
  unfold negT
  exact keeps_bind (prior_of (plain_createScalar _ _)) fun z => prior_subT _ _

theorem prior_sumLike {k : DType → DType → Impl → Impl → M F Unit} {back : BackKind} (hb : ∀ g, back ≠ .knownGrad g)
    (hk : ∀ (T S : DType) (d l : Impl), Keeps (Writes fun _ => True) (k T S d l)) (t : Nat) :
    Keeps (F := F) Prior (do
      let i ← getT t
      let tf ← zeros [] (sumType i.dtype)
      k (sumType i.dtype) i.dtype (← getT tf) i
      if i.requiresGrad then Tensor.setGradFn tf back [t]
      return tf) := by
  refine keepsR_getT fun h i hi => to_plain (Pre.refl h) (plain_zeros _ _) fun tf h1 e hp => ?_
  refine to_getT fun d hd => to_plain hp (plain_writes (hk _ _ _ _)) fun _ h2 _ hp => ?_
  split
  · exact to_setGradFn hp (zeros_idx e) (fun g hg => absurd hg (hb g)) (keeps_pure _)
  · exact to_pure hp _
theorem prior_sumT (t : Nat) : Keeps (F := F) Prior (sumT t) := by
  unfold sumT
  exact prior_sumLike (k := tensorSum) (back := .sum) (by simp) (fun _ _ _ _ => keeps_tensorSum trivial _ _ _) t
theorem prior_meanT (t : Nat) : Keeps (F := F) Prior (meanT t) := by
  unfold meanT
  exact prior_sumLike (k := tensorMean) (back := .mean) (by simp) (fun _ _ _ _ => keeps_tensorMean trivial _ _ _) t

theorem prior_absT (t : Nat) : Keeps (F := F) Prior (absT t) := by
  unfold absT
  refine keepsR_getT fun h i hi => to_plain (Pre.refl h) (plain_create _ _ _) fun r h1 e hp => ?_
  have hr := create_lt e
  split
  · refine to_getT fun d hd => to_plain hp (plain_writes (keeps_tensorAbs trivial _ _ _ _ (by simp))) fun _ h2 _ hp => to_pure hp _
  · refine to_plain hp (plain_create _ _ _) fun g h2 e2 hp => to_getT fun d hd => to_getT fun d2 hd2 => ?_
    refine to_plain hp (plain_writes (keeps_tensorAbs trivial _ _ _ _ (by simp))) fun _ h3 e3 hp => ?_
    refine to_setGradFn hp (create_idx e) (fun y hy => ?_) (keeps_pure _)
    cases hy
    have h23 := plain_writes (keeps_tensorAbs (dst := d) (D := fun _ => True) trivial i.dtype i.dtype i (some d2) (by simp)) h2
    rw [e3] at h23
    have := Plain.len h23
    have := create_idx e2; have := create_lt e2
    omega

theorem prior_extreme (c : COp) (t : Nat) : Keeps (F := F) Prior (extreme c t) := by
  unfold extreme
  refine keepsR_getT fun h i hi => to_plain (Pre.refl h) (plain_zeros _ _) fun r h1 e hp => ?_
  split
  · refine to_getT fun d hd => to_plain hp (plain_writes (keeps_tensorExtreme trivial _ _ _ _ (by simp))) fun _ h2 _ hp => to_pure hp _
  · refine to_plain hp (plain_zerosLike _) fun g h2 e2 hp => ?_
    have hz := (frameInv_extends h1).zerosLike (extends_refl h1) t
    rw [e2] at hz
    obtain ⟨_, ⟨hge, j, hj, _⟩, _⟩ := hz
    have hr : r < h1.ts.length := by
      have hz := (frameInv_extends h).zeros (extends_refl h) [] i.dtype
      rw [e] at hz
      obtain ⟨_, ⟨_, j, hj, _⟩, _⟩ := hz
      exact getElem?_lt hj
    refine to_getT fun d hd => to_getT fun d2 hd2 => ?_
    refine to_plain hp (plain_writes (keeps_tensorExtreme trivial _ _ _ _ (by simp))) fun _ h3 e3 hp => ?_
    refine to_setGradFn hp (zeros_idx e) (fun y hy => ?_) (keeps_pure _)
    cases hy
    have h23 := plain_writes (keeps_tensorExtreme (dst := d) (D := fun _ => True) trivial c i.dtype i (some d2) (by simp)) h2
    rw [e3] at h23
    have := Plain.len h23
    have := getElem?_lt hj
    omega

theorem prior_catT (ts : List Nat) (d : Nat) : Keeps (F := F) Prior (catT ts d) := by
  unfold catT
  cases ts with
  | nil => exact keeps_undef _
  | cons t0 rest =>
    refine keepsR_getT fun h i hi => to_plain (Pre.refl h) (keeps_expect _) fun _ h1 _ hp => ?_
    refine to_plain hp (keeps_getAll rest) fun others h2 _ hp => to_plain hp (keeps_catCheck _ _ _) fun _ h3 _ hp => ?_
    refine to_plain hp (plain_create _ _ _) fun r h4 e hp' => ?_
    refine to_getT fun j hj => to_plain hp' (plain_writes (keeps_catGo trivial _ _ _ _)) fun _ h5 _ hp' => ?_
    have := hp.len; have := create_idx e
    split
    · exact to_setGradFn hp' (by omega) (by simp) (keeps_pure _)
    · exact to_pure hp' _

/-! ### Back-propagation -/

theorem prior_tryAccUpdate (p : Nat) : Keeps (F := F) Prior (tryAccUpdate p) := by
  unfold tryAccUpdate
  refine keepsR_getT fun h i hi => ?_
  have rest : ∀ H : Heap F, p < H.ts.length → KeepsAt Prior (match i.grad with
    | none => do
      let g ← INNC.create i.dtype i.view true
      let i ← getT p
      INNC.setT p { i with grad := some g }
      let gi ← getT g
      zeroS gi.data
    | some g => do
      let gi ← getT g
      let al ← isAllocS gi.data
      if !al then do
        INNC.allocS gi.data
        zeroS gi.data
      else pure () : M F Unit) H := by
    intro H hlt
    cases i.grad with
    | none =>
      refine at_bind (prior_of (plain_create _ _ _) H) fun g h' e => at_getT fun j hj => ?_
      have hn := create_new e
      refine at_bind (prior_set hj (.inl rfl) (.inr (.inr ⟨g, rfl, by omega, hn.2⟩))) fun _ h'' _ => ?_
      exact (keeps_bind (keeps_getT _) fun _ => prior_of (plain_zeroS _) : Keeps Prior (getT g >>= fun gi => zeroS gi.data)) h''
    | some g =>
      refine prior_of (keeps_bind (keeps_getT _) fun gi => keeps_bind (keeps_isAllocS _) fun al => ?_) H
      split
      · exact keeps_bind (plain_allocS _) fun _ => plain_zeroS _
      · exact keeps_pure _
  have hlt := getElem?_lt hi
  split
  · exact (keeps_pure () : Keeps Prior _) h
  · cases hg : i.gradFn with
    | none => exact rest h hlt
    | some g =>
      refine at_bind ?_ fun _ h' e => rest h' (by cases e; simpa using hlt)
      exact prior_set hi (.inr ⟨g, _, hg, rfl, rfl⟩) (.inl rfl)

theorem prior_mulAddF (d a b : Nat) : Keeps (F := F) Prior (mulAddF d a b) := by
  unfold mulAddF
  refine keeps_bind (keeps_getT _) fun i => keeps_bind (keeps_getT _) fun i => keeps_bind (keeps_getT _) fun i => ?_
  split
  · exact prior_of <| plain_writes (keeps_tensorMulAccF trivial _ _ _ _ _)
  · exact keeps_undef _

theorem prior_tryAccGrad (p : Nat) (w o : Option Nat) : Keeps (F := F) Prior (tryAccGrad p w o) := by
  unfold tryAccGrad
  refine keeps_bind (keeps_getT _) fun i => ?_
  split
  · exact keeps_pure _
  refine keeps_bind (prior_tryAccUpdate p) fun _ => ?_
  cases w with
  | none => cases o with
    | none => exact keeps_pure _
    | some o => exact keeps_undef _
  | some w => cases o with
    | none => exact keeps_bind (keeps_derefGrad _) fun g => prior_of (plain_addAssign _ _)
    | some o =>
      refine keeps_bind (keeps_getT _) fun wi => keeps_bind (keeps_derefGrad _) fun g => ?_
      split
      · exact prior_mulAddF _ _ _
      · exact prior_mulAddF _ _ _

theorem prior_catBackGo (t dim : Nat) : ∀ (xs : List Nat) (s : Nat), Keeps (F := F) Prior (catBackGo t dim s xs)
  | [], _ => keeps_pure _
  | x :: xs, s => by
    unfold catBackGo
    refine keeps_bind (keeps_getT _) fun i => keeps_bind (keeps_getT _) fun i => keeps_bind (keeps_lift _) fun i =>
      keeps_bind (keeps_derefGrad _) fun g => keeps_bind (keeps_getT _) fun gi => keeps_bind (prior_of (plain_createOn _ _ _)) fun r => ?_
    exact keeps_bind (prior_tryAccGrad _ _ _) fun _ => keeps_bind (keeps_getT _) fun i => keeps_bind (keeps_lift _) fun i =>
      prior_catBackGo t dim xs _

theorem prior_divBackNum (d a b : Nat) : Keeps (F := F) Prior (divBackNum d a b) := by
  unfold divBackNum
  refine keeps_bind (keeps_getT _) fun i => keeps_bind (keeps_getT _) fun i => keeps_bind (keeps_getT _) fun i => ?_
  split
  · exact prior_of <| plain_writes (keeps_tensorDivBackNum trivial _ _ _ _ _)
  · exact keeps_undef _

theorem prior_divBackDen (t d : Nat) : Keeps (F := F) Prior (divBackDen t d) := by
  unfold divBackDen
  refine keeps_bind (keeps_getT _) fun i => keeps_bind (keeps_getT _) fun i => ?_
  split
  · refine keeps_bind (keeps_derefGrad _) fun i => keeps_bind (keeps_derefGrad _) fun i => keeps_bind (keeps_getT _) fun i =>
      keeps_bind (keeps_getT _) fun i => ?_
    exact prior_of <| plain_writes (keeps_tensorDivBackDen trivial _ _ _ _ _)
  · exact keeps_undef _

theorem prior_stepBack (t : Nat) (g : GradFn) : Keeps (F := F) Prior (stepBack t g) := by
  unfold stepBack
  cases g.kind with
  | add =>
    refine keeps_bind (keeps_inputAt _ _) fun a => keeps_bind (keeps_derefGrad _) fun o => keeps_bind (prior_tryAccGrad _ _ _) fun _ => ?_
    exact keeps_bind (keeps_inputAt _ _) fun a => keeps_bind (keeps_derefGrad _) fun o => prior_tryAccGrad _ _ _
  | sub =>
    refine keeps_bind (keeps_inputAt _ _) fun a => keeps_bind (keeps_derefGrad _) fun o => keeps_bind (prior_tryAccGrad _ _ _) fun _ => ?_
    exact keeps_bind (prior_of (plain_createScalar _ _)) fun m => keeps_bind (keeps_inputAt _ _) fun a => keeps_bind (keeps_derefGrad _) fun o => prior_tryAccGrad _ _ _
  | mul =>
    refine keeps_bind (keeps_inputAt _ _) fun a => keeps_bind (keeps_inputAt _ _) fun b => keeps_bind (keeps_derefGrad _) fun o => keeps_bind (prior_tryAccGrad _ _ _) fun _ => ?_
    exact keeps_bind (keeps_inputAt _ _) fun a => keeps_bind (keeps_inputAt _ _) fun b => keeps_bind (keeps_derefGrad _) fun o => prior_tryAccGrad _ _ _
  | div =>
    refine keeps_bind (keeps_inputAt _ _) fun a => keeps_bind (keeps_inputAt _ _) fun b => keeps_bind (prior_tryAccUpdate _) fun _ => ?_
    refine keeps_bind (keeps_derefGrad _) fun o => keeps_bind (keeps_derefGrad _) fun o => keeps_bind (prior_divBackNum _ _ _) fun _ => ?_
    exact keeps_bind (prior_tryAccUpdate _) fun _ => prior_divBackDen _ _
  | sum =>
    refine keeps_bind (keeps_inputAt _ _) fun a => keeps_bind (prior_of (plain_onesLike _)) fun b => keeps_bind (keeps_derefGrad _) fun o => ?_
    exact prior_tryAccGrad _ _ _
  | mean =>
    refine keeps_bind (keeps_inputAt _ _) fun a => keeps_bind (keeps_getT _) fun b => keeps_bind (prior_of (plain_full _ _ _ _)) fun o => ?_
    exact prior_tryAccGrad _ _ _
  | noBack =>
    exact keeps_bind (keeps_inputAt _ _) fun a => prior_tryAccGrad _ _ _
  | clone =>
    exact keeps_bind (keeps_inputAt _ _) fun a => keeps_bind (keeps_derefGrad _) fun o => prior_tryAccGrad _ _ _
  | cat dim => exact prior_catBackGo _ _ _ _
  | knownGrad k =>
    exact keeps_bind (keeps_inputAt _ _) fun a => keeps_bind (keeps_derefGrad _) fun o => prior_tryAccGrad _ _ _


omit [FOps F] in
theorem prior_setGF {x : Nat} {i : Impl} {g g' : GradFn} {h : Heap F} (hi : h.ts[x]? = some i) (hg : i.gradFn = some g)
    (hk : g'.kind = g.kind) : KeepsAt Prior (setGF x g') h := by
  unfold setGF
  refine at_getT fun j hj => ?_
  rw [hi] at hj
  obtain rfl := Option.some.inj hj
  exact prior_set hi (.inr ⟨g, g', hg, rfl, hk⟩) (.inl rfl)

omit [FOps F] in
theorem prior_getSetGF {β : Type} (t : Nat) (f : GradFn → GradFn) (hf : ∀ g, (f g).kind = g.kind) (rest : M F β) (hr : Keeps Prior rest) :
    Keeps Prior (getGradFn t >>= fun g => setGF t (f g) >>= fun _ => rest) := by
  unfold getGradFn
  rw [bind_assoc]
  refine keepsR_getT fun h i hi => ?_
  cases hg : i.gradFn with
  | none => trivial
  | some g => exact at_bind (x := setGF t (f g)) (prior_setGF hi hg (hf g)) fun _ h' _ => hr h'

theorem prior_bump : Keeps (F := F) Prior bumpVersion := fun h => prior_of_ts rfl

theorem prior_resetInputs : ∀ (l : List Nat), Keeps (F := F) Prior (resetInputs l)
  | [] => keeps_pure _
  | x :: xs => by
    unfold resetInputs
    refine keepsR_getT fun h i hi => at_reads (keeps_getVersion (R := fun a b : Heap F => b = a)) fun v => ?_
    cases hg : i.gradFn with
    | none => exact prior_resetInputs xs h
    | some g =>
      simp only
      split
      · exact at_bind (prior_setGF hi hg rfl) fun _ h' _ => keeps_bind (prior_resetInputs xs) (fun _ => keeps_pure _) h'
      · exact prior_resetInputs xs h

theorem prior_countInputs : ∀ (l : List Nat), Keeps (F := F) Prior (countInputs l)
  | [] => keeps_pure _
  | x :: xs => by
    unfold countInputs
    refine keepsR_getT fun h i hi => at_reads (keeps_getVersion (R := fun a b : Heap F => b = a)) fun v => ?_
    cases hg : i.gradFn with
    | none => exact prior_countInputs xs h
    | some g =>
      simp only
      split
      · exact at_bind (prior_setGF hi hg rfl) fun _ h' _ => keeps_bind (prior_countInputs xs) (fun _ => keeps_pure _) h'
      · exact at_bind (prior_setGF hi hg rfl) fun _ h' _ => prior_countInputs xs h'

theorem prior_readyInputs : ∀ (l : List Nat), Keeps (F := F) Prior (readyInputs l)
  | [] => keeps_pure _
  | x :: xs => by
    unfold readyInputs
    refine keepsR_getT fun h i hi => at_reads (keeps_getVersion (R := fun a b : Heap F => b = a)) fun v => ?_
    cases hg : i.gradFn with
    | none => exact prior_readyInputs xs h
    | some g =>
      simp only
      split
      · exact at_bind (prior_setGF hi hg rfl) fun _ h' _ => keeps_bind (prior_readyInputs xs) (fun _ => keeps_pure _) h'
      · exact prior_readyInputs xs h

theorem prior_queueLoop {visit : Nat → M F (List Nat)} (hv : ∀ x, Keeps Prior (visit x)) : ∀ (n : Nat) (q : List Nat),
    Keeps Prior (queueLoop visit n q)
  | _, [] => by unfold queueLoop; exact keeps_pure _
  | 0, _ :: _ => by unfold queueLoop; exact keeps_undef _
  | n + 1, x :: q => by unfold queueLoop; exact keeps_bind (hv x) fun new => prior_queueLoop hv n _

theorem prior_backVisit (t : Nat) : Keeps (F := F) Prior (backVisit t) := by
  unfold backVisit
  refine keeps_bind (keeps_getGradFn _) fun g => keeps_bind (prior_stepBack _ _) fun _ => ?_
  have tail : Keeps (F := F) Prior (getGradFn t >>= fun g => readyInputs g.inputs) :=
    keeps_bind (keeps_getGradFn _) fun g => prior_readyInputs _
  refine keepsR_getT fun h i hi => ?_
  split
  · exact at_bind (prior_set hi (.inl rfl) (.inr (.inl rfl))) fun _ h' _ => tail h'
  · exact tail h

theorem prior_refreshNOutway (t : Nat) : Keeps (F := F) Prior (refreshNOutway t) := by
  unfold refreshNOutway
  refine keeps_bind keeps_heapSize fun n => keeps_bind prior_bump fun v => ?_
  refine prior_getSetGF t (fun g => { g with nOutway := 0, backVersion := v }) (fun _ => rfl) _ ?_
  refine keeps_bind (prior_queueLoop (fun x => keeps_bind (keeps_getGradFn _) fun g => prior_resetInputs _) _ _) fun _ => ?_
  refine keeps_bind prior_bump fun v => ?_
  refine prior_getSetGF t (fun g => { g with backVersion := v }) (fun _ => rfl) _ ?_
  exact prior_queueLoop (fun x => keeps_bind (keeps_getGradFn _) fun g => prior_countInputs _) _ _

theorem prior_backward (t : Nat) : Keeps (F := F) Prior (backward t) := by
  unfold backward
  refine keeps_bind (keeps_getT _) fun i => keeps_bind (keeps_expect _) fun _ => keeps_bind (keeps_expect _) fun _ =>
    keeps_bind (keeps_expect _) fun _ => keeps_bind keeps_heapSize fun n => keeps_bind (prior_refreshNOutway _) fun _ => ?_
  intro h
  refine at_bind (prior_of (plain_onesLike t) h) fun o h' e => at_getT fun i hi => ?_
  have hp := plain_onesLike t h
  have ho := (frameInv_extends h).onesLike (extends_refl h) t
  rw [e] at ho hp
  have hlt : t < h.ts.length := by
    by_contra hc
    have hn : h.ts[t]? = none := List.getElem?_eq_none (by omega)
    unfold onesLike at e
    rw [M.bind_ub (u := .nullptr) (by unfold getT; rw [hn])] at e
    cases e
  have hge := ho.2.1
  refine at_bind (prior_set hi (.inl rfl) (.inr (.inr ⟨o, rfl, by omega, Plain.nofn hp hge (onesLike_lt e)⟩))) fun _ h'' _ => ?_
  exact (keeps_bind prior_bump fun v => prior_getSetGF t (fun g => { g with backVersion := v }) (fun _ => rfl) _
    (prior_queueLoop prior_backVisit _ _) : Keeps Prior (do
      let v ← bumpVersion
      let g ← getGradFn t
      setGF t { g with backVersion := v }
      queueLoop backVisit (n + 1) [t])) h''

theorem prior_run (c : Call F) : Keeps Prior c.run := by
  have S : ∀ {x : M F Nat}, Keeps Prior x → Keeps Prior (some' x) := fun hx => keeps_bind hx fun _ => keeps_pure _
  have N : ∀ {α : Type} {x : M F α}, Keeps Prior x → Keeps Prior (none' x) := fun hx => keeps_bind hx fun _ => keeps_pure _
  cases c with
  | scalar dt v => exact S (prior_of (plain_createScalar _ _))
  | empty s dt => exact S (prior_of (plain_create _ _ _))
  | init tree => exact prior_of (plain_ofInit tree)
  | ones s dt => exact S (prior_of (plain_ones _ _))
  | zeros s dt => exact S (prior_of (plain_zeros _ _))
  | onesLike t => exact S (prior_of (plain_onesLike _))
  | zerosLike t => exact S (prior_of (plain_zerosLike _))
  | fullInt s n dt => exact S (prior_of (plain_full _ _ _ _))
  | fullReal s n dt => exact S (prior_of (plain_full _ _ _ _))
  | eye n m dt => exact S (prior_of (plain_eye _ _ _))
  | fromBlob data s dt => exact S (prior_of (plain_fromBlob _ _ _))
  | randn rnd s dt => exact S (prior_of (plain_randn _ _ _))
  | randnLike rnd t => exact keeps_bind (keeps_getT _) fun i => S (prior_of (plain_randn _ _ _))
  | slice t s => exact S (prior_slice _ _)
  | transpose t a b => exact S (prior_transpose _ _ _)
  | reshape t s => exact S (prior_reshape _ _)
  | reshapeAs t u => exact S (prior_reshapeAs _ _)
  | detach t => exact S (prior_of (plain_detach _))
  | clone t => exact S (prior_clone _)
  | contiguous t => exact S (prior_clone _)
  | toType t dt => exact S (prior_toType _ _)
  | add l r => exact S (prior_addT _ _)
  | sub l r => exact S (prior_subT _ _)
  | mul l r => exact S (prior_mulT _ _)
  | div l r => exact S (prior_divT _ _)
  | pos t => exact S (keeps_pure _)
  | neg t => exact S (prior_negT _)
  | cmp o l r => exact S (prior_of (plain_cmp _ _ _))
  | sum t => exact S (prior_sumT _)
  | mean t => exact S (prior_meanT _)
  | abs t => exact S (prior_absT _)
  | max t => exact S (prior_extreme _ _)
  | min t => exact S (prior_extreme _ _)
  | cat ts d => exact S (prior_catT _ _)
  | addAssign t r => exact N (prior_of (plain_addAssign _ _))
  | setRequiresGrad t b => exact N ((prior_setRequiresGrad _ _))
  | setRetainGrad t b => exact N ((prior_setRetainGrad _ _))
  | zeroGrad t => exact N (prior_of (plain_zeroGrad _))
  | release t => exact N (prior_of (plain_release _))
  | backward t => exact N ((prior_backward _))
  | grad t => exact keeps_gradOf _
  | all t => exact N (keeps_allT _)
  | toString t => exact N (keeps_toString _)
  | stride t => exact N (keeps_stride _)
  | query t => exact N (keeps_getT _)


theorem levelled_history {h : Heap F} (hh : History h) : Levelled h := by
  induction hh with
  | start => intro x y ⟨i, hi, _⟩; simp [Heap.empty] at hi
  | @returned h h' c t _ hr ih =>
    have := prior_run c h
    rw [hr] at this
    exact this.levelled ih
  | @threw h h' c e _ hr ih =>
    have := prior_run c h
    rw [hr] at this
    exact this.levelled ih

end INNC
