import Verif.Model.Handle
import Verif.Lemmas.Frame
/-
The same computation in two states, one of which holds a copy of the objects of the other under other names, beside unrelated objects:
it has the same outcome and leaves the unrelated objects alone.
-/
namespace INNC
open Spec Tensor
section
variable {F : Type} {α α' β β' : Type}

/-- How objects of the first state are called in the second one, and the second state before the computation. -/
structure Naming (F : Type) where
  t : Nat → Nat
  s : Nat → Nat
  tinj : Function.Injective t
  sinj : Function.Injective s
  base : Heap F

/-- The version counters of the two states; `sync`: an operation has been visited in the current pass of the first state iff it has in the
second one. -/
structure Clocks where
  hv : Nat
  kv : Nat
  sync : Prop
  pos : sync → 0 < hv ∧ 0 < kv

def Clocks.bump (V : Clocks) : Clocks := ⟨V.hv + 1, V.kv + 1, True, fun _ => ⟨Nat.succ_pos _, Nat.succ_pos _⟩⟩

def Naming.kind (W : Naming F) : BackKind → BackKind
  | .knownGrad g => .knownGrad (W.t g)
  | k => k

structure TwinFn (W : Naming F) (V : Clocks) (g g' : GradFn) : Prop where
  kind : g'.kind = W.kind g.kind
  inputs : g'.inputs = g.inputs.map W.t
  nOutway : g'.nOutway = g.nOutway
  accOutway : g'.accOutway = g.accOutway
  hv : g.backVersion ≤ V.hv
  kv : g'.backVersion ≤ V.kv
  sync : V.sync → (g.backVersion < V.hv ↔ g'.backVersion < V.kv)

/-- The tensor under its other name, with the given operation. -/
abbrev Naming.im (W : Naming F) (i : Impl) (f : Option GradFn) : Impl :=
  ⟨i.dtype, i.view, W.s i.data, i.grad.map W.t, i.requiresGrad, i.retainGrad, f⟩

def TwinImpl (W : Naming F) (V : Clocks) (i i' : Impl) : Prop := ∃ f, Option.Rel (TwinFn W V) i.gradFn f ∧ i' = W.im i f

structure Twin (W : Naming F) (V : Clocks) (h k : Heap F) : Prop where
  hv : h.gver = V.hv
  kv : k.gver = V.kv
  later : W.base.gver ≤ k.gver
  newT : ∀ j, W.t (h.ts.length + j) = k.ts.length + j
  newS : ∀ j, W.s (h.st.length + j) = k.st.length + j
  ts : ∀ x, Option.Rel (TwinImpl W V) h.ts[x]? k.ts[W.t x]?
  st : ∀ d, k.st[W.s d]? = h.st[d]?
  restT : ∀ y, (∀ x, W.t x ≠ y) → k.ts[y]? = W.base.ts[y]?
  restS : ∀ y, (∀ x, W.s x ≠ y) → k.st[y]? = W.base.st[y]?

def OutTwin (W : Naming F) (V : Clocks) (Q : α → β → Prop) : Out (Heap F) α → Out (Heap F) β → Prop
  | .ub u, o => u = .fuel ∨ o = .ub u
  | .ok a h, .ok b k => Q a b ∧ Twin W V h k
  | .throw e h, .throw e' k => e = e' ∧ ∃ V, Twin W V h k
  | _, _ => False

def MTwin (W : Naming F) (V V' : Clocks) (Q : α → β → Prop) (x : M F α) (y : M F β) : Prop :=
  ∀ h k, Twin W V h k → OutTwin W V' Q (x h) (y k)

/-- The same object under its two names. -/
def Naming.Id (W : Naming F) (a b : Nat) : Prop := b = W.t a

variable {W : Naming F} {V V' V'' : Clocks}

theorem MTwin.bind {Q : α → β → Prop} {P : α' → β' → Prop} {x : M F α} {y : M F β} {f : α → M F α'} {g : β → M F β'}
    (hx : MTwin W V V' Q x y) (hf : ∀ a b, Q a b → MTwin W V' V'' P (f a) (g b)) : MTwin W V V'' P (x >>= f) (y >>= g) := by
  intro h k hh
  show OutTwin W V'' P (M.bind x f h) (M.bind y g k)
  unfold M.bind
  have := hx h k hh
  revert this
  cases x h <;> cases y k <;> intro this <;>
    first | exact hf _ _ this.1 _ _ this.2 | exact this | exact this.elim | (rcases this with this | this <;> first | exact .inl this | (cases this; exact .inr rfl) | (cases this; done))

theorem MTwin.bindEq {P : α' → β' → Prop} {x y : M F α} {f : α → M F α'} {g : α → M F β'}
    (hx : MTwin W V V' Eq x y) (hf : ∀ a, MTwin W V' V'' P (f a) (g a)) : MTwin W V V'' P (x >>= f) (y >>= g) :=
  hx.bind fun a _ e => e ▸ hf a

theorem MTwin.step {P : α' → β' → Prop} {x y : M F α} {f : α → M F α'} {g : α → M F β'}
    (hx : MTwin W V V Eq x y) (hf : ∀ a, MTwin W V V' P (f a) (g a)) : MTwin W V V' P (x >>= f) (y >>= g) := hx.bindEq hf

theorem MTwin.bindId {P : α' → β' → Prop} {x y : M F Nat} {f : Nat → M F α'} {g : Nat → M F β'}
    (hx : MTwin W V V' W.Id x y) (hf : ∀ a, MTwin W V' V'' P (f a) (g (W.t a))) : MTwin W V V'' P (x >>= f) (y >>= g) :=
  hx.bind fun a b e => by rw [show b = W.t a from e]; exact hf a

theorem MTwin.pure {Q : α → β → Prop} {a : α} {b : β} (h : Q a b) : MTwin W V V Q (pure a) (pure b) := fun _ _ hh => ⟨h, hh⟩

theorem MTwin.undef {Q : α → β → Prop} (u : UB) : MTwin W V V' Q (M.undef u : M F α) (M.undef u : M F β) := fun _ _ _ => .inr rfl

theorem MTwin.fuel {Q : α → β → Prop} (m : M F β) : MTwin W V V' Q (M.undef .fuel : M F α) m := fun _ _ _ => .inl rfl

theorem MTwin.raise {Q : α → β → Prop} (e : Exc) : MTwin W V V' Q (M.raise e : M F α) (M.raise e : M F β) := fun _ _ hh => ⟨rfl, V, hh⟩

theorem MTwin.lift (r : Res α) : MTwin W V V Eq (M.lift r) (M.lift r) := by
  intro h k hh
  cases r <;> first | exact ⟨rfl, hh⟩ | exact ⟨rfl, V, hh⟩ | exact .inr rfl

theorem MTwin.liftRel {Q : α → β → Prop} {r : Res α} {r' : Res β} (h : (∃ a b, r = .ok a ∧ r' = .ok b ∧ Q a b) ∨ ∃ u, r = .ub u ∧ r' = .ub u) :
    MTwin W V V Q (M.lift r) (M.lift r') := by
  intro x k hh
  rcases h with ⟨a, b, rfl, rfl, hq⟩ | ⟨u, rfl, rfl⟩
  · exact ⟨hq, hh⟩
  · exact .inr rfl

theorem MTwin.expect (b : Bool) : MTwin W V V Eq (INNC.expect b) (INNC.expect b) := by
  unfold INNC.expect
  split
  · exact MTwin.pure rfl
  · exact MTwin.raise _

theorem MTwin.ite {Q : α → β → Prop} {c : Prop} [Decidable c] {x x' : M F α} {y y' : M F β}
    (h : c → MTwin W V V' Q x y) (h' : ¬ c → MTwin W V V' Q x' y') : MTwin W V V' Q (if c then x else x') (if c then y else y') := by
  split
  · exact h ‹_›
  · exact h' ‹_›

/-! ### Primitive operations -/

theorem twin_get {P : α → β → Prop} {t : Nat} {f : Impl → M F α} {g : Impl → M F β}
    (H : ∀ i f', Option.Rel (TwinFn W V) i.gradFn f' → MTwin W V V' P (f i) (g (W.im i f'))) :
    MTwin W V V' P (getT t >>= f) (getT (W.t t) >>= g) := by
  intro h k hh
  show OutTwin W V' P (M.bind (getT t) f h) (M.bind (getT (W.t t)) g k)
  unfold M.bind getT
  have := hh.ts t
  revert this
  cases h.ts[t]? with
  | none =>
    cases k.ts[W.t t]? with
    | none => exact fun _ => .inr rfl
    | some i' => intro h; cases h
  | some i =>
    cases k.ts[W.t t]? with
    | none => intro h; cases h
    | some i' =>
      intro h
      cases h with
      | some h =>
        obtain ⟨f', hf, rfl⟩ := h
        exact H i f' hf h k hh

theorem Twin.lt {h k : Heap F} (hh : Twin W V h k) {x : Nat} : x < h.ts.length ↔ W.t x < k.ts.length := by
  have := hh.ts x
  rw [← not_iff_not, Nat.not_lt, Nat.not_lt, ← List.getElem?_eq_none_iff, ← List.getElem?_eq_none_iff]
  revert this
  cases h.ts[x]? <;> cases k.ts[W.t x]? <;> intro this <;> first | cases this; done | simp

theorem Twin.ltS {h k : Heap F} (hh : Twin W V h k) {x : Nat} : x < h.st.length ↔ W.s x < k.st.length := by
  rw [← not_iff_not, Nat.not_lt, Nat.not_lt, ← List.getElem?_eq_none_iff, ← List.getElem?_eq_none_iff, hh.st x]

theorem setT_twin (t : Nat) {i i' : Impl} (hi : TwinImpl W V i i') : MTwin W V V Eq (setT t i) (setT (W.t t) i') := by
  intro h k hh
  refine ⟨rfl, hh.hv, hh.kv, hh.later, by simpa using hh.newT, hh.newS, fun x => ?_, hh.st, fun y hy => ?_, hh.restS⟩
  · simp only [List.getElem?_set, W.tinj.eq_iff, ← hh.lt]
    split
    · split
      · exact .some hi
      · exact .none
    · exact hh.ts x
  · simp only
    rw [List.getElem?_set_ne (hy t)]
    exact hh.restT y hy

theorem newT_twin {i i' : Impl} (hi : TwinImpl W V i i') : MTwin W V V W.Id (newT i) (newT i') := by
  intro h k hh
  have h0 : W.t h.ts.length = k.ts.length := hh.newT 0
  refine ⟨h0.symm, hh.hv, hh.kv, hh.later, fun j => ?_, hh.newS, fun x => ?_, hh.st, fun y hy => ?_, hh.restS⟩
  · have := hh.newT (1 + j)
    simp only [List.length_append, List.length_singleton]
    rw [Nat.add_assoc, Nat.add_assoc]; exact this
  · simp only [List.getElem?_append, ← hh.lt]
    split
    · exact hh.ts x
    · rename_i hx
      obtain ⟨j, rfl⟩ := Nat.exists_eq_add_of_le (Nat.not_lt.1 hx)
      rw [hh.newT j, Nat.add_sub_cancel_left, Nat.add_sub_cancel_left]
      cases j with
      | zero => exact .some hi
      | succ j => exact .none
  · simp only
    have hne : y ≠ k.ts.length := fun e => hy _ (h0.trans e.symm)
    rw [← hh.restT y hy, List.getElem?_append]
    split
    · rfl
    · have h1 : 0 < y - k.ts.length := by omega
      rw [List.getElem?_eq_none (by simp; omega), List.getElem?_eq_none (by omega)]

theorem newS_twin (s : Storage F) : MTwin W V V (fun a b => b = W.s a) (newS s) (newS s) := by
  intro h k hh
  have h0 : W.s h.st.length = k.st.length := hh.newS 0
  refine ⟨h0.symm, hh.hv, hh.kv, hh.later, hh.newT, fun j => ?_, hh.ts, fun x => ?_, hh.restT, fun y hy => ?_⟩
  · have := hh.newS (1 + j)
    simp only [List.length_append, List.length_singleton]
    rw [Nat.add_assoc, Nat.add_assoc]; exact this
  · simp only [List.getElem?_append, ← hh.ltS]
    split
    · exact hh.st x
    · rename_i hx
      obtain ⟨j, rfl⟩ := Nat.exists_eq_add_of_le (Nat.not_lt.1 hx)
      rw [hh.newS j, Nat.add_sub_cancel_left, Nat.add_sub_cancel_left]
  · simp only
    have hne : y ≠ k.st.length := fun e => hy _ (h0.trans e.symm)
    rw [← hh.restS y hy, List.getElem?_append]
    split
    · rfl
    · rw [List.getElem?_eq_none (by simp; omega), List.getElem?_eq_none (by omega)]

theorem getS_twin (d : Nat) : MTwin W V V Eq (getS d) (getS (W.s d)) := by
  intro h k hh
  unfold getS
  rw [hh.st d]
  cases h.st[d]? with
  | none => exact .inr rfl
  | some s => exact ⟨rfl, hh⟩

theorem setS_twin (d : Nat) (s : Storage F) : MTwin W V V Eq (setS d s) (setS (W.s d) s) := by
  intro h k hh
  refine ⟨rfl, hh.hv, hh.kv, hh.later, hh.newT, by simpa using hh.newS, hh.ts, fun x => ?_, hh.restT, fun y hy => ?_⟩
  · simp only [List.getElem?_set, W.sinj.eq_iff, ← hh.ltS]
    split
    · rfl
    · exact hh.st x
  · simp only
    rw [List.getElem?_set_ne (hy d)]
    exact hh.restS y hy

theorem mkStorage_twin (dt : DType) (n : Nat) (b : Bool) : MTwin W V V (fun a b => b = W.s a) (mkStorage dt n b) (mkStorage dt n b) := by
  unfold mkStorage
  exact MTwin.ite (fun _ => MTwin.ite (fun _ => newS_twin _) fun _ => MTwin.raise _) fun _ => newS_twin _

theorem allocS_twin (d : Nat) : MTwin W V V Eq (allocS d) (allocS (W.s d)) := by
  unfold allocS
  exact (getS_twin d).bindEq fun s => MTwin.ite (fun _ => setS_twin _ _) fun _ => MTwin.raise _

theorem isAllocS_twin (d : Nat) : MTwin W V V Eq (isAllocS d) (isAllocS (W.s d)) := by
  unfold isAllocS
  exact (getS_twin d).bindEq fun s => MTwin.pure rfl

theorem releaseS_twin (d : Nat) : MTwin W V V Eq (releaseS d) (releaseS (W.s d)) := by
  unfold releaseS
  exact (getS_twin d).bindEq fun s => setS_twin _ _

theorem zeroS_twin [FOps F] (d : Nat) : MTwin W V V Eq (zeroS d) (zeroS (W.s d)) := by
  unfold zeroS
  refine (getS_twin d).bindEq fun s => ?_
  cases s.blob with
  | none => exact MTwin.pure rfl
  | some c => exact setS_twin _ _

/-- What kernels look at. -/
structure Located (W : Naming F) (i i' : Impl) : Prop where
  dtype : i'.dtype = i.dtype
  view : i'.view = i.view
  data : i'.data = W.s i.data

theorem located (i : Impl) (f : Option GradFn) : Located W i (W.im i f) := ⟨rfl, rfl, rfl⟩

theorem load_twin (ty : DType) {t t' : Impl} (ht : Located W t t') (pos : Nat) : MTwin W V V Eq (load ty t pos) (load ty t' pos) := by
  unfold load
  rw [ht.data]
  refine (getS_twin t.data).bindEq fun s => ?_
  cases s.blob with
  | none => exact MTwin.undef _
  | some c =>
    refine MTwin.ite (fun _ => MTwin.undef _) fun _ => ?_
    rcases c[pos]? with _ | _ | v
    · exact MTwin.undef _
    · exact MTwin.undef _
    · exact MTwin.pure rfl

theorem store_twin (ty : DType) {t t' : Impl} (ht : Located W t t') (pos : Nat) (v : Val F) :
    MTwin W V V Eq (store ty t pos v) (store ty t' pos v) := by
  unfold store
  rw [ht.data]
  refine (getS_twin t.data).bindEq fun s => ?_
  cases s.blob with
  | none => exact MTwin.undef _
  | some c =>
    exact MTwin.ite (fun _ => MTwin.undef _) fun _ => MTwin.ite (fun _ => setS_twin _ _) fun _ => MTwin.undef _

theorem createOn_twin (dt : DType) (v : Layout) (d : Nat) : MTwin W V V W.Id (createOn dt v d) (createOn dt v (W.s d)) :=
  newT_twin ⟨none, .none, rfl⟩

theorem create_twin (dt : DType) (v : Layout) (b : Bool) : MTwin W V V W.Id (create dt v b) (create dt v b) :=
  (mkStorage_twin _ _ _).bind fun a _ e => e ▸ createOn_twin dt v a

theorem odo_twin (range : List Nat) {op op' : List Nat → M F Unit} (hop : ∀ sv, MTwin W V V Eq (op sv) (op' sv)) : ∀ n sv,
    MTwin W V V Eq (odo (M.undef .fuel) range op n sv) (odo (M.undef .fuel) range op' n sv) := by
  intro n
  induction n with
  | zero => exact fun sv => MTwin.undef _
  | succ n ih =>
    intro sv
    unfold odo
    cases carry range (range.length - 1) sv with
    | none => exact MTwin.pure rfl
    | some sv' => exact (hop sv').bindEq fun _ => ih _

theorem forEach_twin (range : List Nat) {op op' : List Nat → M F Unit} (hop : ∀ sv, MTwin W V V Eq (op sv) (op' sv)) :
    MTwin W V V Eq (forEach range op) (forEach range op') := by
  unfold forEach forEachWith
  exact MTwin.ite (fun _ => MTwin.pure rfl) fun _ => MTwin.ite (fun _ => odo_twin range hop _ _) fun _ => hop []

end

/-- One step of a proof that two computations do the same. -/
macro "twin_step" : tactic => `(tactic| first
  | assumption
  | exact MTwin.pure rfl
  | exact MTwin.undef _
  | exact MTwin.raise _
  | exact MTwin.expect _
  | exact MTwin.lift _
  | exact load_twin _ (by assumption) _
  | exact store_twin _ (by assumption) _ _
  | refine forEach_twin _ fun _ => ?_
  | refine MTwin.ite (fun _ => ?_) fun _ => ?_
  | refine MTwin.step ?_ fun _ => ?_)

macro "twin" : tactic => `(tactic| repeat' twin_step)

/-! ### Kernels -/
section
variable {F : Type} [FOps F] {W : Naming F} {V V' V'' : Clocks} {dst dst' l l' r r' s s' : Impl}

theorem zipLoop_twin (D S L R : DType) (range : List Nat) (f : Val F → Val F → Res (Val F)) (hd : Located W dst dst') (hl : Located W l l')
    (hr : Located W r r') : MTwin W V V Eq (zipLoop D S L R range f dst l r) (zipLoop D S L R range f dst' l' r') := by
  unfold zipLoop
  rw [hd.view, hl.view, hr.view]
  twin

def TwinKernel (W : Naming F) (k : Kernel F) : Prop := ∀ (V : Clocks) (L R : DType) (dst dst' l l' r r' : Impl), Located W dst dst' →
  Located W l l' → Located W r r' → MTwin W V V Eq (k L R dst l r) (k L R dst' l' r')

theorem tensorAdd_twin : TwinKernel W tensorAdd := fun V L R _ _ _ _ _ _ hd hl hr => by
  unfold tensorAdd
  rw [hl.view, hr.view]
  exact (MTwin.lift _).bindEq fun _ => zipLoop_twin _ _ _ _ _ _ hd hl hr
theorem tensorSub_twin : TwinKernel W tensorSub := fun V L R _ _ _ _ _ _ hd hl hr => by
  unfold tensorSub
  rw [hl.view, hr.view]
  exact (MTwin.lift _).bindEq fun _ => zipLoop_twin _ _ _ _ _ _ hd hl hr
theorem tensorMul_twin : TwinKernel W tensorMul := fun V L R _ _ _ _ _ _ hd hl hr => by
  unfold tensorMul
  rw [hd.view]
  exact zipLoop_twin _ _ _ _ _ _ hd hl hr
theorem tensorDiv_twin : TwinKernel W tensorDiv := fun V L R _ _ _ _ _ _ hd hl hr => by
  unfold tensorDiv
  rw [hd.view]
  exact zipLoop_twin _ _ _ _ _ _ hd hl hr
theorem tensorCmp_twin (op : COp) : TwinKernel W (tensorCmp op) := fun V L R _ _ _ _ _ _ hd hl hr => by
  unfold tensorCmp
  rw [hd.view]
  exact zipLoop_twin _ _ _ _ _ _ hd hl hr

theorem tensorFill_twin (T N : DType) (hd : Located W dst dst') (hl : Located W l l') :
    MTwin W V V Eq (tensorFill T N dst l) (tensorFill T N dst' l') := by
  unfold tensorFill
  rw [hd.view]
  twin

theorem eyeGo_twin (T : DType) (hd : Located W dst dst') : ∀ xs : List Nat, MTwin W V V Eq (eyeGo T dst xs) (eyeGo T dst' xs)
  | [] => MTwin.pure rfl
  | _ :: xs => by
    have := eyeGo_twin T hd xs
    unfold eyeGo
    rw [hd.view]
    twin

theorem tensorEye_twin (T : DType) (hd : Located W dst dst') : MTwin W V V Eq (tensorEye T dst) (tensorEye T dst') := by
  unfold tensorEye
  rw [hd.view]
  rcases dst.view.sizes with _ | ⟨a, _ | ⟨b, c⟩⟩
  · exact MTwin.raise _
  · exact MTwin.raise _
  · exact eyeGo_twin _ hd _

theorem copyLoop_twin (A B : DType) (hd : Located W dst dst') (hl : Located W l l') :
    MTwin W V V Eq (copyLoop A B dst l) (copyLoop A B dst' l') := by
  unfold copyLoop
  rw [hd.view, hl.view]
  twin

theorem accInto_twin (A B : DType) (hd : Located W dst dst') (hl : Located W l l') (sv : List Nat) :
    MTwin W V V Eq (accInto A B dst l sv) (accInto A B dst' l' sv) := by
  unfold accInto
  rw [hl.view]
  twin

theorem sumBody_twin (A B : DType) (hd : Located W dst dst') (hl : Located W l l') :
    MTwin W V V Eq (sumBody A B dst l) (sumBody A B dst' l') := by
  unfold sumBody
  rw [hl.view]
  refine MTwin.ite (fun _ => odo_twin _ (fun sv => accInto_twin A B hd hl sv) _ _) fun _ => ?_
  twin

theorem tensorSum_twin (A B : DType) (hd : Located W dst dst') (hl : Located W l l') :
    MTwin W V V Eq (tensorSum A B dst l) (tensorSum A B dst' l') := by
  unfold tensorSum
  rw [hl.view]
  exact MTwin.ite (fun _ => MTwin.pure rfl) fun _ => sumBody_twin A B hd hl

theorem tensorMean_twin (A B : DType) (hd : Located W dst dst') (hl : Located W l l') :
    MTwin W V V Eq (tensorMean A B dst l) (tensorMean A B dst' l') := by
  have := sumBody_twin (V := V) A B hd hl
  unfold tensorMean
  rw [hl.view]
  twin

theorem tensorMulAccF_twin (D L R : DType) (hd : Located W dst dst') (hl : Located W l l') (hr : Located W r r') :
    MTwin W V V Eq (tensorMulAccF D L R dst l r) (tensorMulAccF D L R dst' l' r') := by
  unfold tensorMulAccF
  rw [hd.view, hl.view, hr.view]
  twin

theorem tensorAbs_twin (A B : DType) (hd : Located W dst dst') (hl : Located W l l') {g g' : Option Impl} (hg : Option.Rel (Located W) g g') :
    MTwin W V V Eq (tensorAbs A B dst l g) (tensorAbs A B dst' l' g') := by
  unfold tensorAbs
  rw [hd.view, hl.view]
  cases hg with
  | none => twin
  | some hg =>
    simp only [hg.view]
    twin

theorem tensorDivBackNum_twin (D L R : DType) (hd : Located W dst dst') (hl : Located W l l') (hr : Located W r r') :
    MTwin W V V Eq (tensorDivBackNum D L R dst l r) (tensorDivBackNum D L R dst' l' r') := by
  unfold tensorDivBackNum
  rw [hd.view, hl.view, hr.view]
  twin

theorem tensorDivBackDen_twin (D Q : DType) (hd : Located W dst dst') (hl : Located W l l') (hr : Located W r r') (hs : Located W s s') :
    MTwin W V V Eq (tensorDivBackDen D Q dst l r s) (tensorDivBackDen D Q dst' l' r' s') := by
  unfold tensorDivBackDen
  rw [hd.view, hl.view, hr.view, hs.view]
  twin

theorem tensorCat_twin (A B : DType) (hd : Located W dst dst') (hl : Located W l l') (o : Nat) :
    MTwin W V V Eq (tensorCat A B dst l o) (tensorCat A B dst' l' o) := by
  unfold tensorCat
  rw [hd.view, hl.view]
  twin

/-! ### Maximum and minimum -/

theorem odoState_twin (range : List Nat) {op op' : List Nat → StateT (List Nat) (M F) Unit}
    (hop : ∀ sv b, MTwin W V V Eq ((op sv).run b) ((op' sv).run b)) : ∀ n sv b,
    MTwin W V V Eq ((odo (StateT.lift (M.undef .fuel)) range op n sv).run b)
      ((odo (StateT.lift (M.undef .fuel)) range op' n sv).run b) := by
  intro n
  induction n with
  | zero =>
    intro sv b h k _
    exact .inr rfl
  | succ n ih =>
    intro sv b
    unfold odo
    cases carry range (range.length - 1) sv with
    | none => exact MTwin.pure rfl
    | some sv' => exact (hop sv' b).bindEq fun p => ih _ _

omit [FOps F] in
theorem stateBind_twin {α γ : Type} {m m' : M F α} {f f' : α → StateT (List Nat) (M F) γ} (b : List Nat) (hm : MTwin W V V Eq m m')
    (hf : ∀ x, MTwin W V V Eq ((f x).run b) ((f' x).run b)) :
    MTwin W V V Eq ((StateT.lift m >>= f).run b) ((StateT.lift m' >>= f').run b) := by
  refine MTwin.bind (x := m >>= fun a => pure (a, b)) (y := m' >>= fun a => pure (a, b))
    (f := fun p => (f p.1).run p.2) (g := fun p => (f' p.1).run p.2)
    (Q := fun (p p' : α × List Nat) => p = p' ∧ p.2 = b)
    (hm.bind fun x x' h => MTwin.pure ⟨by rw [h], rfl⟩) ?_
  rintro ⟨x, _⟩ _ ⟨rfl, rfl⟩
  exact hf x

theorem tensorExtreme_twin (keep : COp) (T : DType) (hd : Located W dst dst') (hl : Located W l l') {g g' : Option Impl}
    (hg : Option.Rel (Located W) g g') : MTwin W V V Eq (tensorExtreme keep T dst l g) (tensorExtreme keep T dst' l' g') := by
  unfold tensorExtreme
  rw [hl.view]
  refine (load_twin _ hl _).bindEq fun x => (store_twin _ hd _ _).bindEq fun _ => ?_
  refine MTwin.step ?_ fun b => ?_
  · unfold forEachWith
    generalize hop : (fun sv : List Nat => (do
          let t ← (do load T l (← M.lift (cntFromIndex l.view sv)) : M F (Val F))
          let cur ← (load T dst 0 : M F (Val F))
          let k ← (M.lift (cCmp keep T T cur t) : M F Bool)
          if k then pure ()
          else do
            (store T dst 0 t : M F Unit)
            set sv : StateT (List Nat) (M F) Unit)) = op
    generalize hop' : (fun sv : List Nat => (do
          let t ← (do load T l' (← M.lift (cntFromIndex l.view sv)) : M F (Val F))
          let cur ← (load T dst' 0 : M F (Val F))
          let k ← (M.lift (cCmp keep T T cur t) : M F Bool)
          if k then pure ()
          else do
            (store T dst' 0 t : M F Unit)
            set sv : StateT (List Nat) (M F) Unit)) = op'
    have key : ∀ sv b, MTwin W V V Eq ((op sv).run b) ((op' sv).run b) := by
      subst hop hop'
      intro sv b
      refine stateBind_twin b ((MTwin.lift _).bindEq fun p => load_twin _ hl _) fun t => ?_
      refine stateBind_twin b (load_twin _ hd _) fun c => ?_
      refine stateBind_twin b (MTwin.lift _) fun k => ?_
      cases k
      · exact stateBind_twin b (store_twin _ hd _ _) fun _ => MTwin.pure rfl
      · exact MTwin.pure rfl
    split
    · exact MTwin.pure rfl
    · split
      · exact odoState_twin _ key _ _ _
      · exact key _ _
  · cases hg with
    | none => exact MTwin.pure rfl
    | some hg =>
      rename_i g g'
      show MTwin W V V Eq (do
        let one ← M.lift (cConv .i32 T (.i 1 : Val F))
        store T g (← M.lift (cntFromIndex g.view b.2)) one) (do
        let one ← M.lift (cConv .i32 T (.i 1 : Val F))
        store T g' (← M.lift (cntFromIndex g'.view b.2)) one)
      rw [hg.view]
      twin

end
end INNC
