import Verif.Spec.Lifetime
import Verif.Lemmas.Frame
/-
Computations that depend only on some of the objects: if two states agree on a set of objects closed under ownership, computations on
these objects have the same outcome in both and the results agree again.
-/
namespace INNC
open Spec Tensor
variable {F : Type}

/-- What the tensor object owns is in the sets. -/
structure Own (S T : Nat → Prop) (i : Impl) : Prop where
  data : T i.data
  holds : ∀ y, Owns i y → S y

/-- The states agree on the tensors in `S` and the storages in `T`; the sets are closed under ownership and contain all objects that do
not exist yet. -/
structure Sim (S T : Nat → Prop) (h k : Heap F) : Prop where
  tsl : h.ts.length = k.ts.length
  stl : h.st.length = k.st.length
  gver : h.gver = k.gver
  ts : ∀ x, S x → h.ts[x]? = k.ts[x]?
  st : ∀ d, T d → h.st[d]? = k.st[d]?
  newT : ∀ x, h.ts.length ≤ x → S x
  newS : ∀ d, h.st.length ≤ d → T d
  own : ∀ (x : Nat) (i : Impl), S x → h.ts[x]? = some i → Own S T i

/-- Equal outcomes in states that agree. -/
def Both {α : Type} (S T : Nat → Prop) (Q : α → Prop) : Out (Heap F) α → Out (Heap F) α → Prop
  | .ok a h, .ok b k => a = b ∧ Q a ∧ Sim S T h k
  | .throw e h, .throw e' k => e = e' ∧ Sim S T h k
  | .ub u, .ub v => u = v
  | _, _ => False

/-- The computation depends only on objects in the sets. -/
def Loc {α : Type} (S T : Nat → Prop) (x : M F α) (Q : α → Prop) : Prop := ∀ h k, Sim S T h k → Both S T Q (x h) (x k)

section
variable {S T : Nat → Prop} {α β : Type}

theorem loc_bind {x : M F α} {f : α → M F β} {Q : α → Prop} {R : β → Prop} (hx : Loc S T x Q)
    (hf : ∀ a, Q a → Loc S T (f a) R) : Loc S T (x >>= f) R := by
  intro h k hs
  have := hx h k hs
  rw [M.bind_def, M.bind_def]
  cases e : x h <;> cases e' : x k <;> rw [e, e'] at this <;> try exact this.elim
  · obtain ⟨rfl, hq, hs'⟩ := this
    exact hf _ hq _ _ hs'
  · exact this
  · exact this

theorem loc_pure {a : α} {Q : α → Prop} (hq : Q a) : Loc (F := F) S T (pure a) Q := fun _ _ hs => ⟨rfl, hq, hs⟩
theorem loc_true {a : α} : Loc (F := F) S T (pure a) fun _ => True := loc_pure trivial
theorem loc_undef (u : UB) {Q : α → Prop} : Loc (F := F) S T (M.undef u) Q := fun _ _ _ => rfl
theorem loc_raise (e : Exc) {Q : α → Prop} : Loc (F := F) S T (M.raise e) Q := fun _ _ hs => ⟨rfl, hs⟩
theorem loc_lift (r : Res α) : Loc (F := F) S T (M.lift r) fun _ => True := by
  intro h k hs
  cases r with
  | ok a => exact ⟨rfl, trivial, hs⟩
  | throw e => exact ⟨rfl, hs⟩
  | ub u => rfl
theorem loc_lift_ok (r : Res α) : Loc (F := F) S T (M.lift r) fun a => r = .ok a := by
  intro h k hs
  cases r with
  | ok a => exact ⟨rfl, rfl, hs⟩
  | throw e => exact ⟨rfl, hs⟩
  | ub u => rfl
theorem loc_expect (b : Bool) : Loc (F := F) S T (expect b) fun _ => True := by
  cases b
  · exact loc_raise _
  · exact loc_true

theorem loc_mono {x : M F α} {Q R : α → Prop} (hx : Loc S T x Q) (h : ∀ a, Q a → R a) : Loc S T x R := by
  intro a b hs
  have := hx a b hs
  cases e : x a <;> cases e' : x b <;> rw [e, e'] at this <;> try exact this.elim
  · exact ⟨this.1, h _ this.2.1, this.2.2⟩
  · exact this
  · exact this
theorem loc_weak {x : M F α} {Q : α → Prop} (hx : Loc S T x Q) : Loc S T x fun _ => True := loc_mono hx fun _ _ => trivial

theorem loc_getT {t : Nat} (ht : S t) : Loc (F := F) S T (getT t) (Own S T) := by
  intro h k hs
  unfold getT
  rw [← hs.ts t ht]
  cases e : h.ts[t]? with
  | none => rfl
  | some i => exact ⟨rfl, hs.own t i ht e, hs⟩

theorem loc_setT {t : Nat} {i : Impl} (hi : Own S T i) : Loc (F := F) S T (setT t i) fun _ => True := by
  intro h k hs
  refine ⟨rfl, trivial, by simpa using hs.tsl, hs.stl, hs.gver, fun x hx => ?_, hs.st, by simpa using hs.newT, hs.newS, fun x j hx hj => ?_⟩
  · simp only [List.getElem?_set]
    have := hs.tsl
    split
    · rw [this]
    · exact hs.ts x hx
  · simp only [List.getElem?_set] at hj
    split at hj
    · split at hj
      · cases hj; exact hi
      · cases hj
    · exact hs.own x j hx hj

theorem loc_newT {i : Impl} (hi : Own S T i) : Loc (F := F) S T (newT i) S := by
  intro h k hs
  refine ⟨hs.tsl, hs.newT _ (Nat.le_refl _), by simpa using hs.tsl, hs.stl, hs.gver, fun x hx => ?_, hs.st,
    fun x hx => hs.newT x (by simp at hx; omega), hs.newS, fun x j hx hj => ?_⟩
  · simp only [List.getElem?_append]
    rw [hs.tsl, hs.ts x hx]
  · simp only [List.getElem?_append] at hj
    split at hj
    · exact hs.own x j hx hj
    · have : j = i := by
        cases hn : x - h.ts.length with
        | zero => rw [hn] at hj; simpa using hj.symm
        | succ n => rw [hn] at hj; simp at hj
      exact this ▸ hi

theorem loc_newS (s : Storage F) : Loc (F := F) S T (newS s) T := by
  intro h k hs
  refine ⟨hs.stl, hs.newS _ (Nat.le_refl _), hs.tsl, by simpa using hs.stl, hs.gver, hs.ts, fun d hd => ?_, hs.newT,
    fun x hx => hs.newS x (by simp at hx; omega), hs.own⟩
  simp only [List.getElem?_append]
  rw [hs.stl, hs.st d hd]

theorem loc_getS {d : Nat} (hd : T d) : Loc (F := F) S T (getS d) fun _ => True := by
  intro h k hs
  unfold getS
  rw [← hs.st d hd]
  cases e : h.st[d]? with
  | none => rfl
  | some i => exact ⟨rfl, trivial, hs⟩

theorem loc_setS (d : Nat) (s : Storage F) : Loc (F := F) S T (setS d s) fun _ => True := by
  intro h k hs
  refine ⟨rfl, trivial, hs.tsl, by simpa using hs.stl, hs.gver, hs.ts, fun x hx => ?_, hs.newT, by simpa using hs.newS, hs.own⟩
  simp only [List.getElem?_set]
  have := hs.stl
  split
  · rw [this]
  · exact hs.st x hx

theorem loc_load {t : Impl} (hd : T t.data) (ty : DType) (p : Nat) : Loc (F := F) S T (load ty t p) fun _ => True := by
  unfold load
  refine loc_bind (loc_getS hd) fun s _ => ?_
  split
  · exact loc_undef _
  · split
    · exact loc_undef _
    · split
      · exact loc_undef _
      · exact loc_undef _
      · exact loc_true

theorem loc_store {t : Impl} (hd : T t.data) (ty : DType) (p : Nat) (v : Val F) :
    Loc (F := F) S T (store ty t p v) fun _ => True := by
  unfold store
  refine loc_bind (loc_getS hd) fun s _ => ?_
  split
  · exact loc_undef _
  · split
    · exact loc_undef _
    · split
      · exact loc_setS _ _
      · exact loc_undef _

theorem loc_zeroS [FOps F] {d : Nat} (hd : T d) : Loc (F := F) S T (zeroS d) fun _ => True := by
  unfold zeroS
  refine loc_bind (loc_getS hd) fun s _ => ?_
  split
  · exact loc_true
  · exact loc_setS _ _
theorem loc_allocS {d : Nat} (hd : T d) : Loc (F := F) S T (allocS d) fun _ => True := by
  unfold allocS
  refine loc_bind (loc_getS hd) fun s _ => ?_
  split
  · exact loc_setS _ _
  · exact loc_raise _
theorem loc_isAllocS {d : Nat} (hd : T d) : Loc (F := F) S T (isAllocS d) fun _ => True := by
  unfold isAllocS
  exact loc_bind (loc_getS hd) fun s _ => loc_true
theorem loc_releaseS {d : Nat} (hd : T d) : Loc (F := F) S T (releaseS d) fun _ => True := by
  unfold releaseS
  exact loc_bind (loc_getS hd) fun s _ => loc_setS _ _

theorem loc_createOn (dt : DType) (v : Layout) {d : Nat} (hd : T d) : Loc (F := F) S T (createOn dt v d) S :=
  loc_newT ⟨hd, fun y hy => by rcases hy with h | ⟨f, h, _⟩ <;> cases h⟩
theorem loc_create (dt : DType) (v : Layout) (b : Bool) : Loc (F := F) S T (create dt v b) S := by
  unfold create mkStorage
  refine loc_bind (Q := T) ?_ fun d hd => loc_createOn _ _ hd
  split
  · split
    · exact loc_newS _
    · exact loc_raise _
  · exact loc_newS _

theorem loc_runAll {op : List Nat → M F Unit} (hop : ∀ sv, Loc S T (op sv) fun _ => True) :
    ∀ l, Loc S T (runAll op l) fun _ => True
  | [] => loc_true
  | _ :: l => loc_bind (hop _) fun _ _ => loc_runAll hop l
theorem loc_forEach {range : List Nat} {op : List Nat → M F Unit} (hop : ∀ sv, Loc S T (op sv) fun _ => True) :
    Loc S T (forEach range op) fun _ => True := by
  rw [forEach_eq]; exact loc_runAll hop _
theorem loc_odo {range : List Nat} {op : List Nat → M F Unit} (hop : ∀ sv, Loc S T (op sv) fun _ => True) :
    ∀ n sv, Loc S T (odo (M.undef .fuel) range op n sv) fun _ => True
  | 0, _ => loc_undef _
  | n + 1, sv => by
    unfold odo
    split
    · exact loc_true
    · exact loc_bind (hop _) fun _ _ => loc_odo hop n _

theorem loc_ite {c : Prop} [Decidable c] {x y : M F α} {Q : α → Prop} (hx : c → Loc S T x Q) (hy : ¬ c → Loc S T y Q) :
    Loc S T (if c then x else y) Q := by
  split
  · exact hx ‹_›
  · exact hy ‹_›
end

/-! ### Kernels -/
section
variable [FOps F] {S T : Nat → Prop}

/-- Solve the `Loc` goal of a kernel body. -/
macro "loc" : tactic => `(tactic| repeat' first
  | exact loc_true
  | exact loc_undef _
  | exact loc_raise _
  | exact loc_lift _
  | exact loc_expect _
  | (apply loc_getT; assumption)
  | (apply loc_load; assumption)
  | (apply loc_store; assumption)
  | (apply loc_zeroS; assumption)
  | (refine loc_forEach fun _ => ?_)
  | (refine loc_bind (Q := fun _ => True) ?_ fun _ _ => ?_)
  | split)

theorem loc_zipLoop {dst l r : Impl} (hd : T dst.data) (hl : T l.data) (hr : T r.data) (D' A L R : DType) (range : List Nat)
    (f : Val F → Val F → Res (Val F)) : Loc S T (zipLoop D' A L R range f dst l r) fun _ => True := by
  unfold zipLoop; loc

/-- Binary kernels that depend only on their arguments. -/
def LocKernel (S T : Nat → Prop) (k : Kernel F) : Prop :=
  ∀ (L R : DType) (dst l r : Impl), T dst.data → T l.data → T r.data → Loc S T (k L R dst l r) fun _ => True

theorem loc_tensorAdd : LocKernel (F := F) S T tensorAdd := fun _ _ _ _ _ hd hl hr =>
  loc_bind (loc_lift _) fun _ _ => loc_zipLoop hd hl hr _ _ _ _ _ _
theorem loc_tensorSub : LocKernel (F := F) S T tensorSub := fun _ _ _ _ _ hd hl hr =>
  loc_bind (loc_lift _) fun _ _ => loc_zipLoop hd hl hr _ _ _ _ _ _
theorem loc_tensorMul : LocKernel (F := F) S T tensorMul := fun _ _ _ _ _ hd hl hr => loc_zipLoop hd hl hr _ _ _ _ _ _
theorem loc_tensorDiv : LocKernel (F := F) S T tensorDiv := fun _ _ _ _ _ hd hl hr => loc_zipLoop hd hl hr _ _ _ _ _ _
theorem loc_tensorCmp (op : COp) : LocKernel (F := F) S T (tensorCmp op) := fun _ _ _ _ _ hd hl hr =>
  loc_zipLoop hd hl hr _ _ _ _ _ _

theorem loc_tensorFill {dst n : Impl} (hd : T dst.data) (hn : T n.data) (D N : DType) :
    Loc (F := F) S T (tensorFill D N dst n) fun _ => True := by
  unfold tensorFill; loc
theorem loc_eyeGo {dst : Impl} (hd : T dst.data) (D : DType) : ∀ l, Loc (F := F) S T (eyeGo D dst l) fun _ => True
  | [] => loc_true
  | i :: is => by
    unfold eyeGo
    have := loc_eyeGo hd D is
    refine loc_bind (loc_lift _) fun _ _ => ?_
    refine loc_bind (loc_lift _) fun _ _ => ?_
    exact loc_bind (loc_store hd _ _ _) fun _ _ => this
theorem loc_tensorEye {dst : Impl} (hd : T dst.data) (D : DType) : Loc (F := F) S T (tensorEye D dst) fun _ => True := by
  unfold tensorEye
  split
  · exact loc_eyeGo hd _ _
  · exact loc_raise _
theorem loc_copyLoop {dst l : Impl} (hd : T dst.data) (hl : T l.data) (D A : DType) :
    Loc (F := F) S T (copyLoop D A dst l) fun _ => True := by
  unfold copyLoop; loc
theorem loc_accInto {dst l : Impl} (hd : T dst.data) (hl : T l.data) (D A : DType) (sv : List Nat) :
    Loc (F := F) S T (accInto D A dst l sv) fun _ => True := by
  unfold accInto; loc
theorem loc_sumBody {dst l : Impl} (hd : T dst.data) (hl : T l.data) (D A : DType) :
    Loc (F := F) S T (sumBody D A dst l) fun _ => True := by
  unfold sumBody
  split
  · exact loc_odo (fun sv => loc_accInto hd hl D A sv) _ _
  · loc
theorem loc_tensorSum {dst l : Impl} (hd : T dst.data) (hl : T l.data) (D A : DType) :
    Loc (F := F) S T (tensorSum D A dst l) fun _ => True := by
  unfold tensorSum
  split
  · exact loc_true
  · exact loc_sumBody hd hl _ _
theorem loc_tensorMean {dst l : Impl} (hd : T dst.data) (hl : T l.data) (D A : DType) :
    Loc (F := F) S T (tensorMean D A dst l) fun _ => True := by
  unfold tensorMean
  split
  · exact loc_true
  · refine loc_bind (loc_lift _) fun _ _ => loc_bind (loc_sumBody hd hl _ _) fun _ _ => ?_
    loc
theorem loc_tensorMulAccF {dst l r : Impl} (hd : T dst.data) (hl : T l.data) (hr : T r.data) (D L R : DType) :
    Loc (F := F) S T (tensorMulAccF D L R dst l r) fun _ => True := by
  unfold tensorMulAccF; loc
theorem loc_tensorAbs {dst l : Impl} (hd : T dst.data) (hl : T l.data) (D A : DType) (g : Option Impl)
    (hg : ∀ i, g = some i → T i.data) : Loc (F := F) S T (tensorAbs D A dst l g) fun _ => True := by
  unfold tensorAbs
  cases g with
  | none => loc
  | some i => have := hg i rfl; loc
theorem loc_tensorCat {dst l : Impl} (hd : T dst.data) (hl : T l.data) (D A : DType) (o : Nat) :
    Loc (F := F) S T (tensorCat D A dst l o) fun _ => True := by
  unfold tensorCat; loc
theorem loc_tensorDivBackNum {dst l r : Impl} (hd : T dst.data) (hl : T l.data) (hr : T r.data) (D L R : DType) :
    Loc (F := F) S T (tensorDivBackNum D L R dst l r) fun _ => True := by
  unfold tensorDivBackNum; loc
theorem loc_tensorDivBackDen {dst l r s : Impl} (hd : T dst.data) (hl : T l.data) (hr : T r.data) (hs : T s.data) (D L : DType) :
    Loc (F := F) S T (tensorDivBackDen D L dst l r s) fun _ => True := by
  unfold tensorDivBackDen; loc

theorem loc_runAllS {σ : Type} {op : List Nat → StateT σ (M F) Unit}
    (hop : ∀ sv s, Loc S T ((op sv).run s) fun _ => True) :
    ∀ (l : List (List Nat)) (s : σ), Loc S T ((runAll op l).run s) fun _ => True
  | [], s => loc_true
  | x :: l, s => by
    show Loc S T ((op x >>= fun _ => runAll op l).run s) _
    rw [StateT.run_bind]
    exact loc_bind (hop x s) fun a _ => loc_runAllS hop l a.2

theorem loc_tensorExtreme {dst l : Impl} (hd : T dst.data) (hl : T l.data) (k : COp) (D : DType) (g : Option Impl)
    (hg : ∀ i, g = some i → T i.data) : Loc (F := F) S T (tensorExtreme k D dst l g) fun _ => True := by
  unfold tensorExtreme
  refine loc_bind (loc_load hl _ _) fun _ _ => loc_bind (loc_store hd _ _ _) fun _ _ => ?_
  refine loc_bind (Q := fun _ => True) ?_ fun a _ => ?_
  · rw [forEachWith_eq]
    refine loc_runAllS (fun sv s => ?_) _ _
    simp only [StateT.run_bind, StateT.run_monadLift, bind_assoc]
    refine loc_bind (Q := fun _ => True) (loc_bind (loc_lift _) fun _ _ => loc_load hl _ _) fun t _ => ?_
    try simp only [pure_bind]
    refine loc_bind (loc_load hd _ _) fun cur _ => ?_
    try simp only [pure_bind]
    refine loc_bind (loc_lift _) fun k _ => ?_
    try simp only [pure_bind]
    cases k
    · simp only [Bool.false_eq_true, if_false, StateT.run_bind, StateT.run_monadLift, bind_assoc]
      exact loc_bind (loc_store hd _ _ _) fun _ _ => loc_true
    · exact loc_true
  · cases g with
    | none => exact loc_true
    | some i =>
      have := hg i rfl
      loc

/-! ### Public functions except `backward` -/

theorem Own.flags {i : Impl} (h : Own S T i) (b c : Bool) : Own S T { i with requiresGrad := b, retainGrad := c } :=
  ⟨h.data, h.holds⟩
theorem Own.setGrad {i : Impl} (h : Own S T i) {g : Nat} (hg : S g) : Own S T { i with grad := some g } := by
  refine ⟨h.data, fun y hy => ?_⟩
  rcases hy with e | hf
  · cases e; exact hg
  · exact h.holds y (.inr hf)
theorem Own.noGrad {i : Impl} (h : Own S T i) : Own S T { i with grad := none } := by
  refine ⟨h.data, fun y hy => ?_⟩
  rcases hy with e | hf
  · cases e
  · exact h.holds y (.inr hf)
theorem Own.setFn {i : Impl} (h : Own S T i) {f : GradFn} (hf : ∀ y, (y ∈ f.inputs ∨ f.kind = .knownGrad y) → S y) (b : Bool) :
    Own S T { i with requiresGrad := b, gradFn := some f } := by
  refine ⟨h.data, fun y hy => ?_⟩
  rcases hy with e | ⟨f', e, hf'⟩
  · exact h.holds y (.inl e)
  · cases e; exact hf y hf'
theorem Own.grad {i : Impl} (h : Own S T i) {g : Nat} (hg : i.grad = some g) : S g := h.holds g (.inl hg)
theorem Own.input {i : Impl} (h : Own S T i) {f : GradFn} (hf : i.gradFn = some f) {y : Nat} (hy : y ∈ f.inputs) : S y :=
  h.holds y (.inr ⟨f, hf, .inl hy⟩)
theorem Own.known {i : Impl} (h : Own S T i) {f : GradFn} (hf : i.gradFn = some f) {y : Nat} (hy : f.kind = .knownGrad y) : S y :=
  h.holds y (.inr ⟨f, hf, .inr hy⟩)

theorem some_S {x : Nat} (hx : S x) : ∀ y, some x = some y → S y := by intro y h; cases h; exact hx
theorem none_S : ∀ y, (none : Option Nat) = some y → S y := by intro y h; cases h
theorem loc_createScalar (dt : DType) (v : Val F) : Loc (F := F) S T (createScalar dt v) S := by
  unfold createScalar
  refine loc_bind (loc_create _ _ _) fun t ht => loc_bind (loc_getT ht) fun i hi => ?_
  exact loc_bind (loc_store hi.data _ _ _) fun _ _ => loc_pure ht
theorem loc_ones (s : List Nat) (dt : DType) : Loc (F := F) S T (ones s dt) S := by
  unfold ones
  refine loc_bind (loc_createScalar _ _) fun one ho => loc_bind (loc_create _ _ _) fun t ht => ?_
  refine loc_bind (loc_getT ht) fun i hi => loc_bind (loc_getT ho) fun j hj => ?_
  exact loc_bind (loc_tensorFill hi.data hj.data _ _) fun _ _ => loc_pure ht
theorem loc_zeros (s : List Nat) (dt : DType) : Loc (F := F) S T (zeros s dt) S := by
  unfold zeros
  refine loc_bind (loc_create _ _ _) fun t ht => loc_bind (loc_getT ht) fun i hi => ?_
  exact loc_bind (loc_zeroS hi.data) fun _ _ => loc_pure ht
theorem loc_zerosLike {t : Nat} (ht : S t) : Loc (F := F) S T (zerosLike t) S :=
  loc_bind (loc_getT ht) fun _ _ => loc_zeros _ _
theorem loc_onesLike {t : Nat} (ht : S t) : Loc (F := F) S T (onesLike t) S :=
  loc_bind (loc_getT ht) fun _ _ => loc_ones _ _
theorem loc_full (s : List Nat) (n : DType) (v : Val F) (dt : DType) : Loc (F := F) S T (full s n v dt) S := by
  unfold full
  refine loc_bind (loc_createScalar _ _) fun one ho => loc_bind (loc_create _ _ _) fun t ht => ?_
  refine loc_bind (loc_getT ht) fun i hi => loc_bind (loc_getT ho) fun j hj => ?_
  exact loc_bind (loc_tensorFill hi.data hj.data _ _) fun _ _ => loc_pure ht
theorem loc_eye (n m : Nat) (dt : DType) : Loc (F := F) S T (eye n m dt) S := by
  unfold eye
  refine loc_bind (loc_create _ _ _) fun t ht => loc_bind (loc_getT ht) fun i hi => ?_
  exact loc_bind (loc_zeroS hi.data) fun _ _ => loc_bind (loc_tensorEye hi.data _) fun _ _ => loc_pure ht
theorem loc_blobGo {i : Impl} (hi : T i.data) (dt : DType) : ∀ (k : Nat) (vs : List (Val F)),
    Loc (F := F) S T (blobGo dt i k vs) fun _ => True
  | _, [] => loc_true
  | k, v :: vs => by
    unfold blobGo
    exact loc_bind (loc_store hi _ _ _) fun _ _ => loc_blobGo hi dt _ vs
theorem loc_fromBlob (data : List (Val F)) (s : List Nat) (dt : DType) : Loc (F := F) S T (fromBlob data s dt) S := by
  unfold fromBlob
  refine loc_bind (loc_create _ _ _) fun t ht => loc_bind (loc_getT ht) fun i hi => ?_
  dsimp only
  split
  · exact loc_bind (loc_undef (Q := fun _ => True) _) fun _ _ => loc_pure ht
  · exact loc_bind (loc_blobGo hi.data _ _ _) fun _ _ => loc_pure ht
theorem loc_randGo {i : Impl} (hi : T i.data) (w size : Nat) : ∀ (k : Nat) (vs : List F),
    Loc (F := F) S T (randGo i w size k vs) fun _ => True
  | _, [] => loc_true
  | k, v :: vs => by
    unfold randGo
    split
    · exact loc_undef _
    · split
      · exact loc_randGo hi w size _ vs
      · exact loc_bind (loc_store hi _ _ _) fun _ _ => loc_randGo hi w size _ vs
theorem loc_randn (rnd : Nat → F) (s : List Nat) (dt : DType) : Loc (F := F) S T (randn rnd s dt) S := by
  unfold randn
  refine loc_bind (loc_expect _) fun _ _ => loc_bind (loc_create _ _ _) fun t ht => loc_bind (loc_getT ht) fun i hi => ?_
  refine loc_bind (loc_getS hi.data) fun s _ => ?_
  exact loc_bind (loc_randGo hi.data _ _ _ _) fun _ _ => loc_pure ht

theorem loc_setGradFn {t : Nat} (ht : S t) {k : BackKind} {ins : List Nat} (hi : ∀ y ∈ ins, S y)
    (hk : ∀ y, k = .knownGrad y → S y) : Loc (F := F) S T (setGradFn t k ins) fun _ => True := by
  unfold setGradFn
  refine loc_bind (loc_getT ht) fun i ho => loc_setT (ho.setFn (fun y hy => ?_) _)
  rcases hy with h | h
  · exact hi y h
  · exact hk y h
theorem loc_shareGradStorage {dst frm : Nat} (ht : S dst) (hf : S frm) :
    Loc (F := F) S T (shareGradStorage dst frm) fun _ => True := by
  unfold shareGradStorage
  refine loc_bind (loc_getT hf) fun f hfo => ?_
  lift_lets
  intro jp
  have hjp : ∀ g, S g → Loc S T (jp g) fun _ => True := by
    intro g hg
    refine loc_bind (loc_getT hg) fun gi hgi => loc_bind (loc_getT ht) fun t hto => ?_
    refine loc_bind (loc_createOn _ _ hgi.data) fun g' hg' => loc_bind (loc_getT ht) fun t' ht' => ?_
    exact loc_setT (ht'.setGrad hg')
  split
  · exact hjp _ (hfo.grad ‹_›)
  · refine loc_bind (loc_create _ _ _) fun g hg => loc_bind (loc_getT hf) fun f' hf' => ?_
    exact loc_bind (loc_setT (hf'.setGrad hg)) fun _ _ => hjp _ hg
theorem loc_makeView (dt : DType) (v : Layout) {d base : Nat} (hd : T d) (hb : S base) :
    Loc (F := F) S T (makeView dt v d base) S := by
  unfold makeView
  refine loc_bind (loc_createOn _ _ hd) fun t ht => loc_bind (loc_getT hb) fun b hbo => ?_
  split
  · exact loc_pure ht
  · refine loc_bind (loc_setGradFn ht (by simpa using hb) (by simp)) fun _ _ => ?_
    exact loc_bind (loc_shareGradStorage ht hb) fun _ _ => loc_pure ht
theorem loc_slice {t : Nat} (ht : S t) (s : Str) : Loc (F := F) S T (slice t s) S :=
  loc_bind (loc_getT ht) fun _ hi => loc_bind (loc_lift _) fun _ _ => loc_makeView _ _ hi.data ht
theorem loc_transpose {t : Nat} (ht : S t) (a b : Nat) : Loc (F := F) S T (transpose t a b) S :=
  loc_bind (loc_getT ht) fun _ hi => loc_bind (loc_lift _) fun _ _ => loc_makeView _ _ hi.data ht
theorem loc_clone {t : Nat} (ht : S t) : Loc (F := F) S T (clone t) S := by
  unfold clone
  refine loc_bind (loc_getT ht) fun i hi => loc_bind (loc_create _ _ _) fun r hr => loc_bind (loc_getT hr) fun j hj => ?_
  refine loc_bind (loc_copyLoop hj.data hi.data _ _) fun _ _ => ?_
  split
  · exact loc_pure hr
  · exact loc_bind (loc_setGradFn hr (by simpa using ht) (by simp)) fun _ _ => loc_pure hr
theorem loc_reshapeSizes {t : Nat} (ht : S t) (sizes : List Nat) : Loc (F := F) S T (reshapeSizes t sizes) S := by
  unfold reshapeSizes
  refine loc_bind (loc_getT ht) fun i hi => loc_bind (loc_expect _) fun _ _ => ?_
  lift_lets
  intro st jp
  have hjp : ∀ e : Option Nat, (∀ x, e = some x → S x) → Loc S T (jp e) S := by
    intro early he
    cases early with
    | some r => exact loc_pure (he r rfl)
    | none =>
      dsimp only [jp]
      split
      · exact loc_undef _
      · refine loc_bind (loc_lift _) fun iso _ => ?_
        split
        · split
          · exact loc_bind (loc_lift _) fun _ _ => loc_makeView _ _ hi.data ht
          · exact loc_makeView _ _ hi.data ht
        · refine loc_bind (loc_clone ht) fun m hm => loc_bind (loc_getT hm) fun mi hmi => ?_
          exact loc_makeView _ _ hmi.data hm
  split
  · refine loc_bind (loc_makeView _ _ hi.data ht) fun r hr => hjp _ ?_
    intro x hx
    split at hx
    · cases hx
    · cases hx; exact hr
  · exact hjp _ none_S
theorem loc_reshape {t : Nat} (ht : S t) (sizes : List Int) : Loc (F := F) S T (reshape t sizes) S :=
  loc_bind (loc_getT ht) fun _ _ => loc_bind (loc_lift _) fun _ _ => loc_reshapeSizes ht _
theorem loc_reshapeAs {t u : Nat} (ht : S t) (hu : S u) : Loc (F := F) S T (reshapeAs t u) S :=
  loc_bind (loc_getT hu) fun _ _ => loc_reshapeSizes ht _
theorem loc_detach {t : Nat} (ht : S t) : Loc (F := F) S T (detach t) S :=
  loc_bind (loc_getT ht) fun _ hi => loc_createOn _ _ hi.data
theorem loc_toType {t : Nat} (ht : S t) (dt : DType) : Loc (F := F) S T (toType t dt) S := by
  unfold toType
  refine loc_bind (loc_getT ht) fun i hi => ?_
  split
  · exact loc_raise _
  · split
    · exact loc_pure ht
    · refine loc_bind (loc_create _ _ _) fun r hr => loc_bind (loc_getT hr) fun j hj => ?_
      refine loc_bind (loc_copyLoop hj.data hi.data _ _) fun _ _ => ?_
      split
      · exact loc_pure hr
      · exact loc_bind (loc_setGradFn hr (by simpa using ht) (by simp)) fun _ _ => loc_pure hr

theorem loc_applyNoGradBinary {k : Kernel F} (hk : LocKernel S T k) {l r : Nat} (hl : S l) (hr : S r) (b : Bool) :
    Loc S T (applyNoGradBinary k l r b) S := by
  unfold applyNoGradBinary
  refine loc_bind (loc_getT hl) fun i hi => loc_bind (loc_getT hr) fun j hj => ?_
  refine loc_bind (loc_lift _) fun _ _ => loc_bind (loc_create _ _ _) fun ret hret => loc_bind (loc_getT hret) fun d hd => ?_
  dsimp only
  split
  · split
    · exact loc_bind (hk _ _ _ _ _ hd.data hi.data hj.data) fun _ _ => loc_pure hret
    · exact loc_bind (hk _ _ _ _ _ hd.data hj.data hi.data) fun _ _ => loc_pure hret
  · exact loc_bind (hk _ _ _ _ _ hd.data hi.data hj.data) fun _ _ => loc_pure hret
theorem loc_applyBinary {k : Kernel F} (hk : LocKernel S T k) {back : BackKind} (hb : ∀ y, back ≠ .knownGrad y) {l r : Nat}
    (hl : S l) (hr : S r) (b : Bool) : Loc S T (applyBinary k back l r b) S := by
  unfold applyBinary
  refine loc_bind (loc_applyNoGradBinary hk hl hr b) fun ret hret => ?_
  refine loc_bind (loc_getT hl) fun i hi => loc_bind (loc_getT hr) fun j hj => ?_
  split
  · exact loc_pure hret
  · refine loc_bind (loc_setGradFn hret ?_ fun y hy => absurd hy (hb y)) fun _ _ => loc_pure hret
    intro y hy
    simp only [List.mem_cons, List.not_mem_nil, or_false] at hy
    rcases hy with rfl | rfl <;> assumption
theorem loc_addT {l r : Nat} (hl : S l) (hr : S r) : Loc (F := F) S T (addT l r) S :=
  loc_applyBinary loc_tensorAdd (by simp) hl hr _
theorem loc_subT {l r : Nat} (hl : S l) (hr : S r) : Loc (F := F) S T (subT l r) S :=
  loc_applyBinary loc_tensorSub (by simp) hl hr _
theorem loc_mulT {l r : Nat} (hl : S l) (hr : S r) : Loc (F := F) S T (mulT l r) S :=
  loc_applyBinary loc_tensorMul (by simp) hl hr _
theorem loc_divT {l r : Nat} (hl : S l) (hr : S r) : Loc (F := F) S T (divT l r) S :=
  loc_applyBinary loc_tensorDiv (by simp) hl hr _
theorem loc_negT {t : Nat} (ht : S t) : Loc (F := F) S T (negT t) S :=
  loc_bind (loc_createScalar _ _) fun _ hz => loc_subT hz ht
theorem loc_cmp (op : COp) {l r : Nat} (hl : S l) (hr : S r) : Loc (F := F) S T (Tensor.cmp op l r) S := by
  unfold Tensor.cmp
  refine loc_bind (loc_getT hl) fun i hi => loc_bind (loc_getT hr) fun j hj => ?_
  refine loc_bind (loc_lift _) fun _ _ => loc_bind (loc_create _ _ _) fun ret hret => loc_bind (loc_getT hret) fun d hd => ?_
  exact loc_bind (loc_tensorCmp op _ _ _ _ _ hd.data hi.data hj.data) fun _ _ => loc_pure hret
theorem loc_addAssign {t r : Nat} (ht : S t) (hr : S r) : Loc (F := F) S T (addAssign t r) fun _ => True := by
  unfold addAssign
  refine loc_bind (loc_getT ht) fun i hi => loc_bind (loc_expect _) fun _ _ => loc_bind (loc_getT hr) fun j hj => ?_
  exact loc_tensorAdd _ _ _ _ _ hi.data hi.data hj.data

theorem loc_sumT {t : Nat} (ht : S t) : Loc (F := F) S T (sumT t) S := by
  unfold sumT
  refine loc_bind (loc_getT ht) fun i hi => loc_bind (loc_zeros _ _) fun r hr => loc_bind (loc_getT hr) fun j hj => ?_
  refine loc_bind (loc_tensorSum hj.data hi.data _ _) fun _ _ => ?_
  split
  · exact loc_bind (loc_setGradFn hr (by simpa using ht) (by simp)) fun _ _ => loc_pure hr
  · exact loc_pure hr
theorem loc_meanT {t : Nat} (ht : S t) : Loc (F := F) S T (meanT t) S := by
  unfold meanT
  refine loc_bind (loc_getT ht) fun i hi => loc_bind (loc_zeros _ _) fun r hr => loc_bind (loc_getT hr) fun j hj => ?_
  refine loc_bind (loc_tensorMean hj.data hi.data _ _) fun _ _ => ?_
  split
  · exact loc_bind (loc_setGradFn hr (by simpa using ht) (by simp)) fun _ _ => loc_pure hr
  · exact loc_pure hr
theorem loc_absT {t : Nat} (ht : S t) : Loc (F := F) S T (absT t) S := by
  unfold absT
  refine loc_bind (loc_getT ht) fun i hi => loc_bind (loc_create _ _ _) fun r hr => ?_
  split
  · refine loc_bind (loc_getT hr) fun j hj => ?_
    exact loc_bind (loc_tensorAbs hj.data hi.data _ _ _ (by simp)) fun _ _ => loc_pure hr
  · refine loc_bind (loc_create _ _ _) fun g hg => loc_bind (loc_getT hr) fun j hj => loc_bind (loc_getT hg) fun gi hgi => ?_
    refine loc_bind (loc_tensorAbs hj.data hi.data _ _ _ (by simpa using hgi.data)) fun _ _ => ?_
    exact loc_bind (loc_setGradFn hr (by simpa using ht) (by intro y hy; cases hy; exact hg)) fun _ _ => loc_pure hr
theorem loc_extreme (k : COp) {t : Nat} (ht : S t) : Loc (F := F) S T (extreme k t) S := by
  unfold extreme
  refine loc_bind (loc_getT ht) fun i hi => loc_bind (loc_zeros _ _) fun r hr => ?_
  split
  · refine loc_bind (loc_getT hr) fun j hj => ?_
    exact loc_bind (loc_tensorExtreme hj.data hi.data _ _ _ (by simp)) fun _ _ => loc_pure hr
  · refine loc_bind (loc_zerosLike ht) fun g hg => loc_bind (loc_getT hr) fun j hj => loc_bind (loc_getT hg) fun gi hgi => ?_
    refine loc_bind (loc_tensorExtreme hj.data hi.data _ _ _ (by simpa using hgi.data)) fun _ _ => ?_
    exact loc_bind (loc_setGradFn hr (by simpa using ht) (by intro y hy; cases hy; exact hg)) fun _ _ => loc_pure hr

theorem loc_loadBoolByte {i : Impl} (hi : T i.data) (p : Nat) : Loc (F := F) S T (loadBoolByte i p) fun _ => True := by
  unfold loadBoolByte
  refine loc_bind (loc_getS hi) fun s _ => ?_
  loc
theorem loc_allGo {i : Impl} (hi : T i.data) : ∀ n sv, Loc (F := F) S T (allGo i n sv) fun _ => True
  | 0, _ => loc_undef _
  | n + 1, sv => by
    unfold allGo
    split
    · exact loc_true
    · refine loc_bind (loc_lift _) fun _ _ => loc_bind (loc_loadBoolByte hi _) fun _ _ => ?_
      split
      · exact loc_true
      · exact loc_allGo hi n _
theorem loc_allT {t : Nat} (ht : S t) : Loc (F := F) S T (allT t) fun _ => True := by
  unfold allT
  refine loc_bind (loc_getT ht) fun i hi => ?_
  split
  · exact loc_true
  · split
    · exact loc_allGo hi.data _ _
    · exact loc_bind (loc_lift _) fun _ _ => loc_loadBoolByte hi.data _

theorem loc_catCheck (dim : Nat) (first : Impl) : ∀ is, Loc (F := F) S T (catCheck dim first is) fun _ => True
  | [] => loc_true
  | i :: is => by
    unfold catCheck
    exact loc_bind (loc_expect _) fun _ _ => loc_bind (loc_expect _) fun _ _ => loc_catCheck dim first is
theorem loc_getAll : ∀ {ts : List Nat}, (∀ t ∈ ts, S t) → Loc (F := F) S T (getAll ts) fun is => ∀ i ∈ is, Own S T i
  | [], _ => loc_pure (by simp)
  | t :: ts, h => by
    unfold getAll
    refine loc_bind (loc_getT (h t (by simp))) fun i hi => ?_
    refine loc_bind (loc_getAll fun t ht => h t (by simp [ht])) fun is his => loc_pure ?_
    intro j hj
    simp only [List.mem_cons] at hj
    rcases hj with rfl | hj
    · exact hi
    · exact his j hj
theorem loc_catGo (dim : Nat) (dt : DType) {ret : Impl} (hr : T ret.data) : ∀ (o : Nat) {is : List Impl},
    (∀ i ∈ is, Own S T i) → Loc (F := F) S T (catGo dim dt ret o is) fun _ => True
  | _, [], _ => loc_true
  | o, i :: is, h => by
    unfold catGo
    refine loc_bind (loc_lift _) fun _ _ => loc_bind (loc_tensorCat hr (h i (by simp)).data _ _ _) fun _ _ => ?_
    exact loc_bind (loc_lift _) fun _ _ => loc_catGo dim dt hr _ fun i hi => h i (by simp [hi])
theorem loc_catT {ts : List Nat} (h : ∀ t ∈ ts, S t) (dim : Nat) : Loc (F := F) S T (catT ts dim) S := by
  unfold catT
  split
  · exact loc_undef _
  · rename_i t0 rest
    refine loc_bind (loc_getT (h t0 (by simp))) fun i hi => loc_bind (loc_expect _) fun _ _ => ?_
    refine loc_bind (loc_getAll fun t ht => h t (by simp [ht])) fun is his => loc_bind (loc_catCheck _ _ _) fun _ _ => ?_
    refine loc_bind (loc_create _ _ _) fun r hr => loc_bind (loc_getT hr) fun j hj => ?_
    refine loc_bind (loc_catGo _ _ hj.data _ ?_) fun _ _ => ?_
    · intro x hx
      simp only [List.mem_cons] at hx
      rcases hx with rfl | hx
      · exact hi
      · exact his x hx
    · split
      · exact loc_bind (loc_setGradFn hr h (by simp)) fun _ _ => loc_pure hr
      · exact loc_pure hr

theorem loc_setRequiresGrad {t : Nat} (ht : S t) (b : Bool) : Loc (F := F) S T (setRequiresGrad t b) fun _ => True := by
  unfold setRequiresGrad
  refine loc_bind (loc_getT ht) fun i hi => ?_
  split
  · exact loc_bind (loc_expect _) fun _ _ => loc_bind (loc_getT ht) fun j hj => loc_setT ⟨hj.data, hj.holds⟩
  · exact loc_bind (loc_getT ht) fun j hj => loc_setT ⟨hj.data, hj.holds⟩
theorem loc_setRetainGrad {t : Nat} (ht : S t) (b : Bool) : Loc (F := F) S T (setRetainGrad t b) fun _ => True :=
  loc_bind (loc_getT ht) fun j hj => loc_setT ⟨hj.data, hj.holds⟩
theorem loc_gradOf {t : Nat} (ht : S t) : Loc (F := F) S T (gradOf t) fun r => ∀ g, r = some g → S g :=
  loc_bind (loc_getT ht) fun _ hj => loc_pure fun _ hg => hj.grad hg
theorem loc_zeroGrad {t : Nat} (ht : S t) : Loc (F := F) S T (zeroGrad t) fun _ => True := by
  unfold zeroGrad
  refine loc_bind (loc_getT ht) fun i hi => ?_
  split
  · exact loc_true
  · exact loc_bind (loc_getT (hi.grad ‹_›)) fun j hj => loc_zeroS hj.data
theorem loc_release {t : Nat} (ht : S t) : Loc (F := F) S T (release t) fun _ => True :=
  loc_bind (loc_getT ht) fun _ hj => loc_releaseS hj.data
theorem loc_stride {t : Nat} (ht : S t) : Loc (F := F) S T (stride t) fun _ => True :=
  loc_bind (loc_getT ht) fun _ _ => loc_raise _
theorem loc_createImpl (init : TInit F) : Loc (F := F) S T (createImpl init) fun r => ∀ t, r = some t → S t := by
  unfold createImpl
  split
  · exact loc_pure (by simp)
  · split
    · exact loc_undef _
    · refine loc_bind (loc_create _ _ _) fun r hr => loc_bind (loc_getT hr) fun i hi => loc_bind (loc_getS hi.data) fun s _ => ?_
      exact loc_bind (loc_setS _ _) fun _ _ => loc_pure (by intro t e; cases e; exact hr)
theorem loc_ofInit (tree : InitTree F) : Loc (F := F) S T (ofInit tree) fun r => ∀ t, r = some t → S t :=
  loc_bind (loc_lift _) fun _ _ => loc_createImpl _

theorem loc_elemToString {i : Impl} (hi : T i.data) (off : Int) : Loc (F := F) S T (elemToString i off) fun _ => True := by
  unfold elemToString loadByteOff
  refine loc_bind (Q := fun _ => True) ?_ fun _ _ => loc_true
  split
  · exact loc_undef _
  · exact loc_load hi _ _
theorem loc_strLoop {sub : Int → M F Str} (hs : ∀ o, Loc S T (sub o) fun _ => True) (e : Nat) (st off : Int) (n : Nat) :
    ∀ k, Loc S T (strLoop sub e st off n k) fun _ => True
  | 0 => loc_true
  | k + 1 => by
    unfold strLoop
    exact loc_bind (hs _) fun _ _ => loc_bind (loc_strLoop hs e st off n k) fun _ _ => loc_true
theorem loc_strHelper {i : Impl} (hi : T i.data) : ∀ (ns : List Nat) (sts : List Int) (off : Int),
    Loc (F := F) S T (strHelper i ns sts off) fun _ => True
  | [], _, off => by unfold strHelper; exact loc_elemToString hi _
  | _ :: _, [], _ => by unfold strHelper; exact loc_undef _
  | n :: ns, st :: sts, off => by
    unfold strHelper
    exact loc_bind (loc_strLoop (fun o => loc_strHelper hi ns sts o) _ _ _ _ _) fun _ _ => loc_true
theorem loc_toString {t : Nat} (ht : S t) : Loc (F := F) S T (Tensor.toString t) fun _ => True := by
  unfold Tensor.toString
  refine loc_bind (loc_getT ht) fun i hi => ?_
  split
  · exact loc_elemToString hi.data _
  · exact loc_strHelper hi.data _ _ _

/-! ### Back-propagation -/

theorem loc_tryAccUpdate {p : Nat} (hp : S p) : Loc (F := F) S T (tryAccUpdate p) fun _ => True := by
  unfold tryAccUpdate
  refine loc_bind (loc_getT hp) fun i hi => ?_
  split
  · exact loc_true
  · lift_lets
    intro jp
    have hjp : ∀ u, Loc S T (jp u) fun _ => True := by
      intro u
      dsimp only [jp]
      split
      · refine loc_bind (loc_create _ _ _) fun g hg => loc_bind (loc_getT hp) fun j hj => ?_
        refine loc_bind (loc_setT (hj.setGrad hg)) fun _ _ => loc_bind (loc_getT hg) fun gi hgi => loc_zeroS hgi.data
      · refine loc_bind (loc_getT (hi.grad ‹_›)) fun gi hgi => loc_bind (loc_isAllocS hgi.data) fun al _ => ?_
        split
        · exact loc_bind (loc_allocS hgi.data) fun _ _ => loc_zeroS hgi.data
        · exact loc_true
    split
    · rename_i g hg
      exact loc_bind (loc_setT (hi.setFn (f := { g with accOutway := g.accOutway + 1 })
        (fun y hy => hi.holds y (.inr ⟨g, hg, hy⟩)) _)) fun _ _ => hjp ()
    · exact hjp ()
theorem loc_mulAddF {d a b : Nat} (hd : S d) (ha : S a) (hb : S b) : Loc (F := F) S T (mulAddF d a b) fun _ => True := by
  unfold mulAddF
  refine loc_bind (loc_getT hd) fun i hi => loc_bind (loc_getT ha) fun j hj => loc_bind (loc_getT hb) fun k hk => ?_
  split
  · exact loc_tensorMulAccF hi.data hj.data hk.data _ _ _
  · exact loc_undef _
omit [FOps F] in
theorem loc_derefGrad {p : Nat} (hp : S p) : Loc (F := F) S T (derefGrad p) S := by
  unfold derefGrad
  refine loc_bind (loc_getT hp) fun i hi => ?_
  split
  · exact loc_pure (hi.grad ‹_›)
  · exact loc_undef _
theorem loc_tryAccGrad {p : Nat} (hp : S p) {w o : Option Nat} (hw : ∀ x, w = some x → S x) (ho : ∀ x, o = some x → S x) :
    Loc (F := F) S T (tryAccGrad p w o) fun _ => True := by
  unfold tryAccGrad
  refine loc_bind (loc_getT hp) fun i hi => ?_
  split
  · exact loc_true
  · refine loc_bind (loc_tryAccUpdate hp) fun _ _ => ?_
    split
    · exact loc_true
    · exact loc_bind (loc_derefGrad hp) fun g hg => loc_addAssign hg (hw _ rfl)
    · exact loc_undef _
    · refine loc_bind (loc_getT (hw _ rfl)) fun wi _ => loc_bind (loc_derefGrad hp) fun g hg => ?_
      split
      · exact loc_mulAddF hg (hw _ rfl) (ho _ rfl)
      · exact loc_mulAddF hg (ho _ rfl) (hw _ rfl)
theorem loc_inputAt {g : GradFn} (hg : ∀ y ∈ g.inputs, S y) (k : Nat) : Loc (F := F) S T (inputAt g k) S := by
  unfold inputAt
  refine loc_mono (loc_lift_ok _) fun a ha => ?_
  unfold vecAt at ha
  split at ha
  · cases ha; exact hg _ (List.mem_of_getElem? ‹_›)
  · cases ha

theorem loc_catBackGo {t : Nat} (ht : S t) (dim : Nat) : ∀ (s : Nat) {xs : List Nat}, (∀ x ∈ xs, S x) →
    Loc (F := F) S T (catBackGo t dim s xs) fun _ => True
  | _, [], _ => loc_true
  | s, x :: xs, h => by
    unfold catBackGo
    have hx := h x (by simp)
    refine loc_bind (loc_getT ht) fun i hi => loc_bind (loc_getT hx) fun xi hxi => loc_bind (loc_lift _) fun _ _ => ?_
    refine loc_bind (loc_derefGrad ht) fun g hg => loc_bind (loc_getT hg) fun gi hgi => ?_
    refine loc_bind (loc_createOn _ _ hgi.data) fun r hr => loc_bind (loc_tryAccGrad hx (some_S hr) none_S) fun _ _ => ?_
    refine loc_bind (loc_getT hx) fun _ _ => loc_bind (loc_lift _) fun _ _ => ?_
    exact loc_catBackGo ht dim _ fun x hx => h x (by simp [hx])
theorem loc_divBackNum {d a b : Nat} (hd : S d) (ha : S a) (hb : S b) : Loc (F := F) S T (divBackNum d a b) fun _ => True := by
  unfold divBackNum
  refine loc_bind (loc_getT hd) fun i hi => loc_bind (loc_getT ha) fun j hj => loc_bind (loc_getT hb) fun k hk => ?_
  split
  · exact loc_tensorDivBackNum hi.data hj.data hk.data _ _ _
  · exact loc_undef _
theorem loc_divBackDen {t d : Nat} (ht : S t) (hd : S d) : Loc (F := F) S T (divBackDen t d) fun _ => True := by
  unfold divBackDen
  refine loc_bind (loc_getT hd) fun i hi => loc_bind (loc_getT ht) fun j hj => ?_
  split
  · refine loc_bind (loc_derefGrad hd) fun g hg => loc_bind (loc_derefGrad ht) fun o ho => ?_
    refine loc_bind (loc_getT hg) fun gi hgi => loc_bind (loc_getT ho) fun oi hoi => ?_
    exact loc_tensorDivBackDen hgi.data hoi.data hj.data hi.data _ _
  · exact loc_undef _

theorem loc_stepBack {t : Nat} (ht : S t) {g : GradFn} (hi : ∀ y ∈ g.inputs, S y) (hk : ∀ y, g.kind = .knownGrad y → S y) :
    Loc (F := F) S T (stepBack t g) fun _ => True := by
  have hin : ∀ k, Loc (F := F) S T (inputAt g k) S := loc_inputAt hi
  have hog : Loc (F := F) S T (getOutGrad t) S := loc_derefGrad ht
  unfold stepBack
  split
  · refine loc_bind (hin _) fun a ha => loc_bind hog fun o ho => loc_bind (loc_tryAccGrad ha (some_S ho) none_S) fun _ _ => ?_
    exact loc_bind (hin _) fun a ha => loc_bind hog fun o ho => loc_tryAccGrad ha (some_S ho) none_S
  · refine loc_bind (hin _) fun a ha => loc_bind hog fun o ho => loc_bind (loc_tryAccGrad ha (some_S ho) none_S) fun _ _ => ?_
    refine loc_bind (loc_createScalar _ _) fun m hm => ?_
    exact loc_bind (hin _) fun a ha => loc_bind hog fun o ho => loc_tryAccGrad ha (some_S ho) (some_S hm)
  · refine loc_bind (hin _) fun a ha => loc_bind (hin _) fun b hb => loc_bind hog fun o ho => ?_
    refine loc_bind (loc_tryAccGrad ha (some_S hb) (some_S ho)) fun _ _ => ?_
    exact loc_bind (hin _) fun a ha => loc_bind (hin _) fun b hb => loc_bind hog fun o ho =>
      loc_tryAccGrad ha (some_S hb) (some_S ho)
  · refine loc_bind (hin _) fun a ha => loc_bind (hin _) fun b hb => loc_bind (loc_tryAccUpdate ha) fun _ _ => ?_
    refine loc_bind (loc_derefGrad ha) fun ga hga => loc_bind hog fun o ho => loc_bind (loc_divBackNum hga ho hb) fun _ _ => ?_
    exact loc_bind (loc_tryAccUpdate hb) fun _ _ => loc_divBackDen ht hb
  · refine loc_bind (hin _) fun a ha => loc_bind (loc_onesLike ha) fun w hw => loc_bind hog fun o ho => ?_
    exact loc_tryAccGrad ha (some_S hw) (some_S ho)
  · refine loc_bind (hin _) fun a ha => loc_bind (loc_getT ha) fun i _ => loc_bind (loc_full _ _ _ _) fun w hw => ?_
    exact loc_tryAccGrad ha (some_S hw) none_S
  · exact loc_bind (hin _) fun a ha => loc_tryAccGrad ha none_S none_S
  · exact loc_bind (hin _) fun a ha => loc_bind hog fun o ho => loc_tryAccGrad ha (some_S ho) none_S
  · exact loc_catBackGo ht _ _ hi
  · rename_i k hkk
    exact loc_bind (hin _) fun a ha => loc_bind hog fun o ho => loc_tryAccGrad ha (some_S (hk k hkk)) (some_S ho)

/-- What a recorded operation owns. -/
def OwnF (S : Nat → Prop) (f : GradFn) : Prop := ∀ y, (y ∈ f.inputs ∨ f.kind = .knownGrad y) → S y

omit [FOps F] in
theorem loc_getGradFn {t : Nat} (ht : S t) : Loc (F := F) S T (getGradFn t) (OwnF S) := by
  unfold getGradFn
  refine loc_bind (loc_getT ht) fun i hi => ?_
  split
  · exact loc_pure fun y hy => hi.holds y (.inr ⟨_, ‹_›, hy⟩)
  · exact loc_undef _
omit [FOps F] in
theorem loc_setGF {t : Nat} (ht : S t) {g : GradFn} (hg : OwnF S g) : Loc (F := F) S T (setGF t g) fun _ => True := by
  unfold setGF
  exact loc_bind (loc_getT ht) fun i hi => loc_setT (hi.setFn hg _)
omit [FOps F] in
theorem loc_bumpVersion : Loc (F := F) S T bumpVersion fun _ => True := fun _ _ hs =>
  ⟨by rw [hs.gver], trivial, hs.tsl, hs.stl, by show _ + 1 = _ + 1; rw [hs.gver], hs.ts, hs.st, hs.newT, hs.newS, hs.own⟩
omit [FOps F] in
theorem loc_getVersion : Loc (F := F) S T getVersion fun _ => True := fun _ _ hs => ⟨hs.gver, trivial, hs⟩
omit [FOps F] in
theorem loc_heapSize : Loc (F := F) S T heapSize fun _ => True := fun _ _ hs => ⟨hs.tsl, trivial, hs⟩
omit [FOps F] in
theorem loc_queueLoop {visit : Nat → M F (List Nat)} (hv : ∀ t, S t → Loc S T (visit t) fun l => ∀ x ∈ l, S x) :
    ∀ (n : Nat) {q : List Nat}, (∀ x ∈ q, S x) → Loc S T (queueLoop visit n q) fun _ => True
  | n, [], _ => by cases n <;> exact loc_true
  | 0, _ :: _, _ => loc_undef _
  | n + 1, t :: q, h => by
    unfold queueLoop
    refine loc_bind (hv t (h t (by simp))) fun new hn => loc_queueLoop hv n fun x hx => ?_
    simp only [List.mem_append] at hx
    rcases hx with hx | hx
    · exact h x (by simp [hx])
    · exact hn x hx
theorem OwnF.counters {g : GradFn} (h : OwnF S g) (a b c : Nat) : OwnF S { g with nOutway := a, accOutway := b, backVersion := c } := h
omit [FOps F] in
theorem cons_S {x : Nat} (hx : S x) {r : List Nat} (hr : ∀ y ∈ r, S y) : ∀ y ∈ x :: r, S y := by
  intro y hy
  simp only [List.mem_cons] at hy
  rcases hy with rfl | hy
  · exact hx
  · exact hr y hy
omit [FOps F] in
theorem loc_resetInputs : ∀ {xs : List Nat}, (∀ x ∈ xs, S x) → Loc (F := F) S T (resetInputs xs) fun l => ∀ x ∈ l, S x
  | [], _ => loc_pure (by simp)
  | x :: xs, h => by
    have hr := loc_resetInputs fun y hy => h y (List.mem_cons_of_mem x hy)
    have hx := h x (by simp)
    unfold resetInputs
    refine loc_bind (loc_getT hx) fun i hi => loc_bind loc_getVersion fun v _ => ?_
    split
    · rename_i g hg
      split
      · refine loc_bind (loc_setGF hx (OwnF.counters (fun y hy => hi.holds y (.inr ⟨g, hg, hy⟩)) 0 g.accOutway v)) fun _ _ => ?_
        exact loc_bind hr fun rest hrest => loc_pure (cons_S hx hrest)
      · exact hr
    · exact hr
omit [FOps F] in
theorem loc_countInputs : ∀ {xs : List Nat}, (∀ x ∈ xs, S x) → Loc (F := F) S T (countInputs xs) fun l => ∀ x ∈ l, S x
  | [], _ => loc_pure (by simp)
  | x :: xs, h => by
    have hr := loc_countInputs fun y hy => h y (List.mem_cons_of_mem x hy)
    have hx := h x (by simp)
    unfold countInputs
    refine loc_bind (loc_getT hx) fun i hi => loc_bind loc_getVersion fun v _ => ?_
    split
    · rename_i g hg
      have ho : OwnF S g := fun y hy => hi.holds y (.inr ⟨g, hg, hy⟩)
      split
      · refine loc_bind (loc_setGF hx (ho.counters (g.nOutway + 1) g.accOutway v)) fun _ _ => ?_
        exact loc_bind hr fun rest hrest => loc_pure (cons_S hx hrest)
      · exact loc_bind (loc_setGF hx (ho.counters (g.nOutway + 1) g.accOutway g.backVersion)) fun _ _ => hr
    · exact hr
omit [FOps F] in
theorem loc_readyInputs : ∀ {xs : List Nat}, (∀ x ∈ xs, S x) → Loc (F := F) S T (readyInputs xs) fun l => ∀ x ∈ l, S x
  | [], _ => loc_pure (by simp)
  | x :: xs, h => by
    have hr := loc_readyInputs fun y hy => h y (List.mem_cons_of_mem x hy)
    have hx := h x (by simp)
    unfold readyInputs
    refine loc_bind (loc_getT hx) fun i hi => loc_bind loc_getVersion fun v _ => ?_
    split
    · rename_i g hg
      split
      · refine loc_bind (loc_setGF hx (OwnF.counters (fun y hy => hi.holds y (.inr ⟨g, hg, hy⟩)) g.nOutway g.accOutway v)) fun _ _ => ?_
        exact loc_bind hr fun rest hrest => loc_pure (cons_S hx hrest)
      · exact hr
    · exact hr
omit [FOps F] in
theorem loc_refreshNOutway {t : Nat} (ht : S t) : Loc (F := F) S T (refreshNOutway t) fun _ => True := by
  unfold refreshNOutway
  refine loc_bind loc_heapSize fun n _ => loc_bind loc_bumpVersion fun v _ => loc_bind (loc_getGradFn ht) fun g hg => ?_
  refine loc_bind (loc_setGF ht (hg.counters 0 g.accOutway v)) fun _ _ => ?_
  refine loc_bind (loc_queueLoop (fun x hx => loc_bind (loc_getGradFn hx) fun f hf => loc_resetInputs fun y hy => hf y (.inl hy)) _
    (by simpa using ht)) fun _ _ => ?_
  refine loc_bind loc_bumpVersion fun v _ => loc_bind (loc_getGradFn ht) fun g hg => ?_
  refine loc_bind (loc_setGF ht (hg.counters g.nOutway g.accOutway v)) fun _ _ => ?_
  exact loc_queueLoop (fun x hx => loc_bind (loc_getGradFn hx) fun f hf => loc_countInputs fun y hy => hf y (.inl hy)) _
    (by simpa using ht)
theorem loc_backVisit {t : Nat} (ht : S t) : Loc (F := F) S T (backVisit t) fun l => ∀ x ∈ l, S x := by
  unfold backVisit
  refine loc_bind (loc_getGradFn ht) fun g hg => ?_
  refine loc_bind (loc_stepBack ht (fun y hy => hg y (.inl hy)) fun y hy => hg y (.inr hy)) fun _ _ => ?_
  refine loc_bind (loc_getT ht) fun i hi => ?_
  have hjp : Loc (F := F) S T (getGradFn t >>= fun f => readyInputs f.inputs) fun l => ∀ x ∈ l, S x :=
    loc_bind (loc_getGradFn ht) fun f hf => loc_readyInputs fun y hy => hf y (.inl hy)
  split
  · exact loc_bind (loc_setT hi.noGrad) fun _ _ => hjp
  · exact hjp
theorem loc_backward {t : Nat} (ht : S t) : Loc (F := F) S T (backward t) fun _ => True := by
  unfold backward
  refine loc_bind (loc_getT ht) fun i hi => loc_bind (loc_expect _) fun _ _ => loc_bind (loc_expect _) fun _ _ => ?_
  refine loc_bind (loc_expect _) fun _ _ => loc_bind loc_heapSize fun n _ => loc_bind (loc_refreshNOutway ht) fun _ _ => ?_
  refine loc_bind (loc_onesLike ht) fun o ho => loc_bind (loc_getT ht) fun j hj => loc_bind (loc_setT (hj.setGrad ho)) fun _ _ => ?_
  refine loc_bind loc_bumpVersion fun v _ => loc_bind (loc_getGradFn ht) fun g hg => ?_
  refine loc_bind (loc_setGF ht (hg.counters g.nOutway g.accOutway v)) fun _ _ => ?_
  exact loc_queueLoop (fun x hx => loc_backVisit hx) _ (by simpa using ht)

/-! ### Calls -/

omit [FOps F] in
theorem loc_some' {x : M F Nat} (hx : Loc S T x S) : Loc S T (some' x) fun r => ∀ t, r = some t → S t :=
  loc_bind hx fun _ ha => loc_pure (some_S ha)
omit [FOps F] in
theorem loc_none' {α : Type} {x : M F α} {Q : α → Prop} (hx : Loc S T x Q) : Loc S T (none' x) fun r => ∀ t, r = some t → S t :=
  loc_bind hx fun _ _ => loc_pure none_S

/-- A call depends only on its arguments and what they own. -/
theorem loc_run (c : Call F) (hc : ∀ a ∈ args c, S a) : Loc S T c.run fun r => ∀ t, r = some t → S t := by
  cases c
  case init => exact loc_ofInit _
  case randnLike => exact loc_bind (loc_getT (hc _ (by simp [args]))) fun _ _ => loc_some' (loc_randn _ _ _)
  case grad => exact loc_gradOf (hc _ (by simp [args]))
  case scalar => exact loc_some' (loc_createScalar _ _)
  case empty => exact loc_some' (loc_create _ _ _)
  case ones => exact loc_some' (loc_ones _ _)
  case zeros => exact loc_some' (loc_zeros _ _)
  case onesLike => exact loc_some' (loc_onesLike (hc _ (by simp [args])))
  case zerosLike => exact loc_some' (loc_zerosLike (hc _ (by simp [args])))
  case fullInt => exact loc_some' (loc_full _ _ _ _)
  case fullReal => exact loc_some' (loc_full _ _ _ _)
  case eye => exact loc_some' (loc_eye _ _ _)
  case fromBlob => exact loc_some' (loc_fromBlob _ _ _)
  case randn => exact loc_some' (loc_randn _ _ _)
  case slice => exact loc_some' (loc_slice (hc _ (by simp [args])) _)
  case transpose => exact loc_some' (loc_transpose (hc _ (by simp [args])) _ _)
  case reshape => exact loc_some' (loc_reshape (hc _ (by simp [args])) _)
  case reshapeAs => exact loc_some' (loc_reshapeAs (hc _ (by simp [args])) (hc _ (by simp [args])))
  case detach => exact loc_some' (loc_detach (hc _ (by simp [args])))
  case clone => exact loc_some' (loc_clone (hc _ (by simp [args])))
  case contiguous => exact loc_some' (loc_clone (hc _ (by simp [args])))
  case toType => exact loc_some' (loc_toType (hc _ (by simp [args])) _)
  case add => exact loc_some' (loc_addT (hc _ (by simp [args])) (hc _ (by simp [args])))
  case sub => exact loc_some' (loc_subT (hc _ (by simp [args])) (hc _ (by simp [args])))
  case mul => exact loc_some' (loc_mulT (hc _ (by simp [args])) (hc _ (by simp [args])))
  case div => exact loc_some' (loc_divT (hc _ (by simp [args])) (hc _ (by simp [args])))
  case pos => exact loc_some' (loc_pure (hc _ (by simp [args])))
  case neg => exact loc_some' (loc_negT (hc _ (by simp [args])))
  case cmp => exact loc_some' (loc_cmp _ (hc _ (by simp [args])) (hc _ (by simp [args])))
  case sum => exact loc_some' (loc_sumT (hc _ (by simp [args])))
  case mean => exact loc_some' (loc_meanT (hc _ (by simp [args])))
  case abs => exact loc_some' (loc_absT (hc _ (by simp [args])))
  case max => exact loc_some' (loc_extreme _ (hc _ (by simp [args])))
  case min => exact loc_some' (loc_extreme _ (hc _ (by simp [args])))
  case cat => exact loc_some' (loc_catT hc _)
  case addAssign => exact loc_none' (loc_addAssign (hc _ (by simp [args])) (hc _ (by simp [args])))
  case setRequiresGrad => exact loc_none' (loc_setRequiresGrad (hc _ (by simp [args])) _)
  case setRetainGrad => exact loc_none' (loc_setRetainGrad (hc _ (by simp [args])) _)
  case zeroGrad => exact loc_none' (loc_zeroGrad (hc _ (by simp [args])))
  case release => exact loc_none' (loc_release (hc _ (by simp [args])))
  case backward => exact loc_none' (loc_backward (hc _ (by simp [args])))
  case all => exact loc_none' (loc_allT (hc _ (by simp [args])))
  case toString => exact loc_none' (loc_toString (hc _ (by simp [args])))
  case stride => exact loc_none' (loc_stride (hc _ (by simp [args])))
  case query => exact loc_none' (loc_getT (hc _ (by simp [args])))
end

end INNC
