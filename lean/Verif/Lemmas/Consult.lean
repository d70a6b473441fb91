import Verif.Spec.Consult
import Verif.Lemmas.Frame
/-
Which elements `backward()` depends on: two states that have the same tensors and the same contents of the storages that are read.
-/
namespace INNC
open Spec Tensor
variable {F : Type}

/-- The tensors of the graph (`node`), the tensors that require grad (`req`), the tensors and the storages that are read, and the states
at the beginning. -/
structure Scope (F : Type) where
  S : Nat → Prop
  Q : Nat → Prop
  R : Nat → Prop
  T : Nat → Prop
  h0 : Heap F
  k0 : Heap F

/-- What a recorded operation reads is in the scope. -/
structure FnIn (P : Scope F) (x : Nat) (f : GradFn) : Prop where
  input : ∀ y ∈ f.inputs, P.S y
  mul : f.kind = .mul → ∀ a b, f.inputs[0]? = some a → f.inputs[1]? = some b → (P.Q a → P.R b) ∧ (P.Q b → P.R a)
  div : f.kind = .div → P.R x ∧ ∀ b, f.inputs[1]? = some b → P.R b
  known : ∀ k, f.kind = .knownGrad k → P.R k

structure OwnAt (P : Scope F) (x : Nat) (i : Impl) : Prop where
  req : i.requiresGrad = true → P.Q x
  grad : ∀ g, i.grad = some g → P.R g
  fn : ∀ f, i.gradFn = some f → FnIn P x f

/-- The states agree on what is in the scope, and the rest is as it was. -/
structure Glimpse (P : Scope F) (h k : Heap F) : Prop where
  ts : h.ts = k.ts
  stl : h.st.length = k.st.length
  gver : h.gver = k.gver
  st : ∀ d, P.T d → h.st[d]? = k.st[d]?
  left : ∀ d, ¬ P.T d → h.st[d]? = P.h0.st[d]?
  right : ∀ d, ¬ P.T d → k.st[d]? = P.k0.st[d]?
  old : ∀ x, P.S x → x < h.ts.length
  newT : ∀ x, h.ts.length ≤ x → P.R x
  newS : ∀ d, h.st.length ≤ d → P.T d
  own : ∀ (x : Nat) (i : Impl), P.S x → h.ts[x]? = some i → OwnAt P x i
  read : ∀ (x : Nat) (i : Impl), P.R x → h.ts[x]? = some i → P.T i.data

/-- Equal outcomes in states that agree. -/
def Agreed {α : Type} (P : Scope F) (Q : α → Prop) : Out (Heap F) α → Out (Heap F) α → Prop
  | .ok a h, .ok b k => a = b ∧ Q a ∧ Glimpse P h k
  | .throw e h, .throw e' k => e = e' ∧ Glimpse P h k
  | .ub u, .ub v => u = v
  | _, _ => False

/-- The computation depends only on what is in the scope. -/
def Peek {α : Type} (P : Scope F) (x : M F α) (Q : α → Prop) : Prop := ∀ h k, Glimpse P h k → Agreed P Q (x h) (x k)

section
variable {P : Scope F} {α β : Type}

theorem peek_bind {x : M F α} {f : α → M F β} {Q : α → Prop} {R : β → Prop} (hx : Peek P x Q)
    (hf : ∀ a, Q a → Peek P (f a) R) : Peek P (x >>= f) R := by
  intro h k hs
  have := hx h k hs
  rw [M.bind_def, M.bind_def]
  cases e : x h <;> cases e' : x k <;> rw [e, e'] at this <;> try exact this.elim
  · obtain ⟨rfl, hq, hs'⟩ := this
    exact hf _ hq _ _ hs'
  · exact this
  · exact this

theorem peek_pure {a : α} {Q : α → Prop} (hq : Q a) : Peek P (pure a) Q := fun _ _ hs => ⟨rfl, hq, hs⟩
theorem peek_true {a : α} : Peek P (pure a) fun _ => True := peek_pure trivial
theorem peek_undef (u : UB) {Q : α → Prop} : Peek P (M.undef u) Q := fun _ _ _ => rfl
theorem peek_raise (e : Exc) {Q : α → Prop} : Peek P (M.raise e) Q := fun _ _ hs => ⟨rfl, hs⟩
theorem peek_lift (r : Res α) : Peek P (M.lift r) fun _ => True := by
  intro h k hs
  cases r with
  | ok a => exact ⟨rfl, trivial, hs⟩
  | throw e => exact ⟨rfl, hs⟩
  | ub u => rfl
theorem peek_lift_ok (r : Res α) : Peek P (M.lift r) fun a => r = .ok a := by
  intro h k hs
  cases r with
  | ok a => exact ⟨rfl, rfl, hs⟩
  | throw e => exact ⟨rfl, hs⟩
  | ub u => rfl
theorem peek_expect (b : Bool) : Peek P (expect b) fun _ => True := by
  cases b
  · exact peek_raise _
  · exact peek_true

theorem peek_mono {x : M F α} {Q R : α → Prop} (hx : Peek P x Q) (h : ∀ a, Q a → R a) : Peek P x R := by
  intro a b hs
  have := hx a b hs
  cases e : x a <;> cases e' : x b <;> rw [e, e'] at this <;> try exact this.elim
  · exact ⟨this.1, h _ this.2.1, this.2.2⟩
  · exact this
  · exact this
theorem peek_weak {x : M F α} {Q : α → Prop} (hx : Peek P x Q) : Peek P x fun _ => True := peek_mono hx fun _ _ => trivial

/-- What is known of a tensor in the scope. -/
structure Knows (P : Scope F) (t : Nat) (i : Impl) : Prop where
  own : P.S t → OwnAt P t i
  read : P.R t → P.T i.data

theorem peek_getT {t : Nat} : Peek P (getT t) (Knows P t) := by
  intro h k hs
  unfold getT
  rw [← hs.ts]
  cases e : h.ts[t]? with
  | none => rfl
  | some i => exact ⟨rfl, ⟨fun ht => hs.own t i ht e, fun ht => hs.read t i ht e⟩, hs⟩

theorem peek_setT {t : Nat} {i : Impl} (hi : Knows P t i) : Peek P (setT t i) fun _ => True := by
  intro h k hs
  have hget : ∀ {x : Nat} {j : Impl}, (h.ts.set t i)[x]? = some j → (x = t ∧ j = i) ∨ h.ts[x]? = some j := fun {x j} hj => by
    rw [List.getElem?_set] at hj
    split at hj
    · rename_i he
      split at hj
      · cases hj; exact .inl ⟨he.symm, rfl⟩
      · cases hj
    · exact .inr hj
  refine ⟨rfl, trivial, by show h.ts.set t i = k.ts.set t i; rw [hs.ts], hs.stl, hs.gver, hs.st, hs.left, hs.right, by simpa using hs.old,
    by simpa using hs.newT, hs.newS, fun x j hx hj => ?_, fun x j hx hj => ?_⟩
  · rcases hget hj with ⟨rfl, rfl⟩ | hj
    · exact hi.own hx
    · exact hs.own x j hx hj
  · rcases hget hj with ⟨rfl, rfl⟩ | hj
    · exact hi.read hx
    · exact hs.read x j hx hj

theorem peek_newT {i : Impl} (hi : P.T i.data) : Peek P (newT i) P.R := by
  intro h k hs
  refine ⟨congrArg List.length hs.ts, hs.newT _ (Nat.le_refl _), by show h.ts ++ [i] = k.ts ++ [i]; rw [hs.ts], hs.stl, hs.gver, hs.st,
    hs.left, hs.right, fun x hx => by have := hs.old x hx; simp; omega, fun x hx => hs.newT x (by simp at hx; omega), hs.newS,
    fun x j hx hj => ?_, fun x j hx hj => ?_⟩
  · have := hs.old x hx
    refine hs.own x j hx ?_
    rw [← hj]
    exact (List.getElem?_append_left this).symm
  · simp only [List.getElem?_append] at hj
    split at hj
    · exact hs.read x j hx hj
    · have : j = i := by
        cases hn : x - h.ts.length with
        | zero => rw [hn] at hj; simpa using hj.symm
        | succ n => rw [hn] at hj; simp at hj
      exact this ▸ hi

theorem peek_newS (s : Storage F) : Peek P (newS s) P.T := by
  intro h k hs
  refine ⟨hs.stl, hs.newS _ (Nat.le_refl _), hs.ts, by simpa using hs.stl, hs.gver, fun d hd => ?_, fun d hd => ?_, fun d hd => ?_, hs.old,
    hs.newT, fun x hx => hs.newS x (by simp at hx; omega), hs.own, hs.read⟩
  · simp only [List.getElem?_append]
    rw [hs.stl, hs.st d hd]
  · have hlt : d < h.st.length := by
      by_contra hc
      exact hd (hs.newS d (by omega))
    rw [← hs.left d hd]
    exact List.getElem?_append_left hlt
  · have hlt : d < k.st.length := by
      by_contra hc
      exact hd (hs.newS d (by have := hs.stl; omega))
    rw [← hs.right d hd]
    exact List.getElem?_append_left hlt

theorem peek_getS {d : Nat} (hd : P.T d) : Peek P (getS d) fun _ => True := by
  intro h k hs
  unfold getS
  rw [← hs.st d hd]
  cases e : h.st[d]? with
  | none => rfl
  | some i => exact ⟨rfl, trivial, hs⟩

theorem peek_setS {d : Nat} (hd : P.T d) (s : Storage F) : Peek P (setS d s) fun _ => True := by
  intro h k hs
  have hne : ∀ x, ¬ P.T x → d ≠ x := fun x hx e => hx (e ▸ hd)
  refine ⟨rfl, trivial, hs.ts, by simpa using hs.stl, hs.gver, fun x hx => ?_, fun x hx => ?_, fun x hx => ?_, hs.old, hs.newT,
    by simpa using hs.newS, hs.own, hs.read⟩
  · simp only [List.getElem?_set]
    have := hs.stl
    split
    · rw [this]
    · exact hs.st x hx
  · rw [← hs.left x hx]
    exact List.getElem?_set_ne (hne x hx)
  · rw [← hs.right x hx]
    exact List.getElem?_set_ne (hne x hx)

theorem peek_load {t : Impl} (hd : P.T t.data) (ty : DType) (p : Nat) : Peek P (load ty t p) fun _ => True := by
  unfold load
  refine peek_bind (peek_getS hd) fun s _ => ?_
  split
  · exact peek_undef _
  · split
    · exact peek_undef _
    · split
      · exact peek_undef _
      · exact peek_undef _
      · exact peek_true

theorem peek_store {t : Impl} (hd : P.T t.data) (ty : DType) (p : Nat) (v : Val F) : Peek P (store ty t p v) fun _ => True := by
  unfold store
  refine peek_bind (peek_getS hd) fun s _ => ?_
  split
  · exact peek_undef _
  · split
    · exact peek_undef _
    · split
      · exact peek_setS hd _
      · exact peek_undef _

theorem peek_zeroS [FOps F] {d : Nat} (hd : P.T d) : Peek P (zeroS d) fun _ => True := by
  unfold zeroS
  refine peek_bind (peek_getS hd) fun s _ => ?_
  split
  · exact peek_true
  · exact peek_setS hd _
theorem peek_allocS {d : Nat} (hd : P.T d) : Peek P (allocS d) fun _ => True := by
  unfold allocS
  refine peek_bind (peek_getS hd) fun s _ => ?_
  split
  · exact peek_setS hd _
  · exact peek_raise _
theorem peek_isAllocS {d : Nat} (hd : P.T d) : Peek P (isAllocS d) fun _ => True := by
  unfold isAllocS
  exact peek_bind (peek_getS hd) fun s _ => peek_true

theorem peek_createOn (dt : DType) (v : Layout) {d : Nat} (hd : P.T d) : Peek P (createOn dt v d) P.R := peek_newT hd
theorem peek_create (dt : DType) (v : Layout) (b : Bool) : Peek P (create dt v b) P.R := by
  unfold create mkStorage
  refine peek_bind (Q := P.T) ?_ fun d hd => peek_createOn _ _ hd
  split
  · split
    · exact peek_newS _
    · exact peek_raise _
  · exact peek_newS _

theorem peek_runAll {op : List Nat → M F Unit} (hop : ∀ sv, Peek P (op sv) fun _ => True) :
    ∀ l, Peek P (runAll op l) fun _ => True
  | [] => peek_true
  | _ :: l => peek_bind (hop _) fun _ _ => peek_runAll hop l
theorem peek_forEach {range : List Nat} {op : List Nat → M F Unit} (hop : ∀ sv, Peek P (op sv) fun _ => True) :
    Peek P (forEach range op) fun _ => True := by
  rw [forEach_eq]; exact peek_runAll hop _
theorem peek_odo {range : List Nat} {op : List Nat → M F Unit} (hop : ∀ sv, Peek P (op sv) fun _ => True) :
    ∀ n sv, Peek P (odo (M.undef .fuel) range op n sv) fun _ => True
  | 0, _ => peek_undef _
  | n + 1, sv => by
    unfold odo
    split
    · exact peek_true
    · exact peek_bind (hop _) fun _ _ => peek_odo hop n _

theorem peek_ite {c : Prop} [Decidable c] {x y : M F α} {Q : α → Prop} (hx : c → Peek P x Q) (hy : ¬ c → Peek P y Q) :
    Peek P (if c then x else y) Q := by
  split
  · exact hx ‹_›
  · exact hy ‹_›
end

/-! ### Kernels -/
section
variable [FOps F] {P : Scope F}

/-- Solve the `Peek` goal of a kernel body. -/
macro "peek" : tactic => `(tactic| repeat' first
  | exact peek_true
  | exact peek_undef _
  | exact peek_raise _
  | exact peek_lift _
  | exact peek_expect _
  | (apply peek_load; assumption)
  | (apply peek_store; assumption)
  | (apply peek_zeroS; assumption)
  | (refine peek_forEach fun _ => ?_)
  | (refine peek_bind (Q := fun _ => True) ?_ fun _ _ => ?_)
  | split)

/-- Binary kernels that depend only on their arguments. -/
def PeekKernel (P : Scope F) (k : Kernel F) : Prop :=
  ∀ (L R : DType) (dst l r : Impl), P.T dst.data → P.T l.data → P.T r.data → Peek P (k L R dst l r) fun _ => True

theorem peek_zipLoop {dst l r : Impl} (hd : P.T dst.data) (hl : P.T l.data) (hr : P.T r.data) (D' A L R : DType) (range : List Nat)
    (f : Val F → Val F → Res (Val F)) : Peek P (zipLoop D' A L R range f dst l r) fun _ => True := by
  unfold zipLoop; peek

theorem peek_tensorAdd : PeekKernel P tensorAdd := fun _ _ _ _ _ hd hl hr =>
  peek_bind (peek_lift _) fun _ _ => peek_zipLoop hd hl hr _ _ _ _ _ _
theorem peek_tensorFill {dst n : Impl} (hd : P.T dst.data) (hn : P.T n.data) (D N : DType) :
    Peek P (tensorFill D N dst n) fun _ => True := by
  unfold tensorFill; peek
theorem peek_tensorMulAccF {dst l r : Impl} (hd : P.T dst.data) (hl : P.T l.data) (hr : P.T r.data) (D L R : DType) :
    Peek P (tensorMulAccF D L R dst l r) fun _ => True := by
  unfold tensorMulAccF; peek
theorem peek_tensorDivBackNum {dst l r : Impl} (hd : P.T dst.data) (hl : P.T l.data) (hr : P.T r.data) (D L R : DType) :
    Peek P (tensorDivBackNum D L R dst l r) fun _ => True := by
  unfold tensorDivBackNum; peek
theorem peek_tensorDivBackDen {dst l r s : Impl} (hd : P.T dst.data) (hl : P.T l.data) (hr : P.T r.data) (hs : P.T s.data) (D L : DType) :
    Peek P (tensorDivBackDen D L dst l r s) fun _ => True := by
  unfold tensorDivBackDen; peek

theorem peek_createScalar (dt : DType) (v : Val F) : Peek P (createScalar dt v) P.R := by
  unfold createScalar
  refine peek_bind (peek_create _ _ _) fun t ht => peek_bind peek_getT fun i hi => ?_
  exact peek_bind (peek_store (hi.read ht) _ _ _) fun _ _ => peek_pure ht
theorem peek_ones (s : List Nat) (dt : DType) : Peek P (ones s dt) P.R := by
  unfold ones
  refine peek_bind (peek_createScalar _ _) fun one ho => peek_bind (peek_create _ _ _) fun t ht => ?_
  refine peek_bind peek_getT fun i hi => peek_bind peek_getT fun j hj => ?_
  exact peek_bind (peek_tensorFill (hi.read ht) (hj.read ho) _ _) fun _ _ => peek_pure ht
theorem peek_onesLike {t : Nat} : Peek P (onesLike t) P.R := peek_bind peek_getT fun _ _ => peek_ones _ _
theorem peek_full (s : List Nat) (n : DType) (v : Val F) (dt : DType) : Peek P (full s n v dt) P.R := by
  unfold full
  refine peek_bind (peek_createScalar _ _) fun one ho => peek_bind (peek_create _ _ _) fun t ht => ?_
  refine peek_bind peek_getT fun i hi => peek_bind peek_getT fun j hj => ?_
  exact peek_bind (peek_tensorFill (hi.read ht) (hj.read ho) _ _) fun _ _ => peek_pure ht
theorem peek_addAssign {t r : Nat} (ht : P.R t) (hr : P.R r) : Peek P (addAssign t r) fun _ => True := by
  unfold addAssign
  refine peek_bind peek_getT fun i hi => peek_bind (peek_expect _) fun _ _ => peek_bind peek_getT fun j hj => ?_
  exact peek_tensorAdd _ _ _ _ _ (hi.read ht) (hi.read ht) (hj.read hr)

/-! ### Back-propagation -/

omit [FOps F] in
theorem FnIn.counters {x : Nat} {g : GradFn} (h : FnIn P x g) (a b c : Nat) :
    FnIn P x { g with nOutway := a, accOutway := b, backVersion := c } := ⟨h.input, h.mul, h.div, h.known⟩
omit [FOps F] in
theorem Knows.setFn {t : Nat} {i : Impl} (h : Knows P t i) {f : GradFn} (hf : P.S t → FnIn P t f) : Knows P t { i with gradFn := some f } :=
  ⟨fun ht => ⟨(h.own ht).req, (h.own ht).grad, fun f' e => by cases e; exact hf ht⟩, h.read⟩
omit [FOps F] in
theorem Knows.setGrad {t : Nat} {i : Impl} (h : Knows P t i) {g : Nat} (hg : P.R g) : Knows P t { i with grad := some g } :=
  ⟨fun ht => ⟨(h.own ht).req, fun g' e => by cases e; exact hg, (h.own ht).fn⟩, h.read⟩
omit [FOps F] in
theorem Knows.noGrad {t : Nat} {i : Impl} (h : Knows P t i) : Knows P t { i with grad := none } :=
  ⟨fun ht => ⟨(h.own ht).req, fun g' e => (nomatch e), (h.own ht).fn⟩, h.read⟩

theorem peek_tryAccUpdate {p : Nat} (hp : P.S p) : Peek P (tryAccUpdate p) fun _ => True := by
  unfold tryAccUpdate
  refine peek_bind peek_getT fun i hi => ?_
  split
  · exact peek_true
  · lift_lets
    intro jp
    have hjp : ∀ u, Peek P (jp u) fun _ => True := by
      intro u
      dsimp only [jp]
      split
      · refine peek_bind (peek_create _ _ _) fun g hg => peek_bind peek_getT fun j hj => ?_
        refine peek_bind (peek_setT (hj.setGrad hg)) fun _ _ => peek_bind peek_getT fun gi hgi => peek_zeroS (hgi.read hg)
      · have hg := (hi.own hp).grad _ ‹_›
        refine peek_bind peek_getT fun gi hgi => peek_bind (peek_isAllocS (hgi.read hg)) fun al _ => ?_
        split
        · exact peek_bind (peek_allocS (hgi.read hg)) fun _ _ => peek_zeroS (hgi.read hg)
        · exact peek_true
    split
    · rename_i g hg
      exact peek_bind (peek_setT (hi.setFn fun ht => ((hi.own ht).fn g hg).counters g.nOutway (g.accOutway + 1) g.backVersion))
        fun _ _ => hjp ()
    · exact hjp ()
theorem peek_mulAddF {d a b : Nat} (hd : P.R d) (ha : P.R a) (hb : P.R b) : Peek P (mulAddF d a b) fun _ => True := by
  unfold mulAddF
  refine peek_bind peek_getT fun i hi => peek_bind peek_getT fun j hj => peek_bind peek_getT fun k hk => ?_
  split
  · exact peek_tensorMulAccF (hi.read hd) (hj.read ha) (hk.read hb) _ _ _
  · exact peek_undef _
omit [FOps F] in
theorem peek_derefGrad {p : Nat} (hp : P.S p) : Peek P (derefGrad p) P.R := by
  unfold derefGrad
  refine peek_bind peek_getT fun i hi => ?_
  split
  · exact peek_pure ((hi.own hp).grad _ ‹_›)
  · exact peek_undef _
theorem peek_tryAccGrad {p : Nat} (hp : P.S p) {w o : Option Nat} (hw : P.Q p → ∀ x, w = some x → P.R x)
    (ho : ∀ x, o = some x → P.R x) : Peek P (tryAccGrad p w o) fun _ => True := by
  unfold tryAccGrad
  refine peek_bind peek_getT fun i hi => ?_
  split
  · exact peek_true
  · rename_i hq
    have hw := hw ((hi.own hp).req (by simpa using hq))
    refine peek_bind (peek_tryAccUpdate hp) fun _ _ => ?_
    split
    · exact peek_true
    · exact peek_bind (peek_derefGrad hp) fun g hg => peek_addAssign hg (hw _ rfl)
    · exact peek_undef _
    · refine peek_bind peek_getT fun wi _ => peek_bind (peek_derefGrad hp) fun g hg => ?_
      split
      · exact peek_mulAddF hg (hw _ rfl) (ho _ rfl)
      · exact peek_mulAddF hg (ho _ rfl) (hw _ rfl)
omit [FOps F] in
theorem peek_inputAt {g : GradFn} (k : Nat) : Peek P (inputAt g k) fun a => g.inputs[k]? = some a := by
  unfold inputAt
  refine peek_mono (peek_lift_ok _) fun a ha => ?_
  unfold vecAt at ha
  split at ha
  · cases ha; assumption
  · cases ha

theorem peek_catBackGo {t : Nat} (ht : P.S t) (dim : Nat) : ∀ (s : Nat) {xs : List Nat}, (∀ x ∈ xs, P.S x) →
    Peek P (catBackGo t dim s xs) fun _ => True
  | _, [], _ => peek_true
  | s, x :: xs, h => by
    unfold catBackGo
    have hx := h x (by simp)
    refine peek_bind peek_getT fun i hi => peek_bind peek_getT fun xi hxi => peek_bind (peek_lift _) fun _ _ => ?_
    refine peek_bind (peek_derefGrad ht) fun g hg => peek_bind peek_getT fun gi hgi => ?_
    refine peek_bind (peek_createOn _ _ (hgi.read hg)) fun r hr => ?_
    refine peek_bind (peek_tryAccGrad hx (fun _ y e => by cases e; exact hr) (fun y e => by cases e)) fun _ _ => ?_
    refine peek_bind peek_getT fun _ _ => peek_bind (peek_lift _) fun _ _ => ?_
    exact peek_catBackGo ht dim _ fun x hx => h x (by simp [hx])
theorem peek_divBackNum {d a b : Nat} (hd : P.R d) (ha : P.R a) (hb : P.R b) : Peek P (divBackNum d a b) fun _ => True := by
  unfold divBackNum
  refine peek_bind peek_getT fun i hi => peek_bind peek_getT fun j hj => peek_bind peek_getT fun k hk => ?_
  split
  · exact peek_tensorDivBackNum (hi.read hd) (hj.read ha) (hk.read hb) _ _ _
  · exact peek_undef _
theorem peek_divBackDen {t d : Nat} (ht : P.S t) (hd : P.S d) (hrt : P.R t) (hrd : P.R d) :
    Peek P (divBackDen t d) fun _ => True := by
  unfold divBackDen
  refine peek_bind peek_getT fun i hi => peek_bind peek_getT fun j hj => ?_
  split
  · refine peek_bind (peek_derefGrad hd) fun g hg => peek_bind (peek_derefGrad ht) fun o ho => ?_
    refine peek_bind peek_getT fun gi hgi => peek_bind peek_getT fun oi hoi => ?_
    exact peek_tensorDivBackDen (hgi.read hg) (hoi.read ho) (hj.read hrt) (hi.read hrd) _ _
  · exact peek_undef _

theorem peek_stepBack {t : Nat} (ht : P.S t) {g : GradFn} (hf : FnIn P t g) : Peek P (stepBack t g) fun _ => True := by
  have hin : ∀ k, Peek P (inputAt g k) fun a => g.inputs[k]? = some a := peek_inputAt
  have hS : ∀ {k a}, g.inputs[k]? = some a → P.S a := fun e => hf.input _ (List.mem_of_getElem? e)
  have hog : Peek P (getOutGrad t) P.R := peek_derefGrad ht
  have sm : ∀ {p x : Nat}, P.R x → P.Q p → ∀ y, some x = some y → P.R y := fun hx _ y e => by cases e; exact hx
  have sm' : ∀ {x : Nat}, P.R x → ∀ y, some x = some y → P.R y := fun hx y e => by cases e; exact hx
  have nn : ∀ {p : Nat}, P.Q p → ∀ y, none = some y → P.R y := fun _ y e => by cases e
  have nn' : ∀ y, none = some y → P.R y := fun y e => by cases e
  unfold stepBack
  split
  · refine peek_bind (hin _) fun a ha => peek_bind hog fun o ho => peek_bind (peek_tryAccGrad (hS ha) (sm ho) nn') fun _ _ => ?_
    exact peek_bind (hin _) fun a ha => peek_bind hog fun o ho => peek_tryAccGrad (hS ha) (sm ho) nn'
  · refine peek_bind (hin _) fun a ha => peek_bind hog fun o ho => peek_bind (peek_tryAccGrad (hS ha) (sm ho) nn') fun _ _ => ?_
    refine peek_bind (peek_createScalar _ _) fun m hm => ?_
    exact peek_bind (hin _) fun a ha => peek_bind hog fun o ho => peek_tryAccGrad (hS ha) (sm ho) (sm' hm)
  · rename_i hk
    refine peek_bind (hin _) fun a ha => peek_bind (hin _) fun b hb => peek_bind hog fun o ho => ?_
    refine peek_bind (peek_tryAccGrad (hS ha) (fun hq y e => by cases e; exact (hf.mul hk a b ha hb).1 hq) (sm' ho)) fun _ _ => ?_
    exact peek_bind (hin _) fun b hb => peek_bind (hin _) fun a ha => peek_bind hog fun o ho =>
      peek_tryAccGrad (hS hb) (fun hq y e => by cases e; exact (hf.mul hk a b ha hb).2 hq) (sm' ho)
  · rename_i hk
    refine peek_bind (hin _) fun a ha => peek_bind (hin _) fun b hb => peek_bind (peek_tryAccUpdate (hS ha)) fun _ _ => ?_
    have hd := hf.div hk
    refine peek_bind (peek_derefGrad (hS ha)) fun ga hga => peek_bind hog fun o ho =>
      peek_bind (peek_divBackNum hga ho (hd.2 b hb)) fun _ _ => ?_
    exact peek_bind (peek_tryAccUpdate (hS hb)) fun _ _ => peek_divBackDen ht (hS hb) hd.1 (hd.2 b hb)
  · refine peek_bind (hin _) fun a ha => peek_bind peek_onesLike fun w hw => peek_bind hog fun o ho => ?_
    exact peek_tryAccGrad (hS ha) (sm hw) (sm' ho)
  · refine peek_bind (hin _) fun a ha => peek_bind peek_getT fun i _ => peek_bind (peek_full _ _ _ _) fun w hw => ?_
    exact peek_tryAccGrad (hS ha) (sm hw) nn'
  · exact peek_bind (hin _) fun a ha => peek_tryAccGrad (hS ha) nn nn'
  · exact peek_bind (hin _) fun a ha => peek_bind hog fun o ho => peek_tryAccGrad (hS ha) (sm ho) nn'
  · exact peek_catBackGo ht _ _ hf.input
  · rename_i k hk
    exact peek_bind (hin _) fun a ha => peek_bind hog fun o ho => peek_tryAccGrad (hS ha) (sm (hf.known k hk)) (sm' ho)

omit [FOps F] in
theorem peek_getGradFn {t : Nat} (ht : P.S t) : Peek P (getGradFn t) (FnIn P t) := by
  unfold getGradFn
  refine peek_bind peek_getT fun i hi => ?_
  split
  · exact peek_pure ((hi.own ht).fn _ ‹_›)
  · exact peek_undef _
omit [FOps F] in
theorem peek_setGF {t : Nat} {g : GradFn} (hg : FnIn P t g) : Peek P (setGF t g) fun _ => True := by
  unfold setGF
  exact peek_bind peek_getT fun i hi => peek_setT (hi.setFn fun _ => hg)
omit [FOps F] in
theorem peek_bumpVersion : Peek P bumpVersion fun _ => True := fun _ _ hs =>
  ⟨by rw [hs.gver], trivial, hs.ts, hs.stl, by show _ + 1 = _ + 1; rw [hs.gver], hs.st, hs.left, hs.right, hs.old, hs.newT, hs.newS, hs.own, hs.read⟩
omit [FOps F] in
theorem peek_getVersion : Peek P getVersion fun _ => True := fun _ _ hs => ⟨hs.gver, trivial, hs⟩
omit [FOps F] in
theorem peek_heapSize : Peek P heapSize fun _ => True := fun _ _ hs => ⟨congrArg List.length hs.ts, trivial, hs⟩
omit [FOps F] in
theorem peek_queueLoop {visit : Nat → M F (List Nat)} (hv : ∀ t, P.S t → Peek P (visit t) fun l => ∀ x ∈ l, P.S x) :
    ∀ (n : Nat) {q : List Nat}, (∀ x ∈ q, P.S x) → Peek P (queueLoop visit n q) fun _ => True
  | n, [], _ => by cases n <;> exact peek_true
  | 0, _ :: _, _ => peek_undef _
  | n + 1, t :: q, h => by
    unfold queueLoop
    refine peek_bind (hv t (h t (by simp))) fun new hn => peek_queueLoop hv n fun x hx => ?_
    simp only [List.mem_append] at hx
    rcases hx with hx | hx
    · exact h x (by simp [hx])
    · exact hn x hx
omit [FOps F] in
theorem peek_cons {x : Nat} (hx : P.S x) {r : List Nat} (hr : ∀ y ∈ r, P.S y) : ∀ y ∈ x :: r, P.S y := by
  intro y hy
  simp only [List.mem_cons] at hy
  rcases hy with rfl | hy
  · exact hx
  · exact hr y hy
omit [FOps F] in
theorem peek_resetInputs : ∀ {xs : List Nat}, (∀ x ∈ xs, P.S x) → Peek P (resetInputs xs) fun l => ∀ x ∈ l, P.S x
  | [], _ => peek_pure (by simp)
  | x :: xs, h => by
    have hr := peek_resetInputs fun y hy => h y (List.mem_cons_of_mem x hy)
    have hx := h x (by simp)
    unfold resetInputs
    refine peek_bind (peek_getT) fun i hi => peek_bind peek_getVersion fun v _ => ?_
    split
    · rename_i g hg
      split
      · refine peek_bind (peek_setGF (FnIn.counters ((hi.own hx).fn g hg) 0 g.accOutway v)) fun _ _ => ?_
        exact peek_bind hr fun rest hrest => peek_pure (peek_cons hx hrest)
      · exact hr
    · exact hr
omit [FOps F] in
theorem peek_countInputs : ∀ {xs : List Nat}, (∀ x ∈ xs, P.S x) → Peek P (countInputs xs) fun l => ∀ x ∈ l, P.S x
  | [], _ => peek_pure (by simp)
  | x :: xs, h => by
    have hr := peek_countInputs fun y hy => h y (List.mem_cons_of_mem x hy)
    have hx := h x (by simp)
    unfold countInputs
    refine peek_bind (peek_getT) fun i hi => peek_bind peek_getVersion fun v _ => ?_
    split
    · rename_i g hg
      have ho := (hi.own hx).fn g hg
      split
      · refine peek_bind (peek_setGF (ho.counters (g.nOutway + 1) g.accOutway v)) fun _ _ => ?_
        exact peek_bind hr fun rest hrest => peek_pure (peek_cons hx hrest)
      · exact peek_bind (peek_setGF (ho.counters (g.nOutway + 1) g.accOutway g.backVersion)) fun _ _ => hr
    · exact hr
omit [FOps F] in
theorem peek_readyInputs : ∀ {xs : List Nat}, (∀ x ∈ xs, P.S x) → Peek P (readyInputs xs) fun l => ∀ x ∈ l, P.S x
  | [], _ => peek_pure (by simp)
  | x :: xs, h => by
    have hr := peek_readyInputs fun y hy => h y (List.mem_cons_of_mem x hy)
    have hx := h x (by simp)
    unfold readyInputs
    refine peek_bind (peek_getT) fun i hi => peek_bind peek_getVersion fun v _ => ?_
    split
    · rename_i g hg
      split
      · refine peek_bind (peek_setGF (FnIn.counters ((hi.own hx).fn g hg) g.nOutway g.accOutway v)) fun _ _ => ?_
        exact peek_bind hr fun rest hrest => peek_pure (peek_cons hx hrest)
      · exact hr
    · exact hr
omit [FOps F] in
theorem peek_refreshNOutway {t : Nat} (ht : P.S t) : Peek P (refreshNOutway t) fun _ => True := by
  unfold refreshNOutway
  refine peek_bind peek_heapSize fun n _ => peek_bind peek_bumpVersion fun v _ => peek_bind (peek_getGradFn ht) fun g hg => ?_
  refine peek_bind (peek_setGF (hg.counters 0 g.accOutway v)) fun _ _ => ?_
  refine peek_bind (peek_queueLoop (fun x hx => peek_bind (peek_getGradFn hx) fun f hf => peek_resetInputs hf.input) _
    (by simpa using ht)) fun _ _ => ?_
  refine peek_bind peek_bumpVersion fun v _ => peek_bind (peek_getGradFn ht) fun g hg => ?_
  refine peek_bind (peek_setGF (hg.counters g.nOutway g.accOutway v)) fun _ _ => ?_
  exact peek_queueLoop (fun x hx => peek_bind (peek_getGradFn hx) fun f hf => peek_countInputs hf.input) _
    (by simpa using ht)
theorem peek_backVisit {t : Nat} (ht : P.S t) : Peek P (backVisit t) fun l => ∀ x ∈ l, P.S x := by
  unfold backVisit
  refine peek_bind (peek_getGradFn ht) fun g hg => ?_
  refine peek_bind (peek_stepBack ht hg) fun _ _ => ?_
  refine peek_bind (peek_getT) fun i hi => ?_
  have hjp : Peek P (getGradFn t >>= fun f => readyInputs f.inputs) fun l => ∀ x ∈ l, P.S x :=
    peek_bind (peek_getGradFn ht) fun f hf => peek_readyInputs hf.input
  split
  · exact peek_bind (peek_setT hi.noGrad) fun _ _ => hjp
  · exact hjp
theorem peek_backward {t : Nat} (ht : P.S t) : Peek P (backward t) fun _ => True := by
  unfold backward
  refine peek_bind (peek_getT) fun i hi => peek_bind (peek_expect _) fun _ _ => peek_bind (peek_expect _) fun _ _ => ?_
  refine peek_bind (peek_expect _) fun _ _ => peek_bind peek_heapSize fun n _ => peek_bind (peek_refreshNOutway ht) fun _ _ => ?_
  refine peek_bind (peek_onesLike) fun o ho => peek_bind (peek_getT) fun j hj => peek_bind (peek_setT (hj.setGrad ho)) fun _ _ => ?_
  refine peek_bind peek_bumpVersion fun v _ => peek_bind (peek_getGradFn ht) fun g hg => ?_
  refine peek_bind (peek_setGF (hg.counters g.nOutway g.accOutway v)) fun _ _ => ?_
  exact peek_queueLoop (fun x hx => peek_backVisit hx) _ (by simpa using ht)

/-! ### States that differ in what is not consulted -/

/-- The scope of `backward()` on `t` for states that differ on `D`. -/
def scopeOf (D : Nat → Prop) (t : Nat) (h k : Heap F) : Scope F where
  S := fun x => From h t x ∧ x < h.ts.length
  Q := fun x => requiresGrad h x = true
  R := fun x => ∀ i, h.ts[x]? = some i → ¬ D i.data ∨ h.st.length ≤ i.data
  T := fun d => ¬ D d ∨ h.st.length ≤ d
  h0 := h
  k0 := k

omit [FOps F] in
theorem glimpse_start {D : Nat → Prop} {h k : Heap F} {t : Nat} (hg : Graph h) (hd : DifferOn D h k)
    (hn : ∀ d, D d → ¬ Consults h t d) : Glimpse (scopeOf D t h k) h k := by
  have hstore : ∀ {x d : Nat}, (∀ i, h.ts[x]? = some i → i.data = d → Consults h t d) → ∀ i, h.ts[x]? = some i → i.data = d →
      ¬ D i.data ∨ h.st.length ≤ i.data := fun hc i hi e => .inl fun hD => hn _ hD (e ▸ hc i hi e)
  have two : ∀ {l : List Nat} {a b : Nat}, l.length = 2 → l[0]? = some a → l[1]? = some b → l = [a, b] := by
    intro l a b h2 ha hb
    match l, h2 with
    | [x, y], _ => simp at ha hb; rw [ha, hb]
  refine ⟨hd.tensors, hd.size, hd.version, fun d hT => ?_, fun _ _ => rfl, fun _ _ => rfl, fun x hx => hx.2, fun x hx i hi => ?_,
    fun d h' => .inr h', fun x i hx hi => ?_, fun x i hx hi => hx i hi⟩
  · rcases hT with hT | hT
    · exact hd.rest d hT
    · rw [List.getElem?_eq_none hT, List.getElem?_eq_none (by have := hd.size; omega)]
  · rw [List.getElem?_eq_none hx] at hi
    cases hi
  · have hof : ∀ {f}, i.gradFn = some f → opOf h x = some f := fun hf => by unfold opOf; rw [hi]; exact hf
    refine ⟨fun hr => by show requiresGrad h x = true; unfold requiresGrad; rw [hi]; exact hr, fun g hgr j hj => ?_, fun f hf => ⟨fun y hy => ?_,
      fun hk a b ha hb => ?_, fun hk => ?_, fun k hk j hj => ?_⟩⟩
    · exact hstore (fun j hj e => .gradient hx.1 (by unfold gradStore; rw [hi]; simp [hgr, hj, e])) j hj rfl
    · have hu : Uses h x y := by unfold Uses operands; rw [hof hf]; exact hy
      have := hg.older x y hu
      have := hx.2
      exact ⟨hx.1.step hu, by omega⟩
    · have e2 := two (by have := hg.arity x f (hof hf); rw [hk] at this; exact this) ha hb
      refine ⟨fun hq j hj => ?_, fun hq j hj => ?_⟩
      · exact hstore (fun j hj e => .right hx.1 (hof hf) hk e2 hq (by unfold storeOf; rw [hj, ← e]; rfl)) j hj rfl
      · exact hstore (fun j hj e => .left hx.1 (hof hf) hk e2 hq (by unfold storeOf; rw [hj, ← e]; rfl)) j hj rfl
    · refine ⟨fun j hj => ?_, fun b hb j hj => ?_⟩
      · exact hstore (fun j hj e => .quotient hx.1 (hof hf) hk (by unfold storeOf; rw [hj, ← e]; rfl)) j hj rfl
      · have h2 : f.inputs.length = 2 := by have := hg.arity x f (hof hf); rw [hk] at this; exact this
        obtain ⟨a, ha⟩ : ∃ a, f.inputs[0]? = some a := ⟨_, List.getElem?_eq_getElem (by omega)⟩
        exact hstore (fun j hj e => .denominator hx.1 (hof hf) hk (two h2 ha hb) (by unfold storeOf; rw [hj, ← e]; rfl)) j hj rfl
    · exact hstore (fun j hj e => .slope hx.1 (hof hf) hk (by unfold storeOf; rw [hj, ← e]; rfl)) j hj rfl

omit [FOps F] in
theorem denotes_same {H K : Heap F} (ht : H.ts = K.ts) {g : Nat} {j : Impl} (hj : H.ts[g]? = some j) (hs : H.st[j.data]? = K.st[j.data]?)
    {dt : DType} {s : List Nat} {f : List Nat → Val F} (h : Denotes H g dt s f) : Denotes K g dt s f := by
  obtain ⟨i, hi, a, b, c⟩ := h
  rw [hj] at hi
  obtain rfl := Option.some.inj hi
  refine ⟨j, ht ▸ hj, a, b, ?_⟩
  exact ⟨c.strides, c.offset, by rw [← hs]; exact c.cells, c.typed⟩

omit [FOps F] in
theorem left_of {D : Nat → Prop} {t : Nat} {h k H K : Heap F} (ht : t < h.ts.length) (hg : Graph h) (hG : Glimpse (scopeOf D t h k) H K) :
    Unaffected D t h k H K := by
  have hin : ∀ x, From h t x → x < h.ts.length := fun x hx => by
    induction hx with
    | root => exact ht
    | step _ hu ih => have := hg.older _ _ hu; omega
  refine ⟨⟨hG.ts, hG.gver, hG.stl, fun d hd => hG.st d (.inl hd)⟩, fun x hx => ⟨fun i hi => hG.ts ▸ hi, fun i g hi hgr dt s f => ?_⟩,
    fun d hd hl => hG.left d fun hT => ?_, fun d hd hl => hG.right d fun hT => ?_⟩
  · have hR := (hG.own x i ⟨hx, hin x hx⟩ hi).grad g hgr
    constructor
    · intro hD
      obtain ⟨j, hj, _⟩ := id hD
      exact denotes_same hG.ts hj (hG.st _ (hG.read g j hR hj)) hD
    · intro hD
      obtain ⟨j, hj, _⟩ := id hD
      exact denotes_same hG.ts.symm hj (hG.st _ (hG.read g j hR (hG.ts ▸ hj))).symm hD
  · rcases hT with hT | hT
    · exact hT hd
    · omega
  · rcases hT with hT | hT
    · exact hT hd
    · omega

theorem backward_consults {D : Nat → Prop} {h k : Heap F} {t : Nat} (hg : Graph h) (hd : DifferOn D h k)
    (hn : ∀ d, D d → ¬ Consults h t d) : SameEnd (Unaffected D t h k) (backward t h) (backward t k) := by
  by_cases ht : t < h.ts.length
  · have hb := peek_backward (P := scopeOf D t h k) ⟨.root, ht⟩ h k (glimpse_start hg hd hn)
    revert hb
    generalize backward t h = o
    generalize backward t k = o'
    intro hb
    match o, o', hb with
    | .ok _ H, .ok _ K, ⟨e, _, hG⟩ => exact ⟨e, left_of ht hg hG⟩
    | .throw _ H, .throw _ K, ⟨e, hG⟩ => exact ⟨e, left_of ht hg hG⟩
    | .ub _, .ub _, e => exact e
  · have h1 : h.ts[t]? = none := List.getElem?_eq_none (by omega)
    have h2 : k.ts[t]? = none := hd.tensors ▸ h1
    unfold backward
    simp only [M.bind_def, getT, h1, h2]
    rfl

end
end INNC
