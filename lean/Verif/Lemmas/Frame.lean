import Verif.Lemmas.Create
/-
What operations leave unchanged, on return and on throw.
-/
namespace INNC
open Spec
variable {F : Type}

/-! ### Outcomes with an invariant -/

/-- The outcome keeps `I` on return and on throw, and satisfies `Q` on return. -/
def Post {α : Type} (I : Heap F → Prop) (o : Out (Heap F) α) (Q : α → Heap F → Prop) : Prop :=
  match o with
  | .ok a h => I h ∧ Q a h
  | .throw _ h => I h
  | .ub _ => True

section
variable {α β : Type} {I : Heap F → Prop}

theorem post_bind {x : M F α} {f : α → M F β} {h : Heap F} {Q : α → Heap F → Prop} {R : β → Heap F → Prop}
    (hx : Post I (x h) Q) (hf : ∀ a h', I h' → Q a h' → Post I (f a h') R) : Post I ((x >>= f) h) R := by
  rw [M.bind_def]
  cases hxh : x h with
  | ok a h' => rw [hxh] at hx; exact hf a h' hx.1 hx.2
  | throw e h' => rw [hxh] at hx; exact hx
  | ub u => trivial

theorem post_pure {a : α} {h : Heap F} {Q : α → Heap F → Prop} (hI : I h) (hQ : Q a h) : Post I ((pure a : M F α) h) Q :=
  ⟨hI, hQ⟩

theorem post_mono {o : Out (Heap F) α} {Q R : α → Heap F → Prop} (h : Post I o Q) (hQR : ∀ a h, Q a h → R a h) :
    Post I o R := by
  cases o with
  | ok a h' => exact ⟨h.1, hQR _ _ h.2⟩
  | throw e h' => exact h
  | ub u => trivial

theorem post_true {o : Out (Heap F) α} {Q : α → Heap F → Prop} (h : Post I o Q) : Post I o fun _ _ => True :=
  post_mono h fun _ _ _ => trivial

theorem post_lift {r : Res α} {h : Heap F} (hI : I h) : Post I ((M.lift r : M F α) h) fun a _ => r = .ok a := by
  cases r with
  | ok a => exact ⟨hI, rfl⟩
  | throw e => exact hI
  | ub u => trivial

theorem post_expect {b : Bool} {h : Heap F} (hI : I h) : Post I ((expect b : M F Unit) h) fun _ _ => b = true := by
  cases b
  · exact hI
  · exact ⟨hI, rfl⟩

theorem post_raise {e : Exc} {h : Heap F} {Q : α → Heap F → Prop} (hI : I h) : Post I ((M.raise e : M F α) h) Q := hI
theorem post_undef {u : UB} {h : Heap F} {Q : α → Heap F → Prop} : Post I ((M.undef u : M F α) h) Q := trivial

theorem post_getT {t : Nat} {h : Heap F} (hI : I h) :
    Post I ((getT t : M F Impl) h) fun i h' => h' = h ∧ h.ts[t]? = some i := by
  unfold getT
  cases hi : h.ts[t]? with
  | none => trivial
  | some i => exact ⟨hI, rfl, rfl⟩

theorem post_getS {t : Nat} {h : Heap F} (hI : I h) :
    Post I ((getS t : M F (Storage F)) h) fun i h' => h' = h ∧ h.st[t]? = some i := by
  unfold getS
  cases hi : h.st[t]? with
  | none => trivial
  | some i => exact ⟨hI, rfl, rfl⟩

theorem post_keeps {R : Heap F → Heap F → Prop} {x : M F α} (hx : Keeps R x) {h : Heap F} (hI : I h)
    (hR : ∀ h', R h h' → I h') : Post I (x h) fun _ h' => R h h' := by
  have := hx h
  cases he : x h with
  | ok a h' => rw [he] at this; exact ⟨hR h' this, this⟩
  | throw e h' => rw [he] at this; exact hR h' this
  | ub u => trivial
end

/-! ### Stores to given storages -/

/-- Only the contents of storages in `D` differ; everything else, and the size of every storage, is the same. -/
structure Writes (D : Nat → Prop) (h h' : Heap F) : Prop where
  ts : h'.ts = h.ts
  gver : h'.gver = h.gver
  len : h'.st.length = h.st.length
  other : ∀ d, ¬ D d → h'.st[d]? = h.st[d]?
  shape : ∀ (d : Nat) (s : Storage F), h.st[d]? = some s →
    ∃ s', h'.st[d]? = some s' ∧ s'.dt = s.dt ∧ s'.size = s.size ∧ s'.blob.map List.length = s.blob.map List.length

instance (D : Nat → Prop) : Pre (F := F) (Writes D) where
  refl h := ⟨rfl, rfl, rfl, fun _ _ => rfl, fun _ s hs => ⟨s, hs, rfl, rfl, rfl⟩⟩
  trans {a b c} h1 h2 := by
    refine ⟨h2.ts.trans h1.ts, h2.gver.trans h1.gver, h2.len.trans h1.len,
      fun d hd => (h2.other d hd).trans (h1.other d hd), fun d s hs => ?_⟩
    obtain ⟨s1, e1, a1, b1, c1⟩ := h1.shape d s hs
    obtain ⟨s2, e2, a2, b2, c2⟩ := h2.shape d s1 e1
    exact ⟨s2, e2, a2.trans a1, b2.trans b1, c2.trans c1⟩

theorem Writes.mono {D E : Nat → Prop} {h h' : Heap F} (hw : Writes D h h') (hDE : ∀ d, D d → E d) : Writes E h h' :=
  ⟨hw.ts, hw.gver, hw.len, fun d hd => hw.other d fun h => hd (hDE d h), hw.shape⟩

theorem writes_set {D : Nat → Prop} {h : Heap F} {d : Nat} {s s' : Storage F} (hd : D d) (hs : h.st[d]? = some s)
    (h1 : s'.dt = s.dt) (h2 : s'.size = s.size) (h3 : s'.blob.map List.length = s.blob.map List.length) :
    Writes D h { h with st := h.st.set d s' } := by
  refine ⟨rfl, rfl, by simp, fun e he => ?_, fun e se hse => ?_⟩
  · exact List.getElem?_set_ne (fun hc : d = e => he (hc ▸ hd))
  · by_cases hde : d = e
    · subst hde
      rw [hs] at hse
      obtain rfl : s = se := by simpa using hse
      exact ⟨s', List.getElem?_set_self (getElem?_lt hs), h1, h2, h3⟩
    · exact ⟨se, by simpa [List.getElem?_set_ne hde] using hse, rfl, rfl, rfl⟩

theorem keeps_store {D : Nat → Prop} {t : Impl} (hd : D t.data) (ty : DType) (p : Nat) (v : Val F) :
    Keeps (Writes D) (store ty t p v) := by
  intro h
  unfold store
  rw [M.bind_def]
  unfold getS
  cases hs : h.st[t.data]? with
  | none => trivial
  | some s =>
    simp only
    cases hb : s.blob with
    | none => trivial
    | some cells =>
      simp only
      by_cases h1 : s.dt ≠ ty
      · rw [if_pos h1]; trivial
      · rw [if_neg h1]
        by_cases h2 : p < cells.length
        · rw [if_pos h2]; exact writes_set hd hs rfl rfl (by simp [hb])
        · rw [if_neg h2]; trivial

theorem keeps_zeroS [FOps F] {D : Nat → Prop} {d : Nat} (hd : D d) : Keeps (F := F) (Writes D) (zeroS d) := by
  intro h
  unfold zeroS
  rw [M.bind_def]
  unfold getS
  cases hs : h.st[d]? with
  | none => trivial
  | some s =>
    simp only
    cases hb : s.blob with
    | none => exact Pre.refl h
    | some cells => exact writes_set hd hs rfl rfl (by simp [hb])

section
variable [FOps F] {D : Nat → Prop}

/-- Solve a `Keeps (Writes D)` goal of a kernel body. -/
macro "keep" : tactic => `(tactic| repeat' first
  | exact keeps_pure _
  | exact keeps_undef _
  | exact keeps_raise _
  | exact keeps_lift _
  | exact keeps_expect _
  | exact keeps_getT _
  | exact keeps_getS _
  | exact keeps_load _ _ _
  | (apply keeps_store; assumption)
  | (apply keeps_zeroS; assumption)
  | (refine keeps_forEach fun _ => ?_)
  | (refine keeps_bind ?_ fun _ => ?_)
  | split)

theorem keeps_zipLoop {dst : Impl} (hd : D dst.data) (D' S L R : DType) (range : List Nat)
    (f : Val F → Val F → Res (Val F)) (l r : Impl) : Keeps (Writes D) (zipLoop D' S L R range f dst l r) := by
  unfold zipLoop; keep

theorem keeps_tensorAdd {dst : Impl} (hd : D dst.data) (L R : DType) (l r : Impl) :
    Keeps (F := F) (Writes D) (tensorAdd L R dst l r) := keeps_bind (keeps_lift _) fun _ => keeps_zipLoop hd _ _ _ _ _ _ _ _
theorem keeps_tensorSub {dst : Impl} (hd : D dst.data) (L R : DType) (l r : Impl) :
    Keeps (F := F) (Writes D) (tensorSub L R dst l r) := keeps_bind (keeps_lift _) fun _ => keeps_zipLoop hd _ _ _ _ _ _ _ _
theorem keeps_tensorMul {dst : Impl} (hd : D dst.data) (L R : DType) (l r : Impl) :
    Keeps (F := F) (Writes D) (tensorMul L R dst l r) := keeps_zipLoop hd _ _ _ _ _ _ _ _
theorem keeps_tensorDiv {dst : Impl} (hd : D dst.data) (L R : DType) (l r : Impl) :
    Keeps (F := F) (Writes D) (tensorDiv L R dst l r) := keeps_zipLoop hd _ _ _ _ _ _ _ _
theorem keeps_tensorCmp {dst : Impl} (hd : D dst.data) (op : COp) (L R : DType) (l r : Impl) :
    Keeps (F := F) (Writes D) (tensorCmp op L R dst l r) := keeps_zipLoop hd _ _ _ _ _ _ _ _
theorem keeps_tensorFill {dst : Impl} (hd : D dst.data) (T N : DType) (n : Impl) :
    Keeps (F := F) (Writes D) (tensorFill T N dst n) := by
  unfold tensorFill; keep
theorem keeps_eyeGo {dst : Impl} (hd : D dst.data) (T : DType) : ∀ l, Keeps (F := F) (Writes D) (eyeGo T dst l)
  | [] => keeps_pure _
  | i :: is => by
    unfold eyeGo
    have := keeps_eyeGo hd T is
    refine keeps_bind (keeps_lift _) fun _ => ?_
    refine keeps_bind (keeps_lift _) fun _ => ?_
    exact keeps_bind (keeps_store hd _ _ _) fun _ => this
theorem keeps_tensorEye {dst : Impl} (hd : D dst.data) (T : DType) : Keeps (F := F) (Writes D) (tensorEye T dst) := by
  unfold tensorEye
  split
  · exact keeps_eyeGo hd _ _
  · exact keeps_raise _
theorem keeps_copyLoop {dst : Impl} (hd : D dst.data) (T S : DType) (l : Impl) :
    Keeps (F := F) (Writes D) (copyLoop T S dst l) := by
  unfold copyLoop; keep
theorem keeps_accInto {dst : Impl} (hd : D dst.data) (T S : DType) (l : Impl) (sv : List Nat) :
    Keeps (F := F) (Writes D) (accInto T S dst l sv) := by
  unfold accInto; keep
theorem keeps_odo {R : Heap F → Heap F → Prop} [Pre R] {range : List Nat} {op : List Nat → M F Unit}
    (hop : ∀ sv, Keeps R (op sv)) : ∀ n sv, Keeps R (odo (M.undef .fuel) range op n sv)
  | 0, _ => keeps_undef _
  | n + 1, sv => by
    unfold odo
    split
    · exact keeps_pure _
    · exact keeps_bind (hop _) fun _ => keeps_odo hop n _
theorem keeps_sumBody {dst : Impl} (hd : D dst.data) (T S : DType) (l : Impl) :
    Keeps (F := F) (Writes D) (sumBody T S dst l) := by
  unfold sumBody
  split
  · exact keeps_odo (fun sv => keeps_accInto hd T S l sv) _ _
  · keep
theorem keeps_tensorSum {dst : Impl} (hd : D dst.data) (T S : DType) (l : Impl) :
    Keeps (F := F) (Writes D) (tensorSum T S dst l) := by
  unfold tensorSum
  split
  · exact keeps_pure _
  · exact keeps_sumBody hd _ _ _
theorem keeps_tensorMean {dst : Impl} (hd : D dst.data) (T S : DType) (l : Impl) :
    Keeps (F := F) (Writes D) (tensorMean T S dst l) := by
  unfold tensorMean
  split
  · exact keeps_pure _
  · have := keeps_sumBody (F := F) hd T S l
    refine keeps_bind (keeps_lift _) fun _ => keeps_bind this fun _ => ?_
    keep
theorem keeps_tensorMulAccF {dst : Impl} (hd : D dst.data) (T L R : DType) (l r : Impl) :
    Keeps (F := F) (Writes D) (tensorMulAccF T L R dst l r) := by
  unfold tensorMulAccF; keep
theorem keeps_tensorAbs {dst : Impl} (hd : D dst.data) (T S : DType) (l : Impl) (g : Option Impl)
    (hg : ∀ i, g = some i → D i.data) : Keeps (F := F) (Writes D) (tensorAbs T S dst l g) := by
  unfold tensorAbs
  cases g with
  | none => keep
  | some i => have := hg i rfl; keep
theorem keeps_tensorCat {dst : Impl} (hd : D dst.data) (T S : DType) (l : Impl) (o : Nat) :
    Keeps (F := F) (Writes D) (tensorCat T S dst l o) := by
  unfold tensorCat; keep
theorem keeps_tensorDivBackNum {dst : Impl} (hd : D dst.data) (T L R : DType) (l r : Impl) :
    Keeps (F := F) (Writes D) (tensorDivBackNum T L R dst l r) := by
  unfold tensorDivBackNum; keep
theorem keeps_tensorDivBackDen {dst : Impl} (hd : D dst.data) (T L : DType) (l r s : Impl) :
    Keeps (F := F) (Writes D) (tensorDivBackDen T L dst l r s) := by
  unfold tensorDivBackDen; keep

/-- Stateful loops. -/
theorem keeps_runAllS {σ : Type} {R : Heap F → Heap F → Prop} [Pre R] {op : List Nat → StateT σ (M F) Unit}
    (hop : ∀ sv s, Keeps R ((op sv).run s)) : ∀ (l : List (List Nat)) (s : σ), Keeps R ((runAll op l).run s)
  | [], s => keeps_pure _
  | x :: l, s => by
    show Keeps R ((op x >>= fun _ => runAll op l).run s)
    rw [StateT.run_bind]
    exact keeps_bind (hop x s) fun a => keeps_runAllS hop l a.2

theorem keeps_tensorExtreme {dst : Impl} (hd : D dst.data) (k : COp) (T : DType) (l : Impl) (g : Option Impl)
    (hg : ∀ i, g = some i → D i.data) : Keeps (F := F) (Writes D) (tensorExtreme k T dst l g) := by
  unfold tensorExtreme
  refine keeps_bind (keeps_load _ _ _) fun _ => keeps_bind (keeps_store hd _ _ _) fun _ => ?_
  refine keeps_bind ?_ fun a => ?_
  · rw [forEachWith_eq]
    refine keeps_runAllS (fun sv s => ?_) _ _
    simp only [StateT.run_bind, StateT.run_monadLift, bind_assoc]
    refine keeps_bind (keeps_bind (keeps_lift _) fun _ => keeps_load _ _ _) fun t => ?_
    try simp only [pure_bind]
    refine keeps_bind (keeps_load _ _ _) fun cur => ?_
    try simp only [pure_bind]
    refine keeps_bind (keeps_lift _) fun k => ?_
    try simp only [pure_bind]
    cases k
    · simp only [Bool.false_eq_true, if_false, StateT.run_bind, StateT.run_monadLift, bind_assoc]
      exact keeps_bind (keeps_store hd _ _ _) fun _ => keeps_pure _
    · exact keeps_pure _
  · cases g with
    | none => exact keeps_pure _
    | some i =>
      have := hg i rfl
      keep
end

/-! ### Invariants kept by everything that happens to new objects -/

/-- `I` says something about the objects of `h0` only, so changes to objects that `h0` does not have keep it. -/
structure FrameInv (h0 : Heap F) (I : Heap F → Prop) : Prop where
  st_len : ∀ {h}, I h → h0.st.length ≤ h.st.length
  ts_len : ∀ {h}, I h → h0.ts.length ≤ h.ts.length
  mono : ∀ {h h'}, I h →
    (∀ t, t < h0.ts.length → h'.ts[t]? = h.ts[t]?) → (∀ d, d < h0.st.length → h'.st[d]? = h.st[d]?) → I h'

theorem extends_len {h h' : Heap F} (he : Extends h h') : h.st.length ≤ h'.st.length ∧ h.ts.length ≤ h'.ts.length := by
  constructor
  · by_contra hc
    have hlt : h'.st.length < h.st.length := by omega
    have := he.st _ _ (List.getElem?_eq_getElem hlt)
    rw [List.getElem?_eq_none (Nat.le_refl _)] at this
    simp at this
  · by_contra hc
    have hlt : h'.ts.length < h.ts.length := by omega
    have := he.ts _ _ (List.getElem?_eq_getElem hlt)
    rw [List.getElem?_eq_none (Nat.le_refl _)] at this
    simp at this

theorem frameInv_extends (h0 : Heap F) : FrameInv h0 (Extends h0) where
  st_len := fun h => (extends_len h).1
  ts_len := fun h => (extends_len h).2
  mono := fun h h1 h2 => ⟨fun t i hi => by rw [h1 t (getElem?_lt hi)]; exact h.ts t i hi,
    fun d s hs => by rw [h2 d (getElem?_lt hs)]; exact h.st d s hs⟩

theorem Spec.Preserves.refl (h : Heap F) : Preserves h h := ⟨fun _ i hi => ⟨i, hi, rfl, rfl, rfl⟩, fun _ _ h => h⟩
theorem Spec.Preserves.trans {a b c : Heap F} (h1 : Preserves a b) (h2 : Preserves b c) : Preserves a c where
  ts := fun t i hi => by
    obtain ⟨j, hj, e1, e2, e3⟩ := h1.ts t i hi
    obtain ⟨k, hk, f1, f2, f3⟩ := h2.ts t j hj
    exact ⟨k, hk, f1.trans e1, f2.trans e2, f3.trans e3⟩
  st := fun d s hs => h2.st d s (h1.st d s hs)
instance : Pre (F := F) Preserves := ⟨Preserves.refl, Preserves.trans⟩
theorem Spec.Extends.preserves {a b : Heap F} (h : Extends a b) : Preserves a b :=
  ⟨fun t i hi => ⟨i, h.ts t i hi, rfl, rfl, rfl⟩, h.st⟩

theorem frameInv_preserves (h0 : Heap F) : FrameInv h0 (Preserves h0) where
  st_len := fun {h} he => by
    by_contra hc
    have hlt : h.st.length < h0.st.length := by omega
    have := he.st _ _ (List.getElem?_eq_getElem hlt)
    rw [List.getElem?_eq_none (Nat.le_refl _)] at this
    simp at this
  ts_len := fun {h} he => by
    by_contra hc
    have hlt : h.ts.length < h0.ts.length := by omega
    obtain ⟨_, this, _⟩ := he.ts _ _ (List.getElem?_eq_getElem hlt)
    rw [List.getElem?_eq_none (Nat.le_refl _)] at this
    simp at this
  mono := fun h h1 h2 => ⟨fun t i hi => by rw [h1 t (getElem?_lt hi)]; exact h.ts t i hi,
    fun d s hs => by rw [h2 d (getElem?_lt hs)]; exact h.st d s hs⟩

theorem preserves_denotes {h h' : Heap F} (hp : Preserves h h') {t : Nat} {dt : DType} {sizes : List Nat}
    {f : List Nat → Val F} (hd : Denotes h t dt sizes f) : Denotes h' t dt sizes f := by
  obtain ⟨i, hi, h1, h2, hr⟩ := hd
  obtain ⟨j, hj, e1, e2, e3⟩ := hp.ts t i hi
  refine ⟨j, hj, e1.trans h1, by rw [e2]; exact h2, (Reads.flags ?_ e1 e2 e3)⟩
  exact hr.extends fun s hs => hp.st _ s hs

section
variable {h0 : Heap F} {I : Heap F → Prop} (hI : FrameInv h0 I)
include hI

/-- A new tensor object on a new storage. -/
def IsNew (h0 : Heap F) (t : Nat) (h : Heap F) : Prop :=
  h0.ts.length ≤ t ∧ ∃ i, h.ts[t]? = some i ∧ h0.st.length ≤ i.data

theorem FrameInv.newS {h : Heap F} (hh : I h) (s : Storage F) :
    Post I (newS s h) fun d h' => h0.st.length ≤ d ∧ d < h'.st.length ∧ h'.ts = h.ts ∧
      (∀ (e : Nat) (x : Storage F), h.st[e]? = some x → h'.st[e]? = some x) := by
  refine ⟨hI.mono hh (fun t _ => rfl) (fun d hd => ?_), hI.st_len hh, by simp, rfl, fun e x hx => ?_⟩
  · have := hI.st_len hh
    simp only; rw [List.getElem?_append_left (by omega)]
  · simp only; rw [List.getElem?_append_left (getElem?_lt hx)]; exact hx

theorem FrameInv.newT {h : Heap F} (hh : I h) (i : Impl) :
    Post I (newT i h) fun t h' => h0.ts.length ≤ t ∧ h'.ts[t]? = some i ∧ h'.st = h.st ∧
      (∀ (e : Nat) (x : Impl), h.ts[e]? = some x → h'.ts[e]? = some x) := by
  refine ⟨hI.mono hh (fun t ht => ?_) (fun d hd => rfl), hI.ts_len hh, by simp, rfl, fun e x hx => ?_⟩
  · have := hI.ts_len hh
    simp only; rw [List.getElem?_append_left (by omega)]
  · simp only; rw [List.getElem?_append_left (getElem?_lt hx)]; exact hx

theorem FrameInv.setT {h : Heap F} (hh : I h) {t : Nat} (ht : h0.ts.length ≤ t) (i : Impl) :
    Post I (setT t i h) fun _ h' => h' = { h with ts := h.ts.set t i } := by
  refine ⟨hI.mono hh (fun u hu => ?_) (fun d hd => rfl), rfl⟩
  simp only; rw [List.getElem?_set_ne (by omega)]

theorem FrameInv.writes {h h' : Heap F} {D : Nat → Prop} (hh : I h) (hw : Writes D h h')
    (hD : ∀ d, D d → h0.st.length ≤ d) : I h' :=
  hI.mono hh (fun t _ => by rw [hw.ts]) fun d hd => hw.other d fun hc => by have := hD d hc; omega

theorem FrameInv.kernel {α : Type} {x : M F α} {D : Nat → Prop} (hx : Keeps (Writes D) x)
    (hD : ∀ d, D d → h0.st.length ≤ d) {h : Heap F} (hh : I h) :
    Post I (x h) fun _ h' => h'.ts = h.ts :=
  post_mono (post_keeps hx hh fun _ hw => hI.writes hh hw hD) fun _ _ hw => hw.ts

theorem FrameInv.create {h : Heap F} (hh : I h) (dt : DType) (v : Layout) (b : Bool) :
    Post I (create dt v b h) fun t h' => IsNew h0 t h' ∧
      (∀ (e : Nat) (x : Impl), h.ts[e]? = some x → h'.ts[e]? = some x) := by
  unfold INNC.create mkStorage
  refine post_bind (Q := fun d h' => h0.st.length ≤ d ∧ h'.ts = h.ts) ?_ fun d h' hh' hd => ?_
  · split
    · split
      · exact post_mono (hI.newS hh _) fun _ _ h => ⟨h.1, h.2.2.1⟩
      · exact post_raise hh
    · exact post_mono (hI.newS hh _) fun _ _ h => ⟨h.1, h.2.2.1⟩
  · exact post_mono (hI.newT hh' _) fun t h'' ht => ⟨⟨ht.1, _, ht.2.1, hd.1⟩, fun e x hx => ht.2.2.2 e x (by rw [hd.2]; exact hx)⟩

theorem FrameInv.setGradFn {h : Heap F} (hh : I h) {t : Nat} (ht : IsNew h0 t h) (k : BackKind) (ins : List Nat) :
    Post I (Tensor.setGradFn t k ins h) fun _ h' => IsNew h0 t h' := by
  unfold Tensor.setGradFn
  refine post_bind (post_getT hh) fun i h' hh' hi => ?_
  obtain ⟨rfl, hi⟩ := hi
  refine post_mono (hI.setT hh' ht.1 _) fun _ h'' e => ⟨ht.1, ?_⟩
  subst e
  refine ⟨_, List.getElem?_set_self (getElem?_lt hi), ?_⟩
  obtain ⟨_, j, hj, hd⟩ := ht
  rw [hi] at hj
  obtain rfl : i = j := by simpa using hj
  exact hd
end

end INNC
