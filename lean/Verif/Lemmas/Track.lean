import Verif.Lemmas.Calls
/-
What becomes of the type, layout, storage and `requires_grad` flag of tensors.
-/
namespace INNC
open Spec Tensor
variable {F : Type}

/-- Only floating-point tensors require grad. -/
def FlagOK (h : Heap F) : Prop := ∀ (t : Nat) (i : Impl), h.ts[t]? = some i → i.requiresGrad = true → i.dtype.isFloat = true

/-- Every tensor of `h0` still has the same type, layout, storage and flag. -/
def Same (h0 h : Heap F) : Prop := ∀ (t : Nat) (i : Impl), h0.ts[t]? = some i →
  ∃ j, h.ts[t]? = some j ∧ j.dtype = i.dtype ∧ j.view = i.view ∧ j.data = i.data ∧ j.requiresGrad = i.requiresGrad

theorem Same.refl (h : Heap F) : Same h h := fun _ i hi => ⟨i, hi, rfl, rfl, rfl, rfl⟩
theorem Same.trans {a b c : Heap F} (h1 : Same a b) (h2 : Same b c) : Same a c := fun t i hi => by
  obtain ⟨j, hj, a1, a2, a3, a4⟩ := h1 t i hi
  obtain ⟨k, hk, b1, b2, b3, b4⟩ := h2 t j hj
  exact ⟨k, hk, b1.trans a1, b2.trans a2, b3.trans a3, b4.trans a4⟩
theorem Same.of_ts {a b : Heap F} (h : b.ts = a.ts) : Same a b := fun t i hi => ⟨i, by rw [h]; exact hi, rfl, rfl, rfl, rfl⟩
theorem Same.len {a b : Heap F} (h : Same a b) : a.ts.length ≤ b.ts.length := by
  by_contra hc
  obtain ⟨j, hj, _⟩ := h b.ts.length _ (List.getElem?_eq_getElem (by omega))
  rw [List.getElem?_eq_none (Nat.le_refl _)] at hj
  simp at hj
theorem Same.at {a b : Heap F} (h : Same a b) {t : Nat} {i j : Impl} (hi : a.ts[t]? = some i) (hj : b.ts[t]? = some j) :
    j.dtype = i.dtype ∧ j.view = i.view ∧ j.data = i.data ∧ j.requiresGrad = i.requiresGrad := by
  obtain ⟨k, hk, rest⟩ := h t i hi
  rw [hj] at hk
  obtain rfl : j = k := by simpa using hk
  exact rest

/-- The invariant of this file. -/
def Trk (h0 h : Heap F) : Prop := FlagOK h ∧ Same h0 h

theorem Trk.of_ts {h0 a b : Heap F} (ht : Trk h0 a) (h : b.ts = a.ts) : Trk h0 b :=
  ⟨fun t i hi => ht.1 t i (by rw [← h]; exact hi), ht.2.trans (Same.of_ts h)⟩

theorem Trk.newT {h0 h : Heap F} (ht : Trk h0 h) {i : Impl} (hi : i.requiresGrad = false) :
    Post (Trk h0) (newT i h) fun t h' => h'.ts[t]? = some i ∧ h.ts.length ≤ t ∧
      ∀ (e : Nat) (x : Impl), h.ts[e]? = some x → h'.ts[e]? = some x := by
  have key : ∀ (e : Nat) (x : Impl), h.ts[e]? = some x → (h.ts ++ [i])[e]? = some x := fun e x hx => by
    rw [List.getElem?_append_left (getElem?_lt hx)]; exact hx
  refine ⟨⟨fun t j hj hr => ?_, fun t j hj => ?_⟩, by simp, Nat.le_refl _, key⟩
  · by_cases hlt : t < h.ts.length
    · have hj : (h.ts ++ [i])[t]? = some j := hj
      rw [List.getElem?_append_left hlt] at hj
      exact ht.1 t j hj hr
    · have hj : (h.ts ++ [i])[t]? = some j := hj
      rw [List.getElem?_append_right (by omega)] at hj
      have : j = i := by
        cases hk : t - h.ts.length with
        | zero => simpa [hk] using hj.symm
        | succ n => simp [hk] at hj
      rw [this, hi] at hr
      simp at hr
  · obtain ⟨k, hk, rest⟩ := ht.2 t j hj
    exact ⟨k, key t k hk, rest⟩

theorem Trk.newS {h0 h : Heap F} (ht : Trk h0 h) (s : Storage F) :
    Post (Trk h0) (newS s h) fun _ h' => h'.ts = h.ts := ⟨ht.of_ts rfl, rfl⟩

theorem Trk.createOn {h0 h : Heap F} (ht : Trk h0 h) (dt : DType) (v : Layout) (d : Nat) :
    Post (Trk h0) (createOn dt v d h) fun t h' => h'.ts[t]? = some ⟨dt, v, d, none, false, false, none⟩ ∧ h.ts.length ≤ t ∧
      ∀ (e : Nat) (x : Impl), h.ts[e]? = some x → h'.ts[e]? = some x := ht.newT rfl

theorem Trk.create {h0 h : Heap F} (ht : Trk h0 h) (dt : DType) (v : Layout) (b : Bool) :
    Post (Trk h0) (create dt v b h) fun t h' => ∃ d, h'.ts[t]? = some ⟨dt, v, d, none, false, false, none⟩ ∧ h.ts.length ≤ t ∧
      ∀ (e : Nat) (x : Impl), h.ts[e]? = some x → h'.ts[e]? = some x := by
  unfold INNC.create mkStorage
  refine post_bind (Q := fun d h' => h'.ts = h.ts) ?_ fun d h' hh' hd => ?_
  · split
    · split
      · exact ht.newS _
      · exact post_raise ht
    · exact ht.newS _
  · exact post_mono (hh'.createOn dt v d) fun t h'' hq => ⟨d, hq.1, by rw [← hd]; exact hq.2.1,
      fun e x hx => hq.2.2 e x (by rw [hd]; exact hx)⟩

theorem Trk.kernel {α : Type} {h0 h : Heap F} (ht : Trk h0 h) {x : M F α} (hx : Keeps (Writes fun _ => True) x) :
    Post (Trk h0) (x h) fun _ h' => h'.ts = h.ts :=
  post_mono (post_keeps hx ht fun _ hw => ht.of_ts hw.ts) fun _ _ hw => hw.ts

theorem Trk.setT {h0 h : Heap F} (ht : Trk h0 h) {t : Nat} {i j : Impl} (hi : h.ts[t]? = some i)
    (e1 : j.dtype = i.dtype) (e2 : j.view = i.view) (e3 : j.data = i.data) (e4 : j.requiresGrad = i.requiresGrad) :
    Post (Trk h0) (setT t j h) fun _ h' => h' = { h with ts := h.ts.set t j } ∧ Same h h' := by
  have hs : Same h { h with ts := h.ts.set t j } := fun u k hk => by
    by_cases htu : t = u
    · subst htu
      rw [hi] at hk
      obtain rfl : i = k := by simpa using hk
      exact ⟨j, List.getElem?_set_self (getElem?_lt hi), e1, e2, e3, e4⟩
    · exact ⟨k, by simpa [List.getElem?_set_ne htu] using hk, rfl, rfl, rfl, rfl⟩
  refine ⟨⟨fun u k hk hr => ?_, ht.2.trans hs⟩, rfl, hs⟩
  by_cases htu : t = u
  · subst htu
    have hk : (h.ts.set t j)[t]? = some k := hk
    rw [List.getElem?_set_self (getElem?_lt hi)] at hk
    obtain rfl : j = k := by simpa using hk
    rw [e1]
    exact ht.1 t i hi (e4 ▸ hr)
  · have hk : (h.ts.set t j)[u]? = some k := hk
    rw [List.getElem?_set_ne htu] at hk
    exact ht.1 u k hk hr

/-- A tensor of type `dt` that requires grad or not. -/
def Res' (r : Nat) (dt : DType) (b : Bool) (h : Heap F) : Prop :=
  ∃ j, h.ts[r]? = some j ∧ j.dtype = dt ∧ j.requiresGrad = b

theorem Res'.of_ts {r : Nat} {dt : DType} {b : Bool} {h h' : Heap F} (hr : Res' r dt b h) (e : h'.ts = h.ts) :
    Res' r dt b h' := by unfold Res' at *; rw [e]; exact hr
theorem Res'.ext {r : Nat} {dt : DType} {b : Bool} {h h' : Heap F} (hr : Res' r dt b h)
    (e : ∀ (k : Nat) (x : Impl), h.ts[k]? = some x → h'.ts[k]? = some x) : Res' r dt b h' := by
  obtain ⟨j, hj, rest⟩ := hr
  exact ⟨j, e _ _ hj, rest⟩
theorem Res'.same {r : Nat} {dt : DType} {b : Bool} {h h' : Heap F} (hr : Res' r dt b h) (e : Same h h') :
    Res' r dt b h' := by
  obtain ⟨j, hj, rfl, rfl⟩ := hr
  obtain ⟨k, hk, e1, _, _, e4⟩ := e _ _ hj
  exact ⟨k, hk, e1, e4⟩

theorem Trk.setGradFn {h0 h : Heap F} (ht : Trk h0 h) {r : Nat} {dt : DType} (hr : Res' r dt false h)
    (hnew : h0.ts.length ≤ r) (hf : dt.isFloat = true) (k : BackKind) (ins : List Nat) :
    Post (Trk h0) (Tensor.setGradFn r k ins h) fun _ h' => Res' r dt true h' := by
  unfold Tensor.setGradFn
  obtain ⟨j, hj, rfl, hb⟩ := hr
  rw [M.bind_ok (getT_ok hj)]
  refine ⟨⟨fun u x hx hxr => ?_, fun u x hx => ?_⟩, ⟨_, List.getElem?_set_self (getElem?_lt hj), rfl, rfl⟩⟩
  · by_cases hru : r = u
    · subst hru
      have hx : (h.ts.set r _)[r]? = some x := hx
      rw [List.getElem?_set_self (getElem?_lt hj)] at hx
      obtain rfl := (Option.some.inj hx)
      exact hf
    · have hx : (h.ts.set r _)[u]? = some x := hx
      rw [List.getElem?_set_ne hru] at hx
      exact ht.1 u x hx hxr
  · obtain ⟨y, hy, rest⟩ := ht.2 u x hx
    refine ⟨y, ?_, rest⟩
    show (h.ts.set r _)[u]? = some y
    rw [List.getElem?_set_ne (by have := getElem?_lt hx; omega)]
    exact hy

section
variable [FOps F] {h0 h : Heap F} (ht : Trk h0 h)
include ht

/-- The tensor `r` was made by this call: it has type `dt` and flag `b`. -/
def Made (h0 : Heap F) (r : Nat) (dt : DType) (b : Bool) (h : Heap F) : Prop := h0.ts.length ≤ r ∧ Res' r dt b h

theorem Trk.create' (dt : DType) (v : Layout) (b : Bool) :
    Post (Trk h0) (INNC.create dt v b h) fun t h' => Made h0 t dt false h' ∧
      ∀ (e : Nat) (x : Impl), h.ts[e]? = some x → h'.ts[e]? = some x :=
  post_mono (ht.create dt v b) fun t h' ⟨d, h1, h2, h3⟩ => ⟨⟨by have := ht.2.len; omega, _, h1, rfl, rfl⟩, h3⟩

theorem Trk.createScalar (dt : DType) (v : Val F) :
    Post (Trk h0) (Tensor.createScalar dt v h) fun t h' => Made h0 t dt false h' ∧
      ∀ (e : Nat) (x : Impl), h.ts[e]? = some x → h'.ts[e]? = some x := by
  unfold Tensor.createScalar
  refine post_bind (ht.create' _ _ _) fun t h1 hh1 hn => ?_
  refine post_bind (post_getT hh1) fun i h2 hh2 hi => ?_
  obtain ⟨rfl, hi⟩ := hi
  refine post_bind (hh2.kernel (keeps_store trivial _ _ _)) fun _ h3 hh3 e => ?_
  exact post_pure hh3 ⟨⟨hn.1.1, hn.1.2.of_ts e⟩, fun k x hx => by rw [e]; exact hn.2 k x hx⟩

theorem Trk.full (s : List Nat) (nt : DType) (v : Val F) (dt : DType) :
    Post (Trk h0) (Tensor.full s nt v dt h) fun t h' => Made h0 t dt false h' ∧
      ∀ (e : Nat) (x : Impl), h.ts[e]? = some x → h'.ts[e]? = some x := by
  unfold Tensor.full
  refine post_bind (ht.createScalar _ _) fun o h1 hh1 ho => ?_
  refine post_bind (hh1.create' _ _ _) fun t h2 hh2 hn => ?_
  refine post_bind (post_getT hh2) fun i h3 hh3 hi => ?_
  obtain ⟨rfl, hi⟩ := hi
  refine post_bind (post_getT hh3) fun j h4 hh4 hj => ?_
  obtain ⟨rfl, hj⟩ := hj
  refine post_bind (hh4.kernel (keeps_tensorFill trivial _ _ _)) fun _ h5 hh5 e => ?_
  exact post_pure hh5 ⟨⟨hn.1.1, hn.1.2.of_ts e⟩, fun k x hx => by rw [e]; exact hn.2 k x (ho.2 k x hx)⟩

theorem Trk.ones (s : List Nat) (dt : DType) :
    Post (Trk h0) (Tensor.ones s dt h) fun t h' => Made h0 t dt false h' ∧
      ∀ (e : Nat) (x : Impl), h.ts[e]? = some x → h'.ts[e]? = some x := ht.full s .i8 (.i 1) dt

theorem Trk.zeros (s : List Nat) (dt : DType) :
    Post (Trk h0) (Tensor.zeros s dt h) fun t h' => Made h0 t dt false h' ∧
      ∀ (e : Nat) (x : Impl), h.ts[e]? = some x → h'.ts[e]? = some x := by
  unfold Tensor.zeros
  refine post_bind (ht.create' _ _ _) fun t h1 hh1 hn => ?_
  refine post_bind (post_getT hh1) fun i h2 hh2 hi => ?_
  obtain ⟨rfl, hi⟩ := hi
  refine post_bind (hh2.kernel (keeps_zeroS trivial)) fun _ h3 hh3 e => ?_
  exact post_pure hh3 ⟨⟨hn.1.1, hn.1.2.of_ts e⟩, fun k x hx => by rw [e]; exact hn.2 k x hx⟩

theorem Trk.zerosLike (t : Nat) :
    Post (Trk h0) (Tensor.zerosLike t h) fun r h' => (∃ dt, Made h0 r dt false h') ∧
      ∀ (e : Nat) (x : Impl), h.ts[e]? = some x → h'.ts[e]? = some x := by
  unfold Tensor.zerosLike
  refine post_bind (post_getT ht) fun i h2 hh2 hi => ?_
  obtain ⟨rfl, hi⟩ := hi
  exact post_mono (hh2.zeros _ _) fun _ _ h => ⟨⟨_, h.1⟩, h.2⟩

theorem Trk.onesLike (t : Nat) :
    Post (Trk h0) (Tensor.onesLike t h) fun r h' => (∃ dt, Made h0 r dt false h') ∧
      ∀ (e : Nat) (x : Impl), h.ts[e]? = some x → h'.ts[e]? = some x := by
  unfold Tensor.onesLike
  refine post_bind (post_getT ht) fun i h2 hh2 hi => ?_
  obtain ⟨rfl, hi⟩ := hi
  exact post_mono (hh2.ones _ _) fun _ _ h => ⟨⟨_, h.1⟩, h.2⟩

theorem Trk.eye (n m : Nat) (dt : DType) :
    Post (Trk h0) (Tensor.eye n m dt h) fun t h' => Made h0 t dt false h' := by
  unfold Tensor.eye
  refine post_bind (ht.create' _ _ _) fun t h1 hh1 hn => ?_
  refine post_bind (post_getT hh1) fun i h2 hh2 hi => ?_
  obtain ⟨rfl, hi⟩ := hi
  refine post_bind (hh2.kernel (keeps_zeroS trivial)) fun _ h3 hh3 e => ?_
  refine post_bind (hh3.kernel (keeps_tensorEye trivial _)) fun _ h4 hh4 e' => ?_
  exact post_pure hh4 ⟨hn.1.1, (hn.1.2.of_ts e).of_ts e'⟩

theorem Trk.fromBlob (data : List (Val F)) (s : List Nat) (dt : DType) :
    Post (Trk h0) (Tensor.fromBlob data s dt h) fun t h' => Made h0 t dt false h' := by
  unfold Tensor.fromBlob
  refine post_bind (ht.create' _ _ _) fun t h1 hh1 hn => ?_
  refine post_bind (post_getT hh1) fun i h2 hh2 hi => ?_
  obtain ⟨rfl, hi⟩ := hi
  dsimp only
  split
  · trivial
  · refine post_bind (hh2.kernel (keeps_blobGo trivial _ _ _)) fun _ h3 hh3 e => ?_
    exact post_pure hh3 ⟨hn.1.1, hn.1.2.of_ts e⟩

theorem Trk.randn (rnd : Nat → F) (s : List Nat) (dt : DType) :
    Post (Trk h0) (Tensor.randn rnd s dt h) fun t h' => Made h0 t .f32 false h' := by
  unfold Tensor.randn
  refine post_bind (post_expect ht) fun _ h' hh' _ => ?_
  refine post_bind (hh'.create' _ _ _) fun t h1 hh1 hn => ?_
  refine post_bind (post_getT hh1) fun i h2 hh2 hi => ?_
  obtain ⟨rfl, hi⟩ := hi
  refine post_bind (post_getS hh2) fun s h3 hh3 hs => ?_
  obtain ⟨rfl, hs⟩ := hs
  refine post_bind (hh3.kernel (keeps_randGo trivial _ _ _ _)) fun _ h3 hh3 e => ?_
  exact post_pure hh3 ⟨hn.1.1, hn.1.2.of_ts e⟩

theorem Trk.ofInit (tree : InitTree F) : Post (Trk h0) (Tensor.ofInit tree h) fun r h' =>
    ∀ t, r = some t → ∃ dt, Made h0 t dt false h' := by
  unfold Tensor.ofInit
  refine post_bind (post_reads (keeps_lift _) ht) fun init h1 hh1 e => ?_
  subst e
  unfold Tensor.createImpl
  split
  · exact post_pure hh1 (fun _ he => nomatch he)
  · cases init.dtype with
    | none => exact post_undef
    | some dt =>
      refine post_bind (hh1.create' _ _ _) fun t h2 hh2 hn => ?_
      refine post_bind (post_getT hh2) fun i h3 hh3 hi => ?_
      obtain ⟨rfl, hi⟩ := hi
      refine post_bind (post_getS hh3) fun s h4 hh4 hs => ?_
      obtain ⟨rfl, hs⟩ := hs
      refine post_bind (Q := fun _ h' => h'.ts = h4.ts) ⟨hh4.of_ts rfl, rfl⟩ fun _ h5 hh5 e => post_pure hh5 fun u hu => ?_
      obtain rfl : t = u := by simpa using hu
      exact ⟨dt, hn.1.1, hn.1.2.of_ts e⟩

/-- The flag of a tensor (`false` if there is none). -/
def flag (h : Heap F) (t : Nat) : Bool := match h.ts[t]? with | some i => i.requiresGrad | none => false
omit [FOps F] ht in
theorem flag_some {h : Heap F} {t : Nat} {i : Impl} (hi : h.ts[t]? = some i) : flag h t = i.requiresGrad := by
  unfold flag; rw [hi]

omit [FOps F] ht in
theorem Same.flag {a b : Heap F} (h : Same a b) {t : Nat} {i : Impl} (hi : a.ts[t]? = some i) :
    INNC.flag b t = INNC.flag a t := by
  obtain ⟨j, hj, _, _, _, e⟩ := h t i hi
  rw [flag_some hi, flag_some hj, e]

theorem Trk.clone {t : Nat} {i0 : Impl} (ht0 : h.ts[t]? = some i0) :
    Post (Trk h0) (Tensor.clone t h) fun r h' => Made h0 r i0.dtype i0.requiresGrad h' := by
  unfold Tensor.clone
  rw [M.bind_ok (getT_ok ht0)]
  refine post_bind (ht.create' _ _ _) fun r h2 hh2 hn => ?_
  refine post_bind (post_getT hh2) fun j h3 hh3 hj => ?_
  obtain ⟨rfl, hj⟩ := hj
  refine post_bind (hh3.kernel (keeps_copyLoop trivial _ _ _)) fun _ h4 hh4 e => ?_
  cases hb : i0.requiresGrad
  · exact post_pure hh4 ⟨hn.1.1, hn.1.2.of_ts e⟩
  · exact post_bind (hh4.setGradFn (hn.1.2.of_ts e) hn.1.1 (ht.1 _ _ ht0 hb) .clone [t]) fun _ h5 hh5 hn' =>
      post_pure hh5 ⟨hn.1.1, hn'⟩

theorem Trk.toType {t : Nat} {i0 : Impl} (ht0 : h.ts[t]? = some i0) (dt : DType) :
    Post (Trk h0) (Tensor.toType t dt h) fun r h' => Res' r dt i0.requiresGrad h' := by
  unfold Tensor.toType
  rw [M.bind_ok (getT_ok ht0)]
  split
  · exact post_raise ht
  rename_i hc
  split
  · rename_i hd
    exact post_pure ht ⟨i0, ht0, hd.symm, rfl⟩
  refine post_bind (ht.create' _ _ _) fun r h2 hh2 hn => ?_
  refine post_bind (post_getT hh2) fun j h3 hh3 hj => ?_
  obtain ⟨rfl, hj⟩ := hj
  refine post_bind (hh3.kernel (keeps_copyLoop trivial _ _ _)) fun _ h4 hh4 e => ?_
  cases hb : i0.requiresGrad
  · exact post_pure hh4 (hn.1.2.of_ts e)
  · have hf : dt.isFloat = true := by
      rw [hb] at hc
      revert hc
      cases dt <;> simp [DType.isInt, DType.isFloat, DType.idx, DType.floatStart]
    exact post_bind (hh4.setGradFn (hn.1.2.of_ts e) hn.1.1 hf .clone [t]) fun _ h5 hh5 hn' => post_pure hh5 hn'

omit [FOps F] ht in
theorem larger_float (a b : DType) : (a.isFloat = true ∨ b.isFloat = true) → (DType.larger a b).isFloat = true := by
  cases a <;> cases b <;> decide

theorem Trk.applyNoGradBinary {k : Kernel F}
    (hk : ∀ (L R : DType) (d l r : Impl), Keeps (Writes fun _ => True) (k L R d l r)) {l r : Nat} {i0 j0 : Impl}
    (hi0 : h.ts[l]? = some i0) (hj0 : h.ts[r]? = some j0) (o : Bool) :
    Post (Trk h0) (Tensor.applyNoGradBinary k l r o h) fun t h' => Made h0 t (DType.larger i0.dtype j0.dtype) false h' ∧
      ∀ (e : Nat) (x : Impl), h.ts[e]? = some x → h'.ts[e]? = some x := by
  unfold Tensor.applyNoGradBinary
  rw [M.bind_ok (getT_ok hi0), M.bind_ok (getT_ok hj0)]
  refine post_bind (post_reads (keeps_lift _) ht) fun range h3 hh3 e => ?_
  subst e
  refine post_bind (hh3.create' _ _ _) fun t h4 hh4 hn => ?_
  refine post_bind (post_getT hh4) fun d h5 hh5 hd => ?_
  obtain ⟨rfl, hd⟩ := hd
  have key : ∀ (L R : DType) (a b : Impl), Post (Trk h0) ((k L R d a b >>= fun _ => (pure t : M F Nat)) h5)
      fun t h' => Made h0 t (DType.larger i0.dtype j0.dtype) false h' ∧
        ∀ (e : Nat) (x : Impl), h3.ts[e]? = some x → h'.ts[e]? = some x := fun L R a b =>
    post_bind (hh5.kernel (hk _ _ _ _ _)) fun _ h6 hh6 e => post_pure hh6 ⟨⟨hn.1.1, hn.1.2.of_ts e⟩,
      fun k x hx => by rw [e]; exact hn.2 k x hx⟩
  split
  · split
    · exact key _ _ _ _
    · exact key _ _ _ _
  · exact key _ _ _ _

theorem Trk.applyBinary {k : Kernel F}
    (hk : ∀ (L R : DType) (d l r : Impl), Keeps (Writes fun _ => True) (k L R d l r)) (b : BackKind) {l r : Nat}
    {i0 j0 : Impl} (hi0 : h.ts[l]? = some i0) (hj0 : h.ts[r]? = some j0) (o : Bool) :
    Post (Trk h0) (Tensor.applyBinary k b l r o h) fun t h' =>
      Made h0 t (DType.larger i0.dtype j0.dtype) (i0.requiresGrad || j0.requiresGrad) h' := by
  unfold Tensor.applyBinary
  refine post_bind (ht.applyNoGradBinary hk hi0 hj0 o) fun t h1 hh1 hn => ?_
  rw [M.bind_ok (getT_ok (hn.2 _ _ hi0)), M.bind_ok (getT_ok (hn.2 _ _ hj0))]
  cases hb : (i0.requiresGrad || j0.requiresGrad)
  · rw [if_pos (by revert hb; cases i0.requiresGrad <;> cases j0.requiresGrad <;> simp)]
    exact post_pure hh1 hn.1
  · rw [if_neg (by revert hb; cases i0.requiresGrad <;> cases j0.requiresGrad <;> simp)]
    refine post_bind (hh1.setGradFn hn.1.2 hn.1.1 (larger_float _ _ ?_) _ _) fun _ h5 hh5 hn' =>
      post_pure hh5 ⟨hn.1.1, hn'⟩
    rcases Bool.or_eq_true _ _ ▸ hb with h1 | h1
    · exact .inl (ht.1 _ _ hi0 h1)
    · exact .inr (ht.1 _ _ hj0 h1)

theorem Trk.addT {l r : Nat} {i0 j0 : Impl} (hi0 : h.ts[l]? = some i0) (hj0 : h.ts[r]? = some j0) :
    Post (Trk h0) (Tensor.addT l r h) fun t h' =>
      Made h0 t (DType.larger i0.dtype j0.dtype) (i0.requiresGrad || j0.requiresGrad) h' :=
  ht.applyBinary (fun _ _ _ _ _ => keeps_tensorAdd trivial _ _ _ _) _ hi0 hj0 _
theorem Trk.subT {l r : Nat} {i0 j0 : Impl} (hi0 : h.ts[l]? = some i0) (hj0 : h.ts[r]? = some j0) :
    Post (Trk h0) (Tensor.subT l r h) fun t h' =>
      Made h0 t (DType.larger i0.dtype j0.dtype) (i0.requiresGrad || j0.requiresGrad) h' :=
  ht.applyBinary (fun _ _ _ _ _ => keeps_tensorSub trivial _ _ _ _) _ hi0 hj0 _
theorem Trk.mulT {l r : Nat} {i0 j0 : Impl} (hi0 : h.ts[l]? = some i0) (hj0 : h.ts[r]? = some j0) :
    Post (Trk h0) (Tensor.mulT l r h) fun t h' =>
      Made h0 t (DType.larger i0.dtype j0.dtype) (i0.requiresGrad || j0.requiresGrad) h' :=
  ht.applyBinary (fun _ _ _ _ _ => keeps_tensorMul trivial _ _ _ _) _ hi0 hj0 _
theorem Trk.divT {l r : Nat} {i0 j0 : Impl} (hi0 : h.ts[l]? = some i0) (hj0 : h.ts[r]? = some j0) :
    Post (Trk h0) (Tensor.divT l r h) fun t h' =>
      Made h0 t (DType.larger i0.dtype j0.dtype) (i0.requiresGrad || j0.requiresGrad) h' :=
  ht.applyBinary (fun _ _ _ _ _ => keeps_tensorDiv trivial _ _ _ _) _ hi0 hj0 _

theorem Trk.negT {t : Nat} {i0 : Impl} (hi0 : h.ts[t]? = some i0) :
    Post (Trk h0) (Tensor.negT t h) fun r h' => Made h0 r (DType.larger .i32 i0.dtype) i0.requiresGrad h' := by
  unfold Tensor.negT
  refine post_bind (ht.createScalar _ _) fun z h1 hh1 hz => ?_
  obtain ⟨⟨_, j, hj, hjd, hjr⟩, hext⟩ := hz
  refine post_mono (hh1.subT hj (hext _ _ hi0)) fun r h' hr => ?_
  rw [hjd, hjr] at hr
  exact hr

theorem Trk.cmp (op : COp) (l r : Nat) :
    Post (Trk h0) (Tensor.cmp op l r h) fun t h' => Made h0 t .i8 false h' := by
  unfold Tensor.cmp
  refine post_bind (post_getT ht) fun i h1 hh1 hi => ?_
  obtain ⟨rfl, hi⟩ := hi
  refine post_bind (post_getT hh1) fun j h2 hh2 hj => ?_
  obtain ⟨rfl, hj⟩ := hj
  refine post_bind (post_reads (keeps_lift _) hh2) fun range h3 hh3 e => ?_
  subst e
  refine post_bind (hh3.create' _ _ _) fun t h4 hh4 hn => ?_
  refine post_bind (post_getT hh4) fun d h5 hh5 hd => ?_
  obtain ⟨rfl, hd⟩ := hd
  exact post_bind (hh5.kernel (keeps_tensorCmp trivial _ _ _ _ _)) fun _ h6 hh6 e =>
    post_pure hh6 ⟨hn.1.1, hn.1.2.of_ts e⟩

omit [FOps F] ht in
theorem sumType_float {t : DType} (h : t.isFloat = true) : (sumType t).isFloat = true := by
  revert h; cases t <;> decide

theorem Trk.sumLike {k : DType → DType → Impl → Impl → M F Unit}
    (hk : ∀ (T S : DType) (d l : Impl), Keeps (Writes fun _ => True) (k T S d l)) (b : BackKind) {t : Nat}
    {i0 : Impl} (hi0 : h.ts[t]? = some i0) :
    Post (Trk h0) ((do
      let i ← getT t
      let tf ← Tensor.zeros [] (sumType i.dtype)
      k (sumType i.dtype) i.dtype (← getT tf) i
      if i.requiresGrad then Tensor.setGradFn tf b [t]
      return tf : M F Nat) h) fun r h' => Made h0 r (sumType i0.dtype) i0.requiresGrad h' := by
  rw [M.bind_ok (getT_ok hi0)]
  refine post_bind (ht.zeros _ _) fun r h2 hh2 hn => ?_
  refine post_bind (post_getT hh2) fun j h3 hh3 hj => ?_
  obtain ⟨rfl, hj⟩ := hj
  refine post_bind (hh3.kernel (hk _ _ _ _)) fun _ h4 hh4 e => ?_
  cases hb : i0.requiresGrad
  · exact post_pure hh4 ⟨hn.1.1, hn.1.2.of_ts e⟩
  · exact post_bind (hh4.setGradFn (hn.1.2.of_ts e) hn.1.1 (sumType_float (ht.1 _ _ hi0 hb)) b [t]) fun _ h5 hh5 hn' =>
      post_pure hh5 ⟨hn.1.1, hn'⟩

theorem Trk.sumT {t : Nat} {i0 : Impl} (hi0 : h.ts[t]? = some i0) :
    Post (Trk h0) (Tensor.sumT t h) fun r h' => Made h0 r (sumType i0.dtype) i0.requiresGrad h' :=
  ht.sumLike (k := tensorSum) (fun _ _ _ _ => keeps_tensorSum trivial _ _ _) .sum hi0
theorem Trk.meanT {t : Nat} {i0 : Impl} (hi0 : h.ts[t]? = some i0) :
    Post (Trk h0) (Tensor.meanT t h) fun r h' => Made h0 r (sumType i0.dtype) i0.requiresGrad h' :=
  ht.sumLike (k := tensorMean) (fun _ _ _ _ => keeps_tensorMean trivial _ _ _) .mean hi0

theorem Trk.absT {t : Nat} {i0 : Impl} (hi0 : h.ts[t]? = some i0) :
    Post (Trk h0) (Tensor.absT t h) fun r h' => Made h0 r i0.dtype i0.requiresGrad h' := by
  unfold Tensor.absT
  rw [M.bind_ok (getT_ok hi0)]
  refine post_bind (ht.create' _ _ _) fun r h2 hh2 hn => ?_
  cases hb : i0.requiresGrad
  · refine post_bind (post_getT hh2) fun j h3 hh3 hj => ?_
    obtain ⟨rfl, hj⟩ := hj
    exact post_bind (hh3.kernel (keeps_tensorAbs trivial _ _ _ _ (by simp))) fun _ h4 hh4 e =>
      post_pure hh4 ⟨hn.1.1, hn.1.2.of_ts e⟩
  · refine post_bind (hh2.create' _ _ _) fun g h3 hh3 hg => ?_
    refine post_bind (post_getT hh3) fun j h4 hh4 hj => ?_
    obtain ⟨rfl, hj⟩ := hj
    refine post_bind (post_getT hh4) fun k h5 hh5 hk => ?_
    obtain ⟨rfl, hk⟩ := hk
    refine post_bind (hh5.kernel (keeps_tensorAbs trivial _ _ _ _ fun _ _ => trivial)) fun _ h6 hh6 e => ?_
    exact post_bind (hh6.setGradFn ((hn.1.2.ext hg.2).of_ts e) hn.1.1 (ht.1 _ _ hi0 hb) _ _) fun _ h7 hh7 hn' =>
      post_pure hh7 ⟨hn.1.1, hn'⟩

theorem Trk.extreme (o : COp) {t : Nat} {i0 : Impl} (hi0 : h.ts[t]? = some i0) :
    Post (Trk h0) (Tensor.extreme o t h) fun r h' => Made h0 r i0.dtype i0.requiresGrad h' := by
  unfold Tensor.extreme
  rw [M.bind_ok (getT_ok hi0)]
  refine post_bind (ht.zeros _ _) fun r h2 hh2 hn => ?_
  cases hb : i0.requiresGrad
  · refine post_bind (post_getT hh2) fun j h3 hh3 hj => ?_
    obtain ⟨rfl, hj⟩ := hj
    exact post_bind (hh3.kernel (keeps_tensorExtreme trivial _ _ _ _ (by simp))) fun _ h4 hh4 e =>
      post_pure hh4 ⟨hn.1.1, hn.1.2.of_ts e⟩
  · refine post_bind (hh2.zerosLike _) fun g h3 hh3 hg => ?_
    refine post_bind (post_getT hh3) fun j h4 hh4 hj => ?_
    obtain ⟨rfl, hj⟩ := hj
    refine post_bind (post_getT hh4) fun k h5 hh5 hk => ?_
    obtain ⟨rfl, hk⟩ := hk
    refine post_bind (hh5.kernel (keeps_tensorExtreme trivial _ _ _ _ fun _ _ => trivial)) fun _ h6 hh6 e => ?_
    exact post_bind (hh6.setGradFn ((hn.1.2.ext hg.2).of_ts e) hn.1.1 (ht.1 _ _ hi0 hb) _ _) fun _ h7 hh7 hn' =>
      post_pure hh7 ⟨hn.1.1, hn'⟩

omit [FOps F] ht in
theorem getAll_spec : ∀ (l : List Nat) (h : Heap F),
    match getAll l h with
    | .ok is h' => h' = h ∧ l.map (fun t => h.ts[t]?) = is.map some
    | .throw _ h' => h' = h
    | .ub _ => True
  | [], h => by simp [getAll, M.pure_run]
  | t :: l, h => by
    unfold getAll
    rw [M.bind_def]
    unfold getT
    cases hi : h.ts[t]? with
    | none => trivial
    | some i =>
      simp only
      rw [M.bind_def]
      have := getAll_spec l h
      cases hg : getAll l h with
      | ok is h' =>
        rw [hg] at this
        obtain ⟨rfl, e⟩ := this
        exact ⟨rfl, by simp only [List.map_cons, hi, e]⟩
      | throw e h' => rw [hg] at this; exact this
      | ub u => trivial

omit [FOps F] ht in
theorem foldl_larger_float : ∀ (is : List Impl) (d : DType), (d.isFloat = true ∨ ∃ i ∈ is, i.dtype.isFloat = true) →
    (is.foldl (fun d i => DType.larger d i.dtype) d).isFloat = true
  | [], d, h => by
    rcases h with h | ⟨i, hi, _⟩
    · exact h
    · simp at hi
  | i :: is, d, h => by
    rw [List.foldl_cons]
    apply foldl_larger_float is
    rcases h with h | ⟨j, hj, hf⟩
    · exact .inl (larger_float _ _ (.inl h))
    · rcases List.mem_cons.1 hj with rfl | hj
      · exact .inl (larger_float _ _ (.inr hf))
      · exact .inr ⟨j, hj, hf⟩

omit [FOps F] ht in
theorem any_flags {h : Heap F} : ∀ (l : List Nat) (is : List Impl), l.map (fun t => h.ts[t]?) = is.map some →
    (l.any fun t => INNC.flag h t) = is.any fun i => i.requiresGrad
  | [], [], _ => rfl
  | [], _ :: _, he => by simp at he
  | _ :: _, [], he => by simp at he
  | t :: l, j :: js, he => by
    simp only [List.map_cons, List.cons.injEq] at he
    rw [List.any_cons, List.any_cons, flag_some he.1, any_flags l js he.2]

theorem Trk.catT (ts : List Nat) (d : Nat) :
    Post (Trk h0) (Tensor.catT ts d h) fun r h' => ∃ dt, Made h0 r dt (ts.any fun t => INNC.flag h t) h' := by
  unfold Tensor.catT
  cases ts with
  | nil => exact post_undef
  | cons t0 rest =>
    refine post_bind (post_getT ht) fun i h1 hh1 hi => ?_
    obtain ⟨rfl, hi⟩ := hi
    refine post_bind (post_reads (keeps_expect _) hh1) fun _ h2 hh2 e => ?_
    subst e
    refine post_bind (Q := fun is h' => h' = h2 ∧ rest.map (fun t => h2.ts[t]?) = is.map some) ?_
      fun others h3 hh3 e => ?_
    · have := getAll_spec rest h2
      cases hg : getAll rest h2 with
      | ok is h' => rw [hg] at this; exact ⟨by rw [this.1]; exact hh2, this⟩
      | throw e h' => rw [hg] at this; show Trk h0 h'; rw [this]; exact hh2
      | ub u => trivial
    obtain ⟨rfl, hmap⟩ := e
    have hany : ((t0 :: rest).any fun t => INNC.flag h3 t) = (i :: others).any fun i => i.requiresGrad := by
      rw [List.any_cons, List.any_cons, flag_some hi]
      rw [any_flags _ _ hmap]
    refine post_bind (post_reads (keeps_catCheck _ _ _) hh3) fun _ h4 hh4 e => ?_
    subst e
    refine post_bind (hh4.create' _ _ _) fun r h5 hh5 hn => ?_
    refine post_bind (post_getT hh5) fun j h6 hh6 hj => ?_
    obtain ⟨rfl, hj⟩ := hj
    refine post_bind (hh6.kernel (keeps_catGo trivial _ _ _ _)) fun _ h7 hh7 e => ?_
    rw [hany]
    cases hb : (i :: others).any fun i => i.requiresGrad
    · exact post_pure hh7 ⟨_, hn.1.1, hn.1.2.of_ts e⟩
    · refine post_bind (hh7.setGradFn (hn.1.2.of_ts e) hn.1.1 ?_ _ _) fun _ h8 hh8 hn' =>
        post_pure hh8 ⟨_, hn.1.1, hn'⟩
      obtain ⟨x, hx, hxr⟩ := List.any_eq_true.1 hb
      apply foldl_larger_float
      refine .inr ⟨x, hx, ?_⟩
      have : (some x) ∈ (t0 :: rest).map (fun t => h4.ts[t]?) := by
        rw [List.map_cons, hi, hmap, ← List.map_cons]
        exact List.mem_map_of_mem hx
      obtain ⟨t, _, ht'⟩ := List.mem_map.1 this
      exact hh4.1 _ _ ht' hxr

theorem Trk.shareGradStorage {r frm : Nat} {dt : DType} {b : Bool} (hr : Res' r dt b h) :
    Post (Trk h0) (Tensor.shareGradStorage r frm h) fun _ h' => Res' r dt b h' := by
  unfold Tensor.shareGradStorage
  refine post_bind (post_getT ht) fun f h1 hh1 hf => ?_
  obtain ⟨rfl, hf⟩ := hf
  have rest : ∀ (g : Nat) (H : Heap F), Trk h0 H → Res' r dt b H → Post (Trk h0) ((do
      let gi ← getT g
      let t ← getT r
      let g' ← INNC.createOn t.dtype t.view gi.data
      let t ← getT r
      INNC.setT r { t with grad := some g' } : M F Unit) H) fun _ h' => Res' r dt b h' := by
    intro g H hH hr
    refine post_bind (post_getT hH) fun gi h2 hh2 hgi => ?_
    obtain ⟨rfl, hgi⟩ := hgi
    refine post_bind (post_getT hh2) fun t h3 hh3 ht => ?_
    obtain ⟨rfl, ht⟩ := ht
    refine post_bind (hh3.createOn _ _ _) fun g' h4 hh4 hg' => ?_
    have hr4 := hr.ext hg'.2.2
    refine post_bind (post_getT hh4) fun t' h5 hh5 ht' => ?_
    obtain ⟨rfl, ht'⟩ := ht'
    exact post_mono (hh5.setT ht' rfl rfl rfl rfl) fun _ h6 e => hr4.same e.2
  cases f.grad with
  | some g => exact rest g _ hh1 hr
  | none =>
    refine post_bind (hh1.create' _ _ _) fun g h2 hh2 hg => ?_
    have hr2 := hr.ext hg.2
    refine post_bind (post_getT hh2) fun f' h3 hh3 hf' => ?_
    obtain ⟨rfl, hf'⟩ := hf'
    refine post_bind (hh3.setT hf' rfl rfl rfl rfl) fun _ h4 hh4 e => ?_
    exact rest _ _ hh4 (hr2.same e.2)

theorem Trk.makeView {base : Nat} {b0 : Impl} (hb0 : h.ts[base]? = some b0) (dt : DType) (hdt : b0.dtype = dt)
    (v : Layout) (d : Nat) :
    Post (Trk h0) (Tensor.makeView dt v d base h) fun r h' => Made h0 r dt b0.requiresGrad h' := by
  unfold Tensor.makeView
  refine post_bind (ht.createOn _ _ _) fun r h1 hh1 hr => ?_
  have hlen := ht.2.len
  have hres : Made h0 r dt false h1 := ⟨by omega, _, hr.1, rfl, rfl⟩
  rw [M.bind_ok (getT_ok (hr.2.2 _ _ hb0))]
  cases hb : b0.requiresGrad
  · exact post_pure hh1 hres
  · refine post_bind (hh1.setGradFn hres.2 hres.1 (hdt ▸ ht.1 _ _ hb0 hb) _ _) fun _ h3 hh3 h3r => ?_
    exact post_bind (hh3.shareGradStorage h3r) fun _ h4 hh4 h4r => post_pure hh4 ⟨hres.1, h4r⟩

theorem Trk.slice {t : Nat} {i0 : Impl} (hi0 : h.ts[t]? = some i0) (s : Str) :
    Post (Trk h0) (Tensor.slice t s h) fun r h' => Made h0 r i0.dtype i0.requiresGrad h' := by
  unfold Tensor.slice
  rw [M.bind_ok (getT_ok hi0)]
  refine post_bind (post_reads (keeps_lift _) ht) fun v h2 hh2 e => ?_
  subst e
  exact hh2.makeView hi0 _ rfl _ _

theorem Trk.transpose {t : Nat} {i0 : Impl} (hi0 : h.ts[t]? = some i0) (a b : Nat) :
    Post (Trk h0) (Tensor.transpose t a b h) fun r h' => Made h0 r i0.dtype i0.requiresGrad h' := by
  unfold Tensor.transpose
  rw [M.bind_ok (getT_ok hi0)]
  refine post_bind (post_reads (keeps_lift _) ht) fun v h2 hh2 e => ?_
  subst e
  exact hh2.makeView hi0 _ rfl _ _

theorem Trk.reshapeSizes {t : Nat} {i : Impl} (hi0 : h.ts[t]? = some i) (h00 : h0.ts[t]? = some i) (s : List Nat) :
    Post (Trk h0) (Tensor.reshapeSizes t s h) fun r h' => Made h0 r i.dtype i.requiresGrad h' := by
  unfold Tensor.reshapeSizes
  dsimp only
  rw [M.bind_ok (getT_ok hi0)]
  refine post_bind (post_reads (keeps_expect _) ht) fun _ h2 hh2 e => ?_
  subst e
  have rest : ∀ H : Heap F, Trk h0 H → Post (Trk h0) ((if i.view.sizes.length < i.view.strides.length then M.undef .vecOob
    else do
    let iso ← M.lift (isometry i.view.sizes i.view.strides)
    if iso then
      let strides ← if s.length ≠ 0 then do
          let last ← M.lift (vecAt i.view.strides (i.view.strides.length - 1))
          pure (scaledStrides last s)
        else pure i.view.strides
      Tensor.makeView i.dtype ⟨s, strides, i.view.offset⟩ i.data t
    else do
      let m ← Tensor.clone t
      let mi ← getT m
      Tensor.makeView i.dtype (Layout.contig s) mi.data m : M F Nat) H)
      fun r h' => Made h0 r i.dtype i.requiresGrad h' := by
    intro H hH
    obtain ⟨k, hk, e1, _, _, e4⟩ := hH.2 t i h00
    split
    · trivial
    refine post_bind (post_reads (keeps_lift _) hH) fun iso h3 hh3 e => ?_
    subst e
    rw [← e4]
    split
    · split
      · refine post_bind (post_reads (keeps_lift _) hh3) fun _ h4 hh4 e => ?_
        subst e
        exact hh4.makeView hk _ e1 _ _
      · exact hh3.makeView hk _ e1 _ _
    · refine post_bind (hh3.clone hk) fun m h4 hh4 hm => ?_
      obtain ⟨_, j, hj, j1, j2⟩ := hm
      rw [M.bind_ok (getT_ok hj), ← j2]
      exact hh4.makeView hj _ (j1.trans e1) _ _
  split
  · refine post_bind (hh2.makeView hi0 _ rfl _ _) fun r h3 hh3 hr => ?_
    rw [M.bind_ok (M.pure_run _ _)]
    cases hq : i.requiresGrad
    · exact post_pure hh3 (by rw [hq] at hr; exact hr)
    · have := rest h3 hh3
      rw [hq] at this
      exact this
  · exact rest h2 hh2

theorem Trk.reshape {t : Nat} {i : Impl} (hi0 : h.ts[t]? = some i) (h00 : h0.ts[t]? = some i) (s : List Int) :
    Post (Trk h0) (Tensor.reshape t s h) fun r h' => Made h0 r i.dtype i.requiresGrad h' := by
  unfold Tensor.reshape
  rw [M.bind_ok (getT_ok hi0)]
  refine post_bind (post_reads (keeps_lift _) ht) fun v h2 hh2 e => ?_
  subst e
  exact hh2.reshapeSizes hi0 h00 _

theorem Trk.reshapeAs {t : Nat} {i : Impl} (hi0 : h.ts[t]? = some i) (h00 : h0.ts[t]? = some i) (u : Nat) :
    Post (Trk h0) (Tensor.reshapeAs t u h) fun r h' => Made h0 r i.dtype i.requiresGrad h' := by
  unfold Tensor.reshapeAs
  refine post_bind (post_getT ht) fun j h1 hh1 hj => ?_
  obtain ⟨rfl, hj⟩ := hj
  exact hh1.reshapeSizes hi0 h00 _

theorem Trk.detach {t : Nat} {i : Impl} (hi0 : h.ts[t]? = some i) :
    Post (Trk h0) (Tensor.detach t h) fun r h' => Made h0 r i.dtype false h' := by
  unfold Tensor.detach
  rw [M.bind_ok (getT_ok hi0)]
  have := ht.2.len
  exact post_mono (ht.createOn _ _ _) fun r h' hr => ⟨by omega, _, hr.1, rfl, rfl⟩
end
end INNC
