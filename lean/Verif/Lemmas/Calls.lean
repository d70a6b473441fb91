import Verif.Lemmas.Frame
import Verif.Model.Call
/-
Every function that is not meant to change existing tensors leaves them alone.
-/
namespace INNC
open Spec Tensor
variable {F : Type}

/-! ### Functions that do not throw -/

def NoThrow {α : Type} (x : M F α) : Prop := ∀ h e h', x h ≠ .throw e h'

theorem noThrow_bind {α β : Type} {x : M F α} {f : α → M F β} (hx : NoThrow x) (hf : ∀ a, NoThrow (f a)) :
    NoThrow (x >>= f) := by
  intro h e h' hc
  rw [M.bind_def] at hc
  cases hxh : x h with
  | ok a h1 => rw [hxh] at hc; exact hf a h1 e h' hc
  | throw e1 h1 => exact hx h e1 h1 hxh
  | ub u => rw [hxh] at hc; cases hc
theorem noThrow_pure {α : Type} (a : α) : NoThrow (pure a : M F α) := fun _ _ _ h => nomatch h
theorem noThrow_getT (t : Nat) : NoThrow (getT t : M F Impl) := fun h _ _ hc => by
  unfold getT at hc; cases hi : h.ts[t]? <;> simp [hi] at hc
theorem noThrow_getS (t : Nat) : NoThrow (getS t : M F (Storage F)) := fun h _ _ hc => by
  unfold getS at hc; cases hi : h.st[t]? <;> simp [hi] at hc
theorem noThrow_setS (t : Nat) (s : Storage F) : NoThrow (setS t s : M F Unit) := fun _ _ _ h => nomatch h
theorem noThrow_setT (t : Nat) (s : Impl) : NoThrow (setT t s : M F Unit) := fun _ _ _ h => nomatch h
theorem noThrow_zeroS [FOps F] (d : Nat) : NoThrow (zeroS d : M F Unit) := by
  unfold zeroS
  refine noThrow_bind (noThrow_getS d) fun s => ?_
  cases s.blob with
  | none => exact noThrow_pure _
  | some c => exact noThrow_setS _ _
theorem noThrow_zeroGrad [FOps F] (t : Nat) : NoThrow (zeroGrad t : M F Unit) := by
  unfold zeroGrad
  refine noThrow_bind (noThrow_getT t) fun i => ?_
  cases i.grad with
  | none => exact noThrow_pure _
  | some g => exact noThrow_bind (noThrow_getT g) fun gi => noThrow_zeroS _
theorem noThrow_release (t : Nat) : NoThrow (release t : M F Unit) := by
  unfold release releaseS
  exact noThrow_bind (noThrow_getT t) fun i => noThrow_bind (noThrow_getS _) fun s => noThrow_setS _ _
theorem noThrow_none' {α : Type} {x : M F α} (hx : NoThrow x) : NoThrow (none' x) := by
  unfold none'
  exact noThrow_bind hx fun _ => noThrow_pure _

/-! ### Reading and printing -/
section
variable [FOps F] {R : Heap F → Heap F → Prop} [Pre R]

theorem keeps_elemToString (i : Impl) (o : Int) : Keeps (F := F) R (elemToString i o) := by
  unfold elemToString loadByteOff
  refine keeps_bind ?_ fun _ => keeps_pure _
  split
  · exact keeps_undef _
  · exact keeps_load _ _ _

theorem keeps_strLoop {sub : Int → M F Str} (hs : ∀ o, Keeps R (sub o)) (e : Nat) (st off : Int) (n : Nat) :
    ∀ k, Keeps R (strLoop sub e st off n k)
  | 0 => keeps_pure _
  | k + 1 => by
    unfold strLoop
    exact keeps_bind (hs _) fun _ => keeps_bind (keeps_strLoop hs e st off n k) fun _ => keeps_pure _

theorem keeps_strHelper (i : Impl) : ∀ (ns : List Nat) (sts : List Int) (o : Int), Keeps (F := F) R (strHelper i ns sts o)
  | [], _, o => by unfold strHelper; exact keeps_elemToString i o
  | _ :: _, [], _ => by unfold strHelper; exact keeps_undef _
  | n :: ns, st :: sts, o => by
    unfold strHelper
    exact keeps_bind (keeps_strLoop (fun o => keeps_strHelper i ns sts o) _ _ _ _ _) fun _ => keeps_pure _

theorem keeps_toString (t : Nat) : Keeps (F := F) R (Tensor.toString t) := by
  unfold Tensor.toString
  refine keeps_bind (keeps_getT _) fun i => ?_
  split
  · exact keeps_elemToString _ _
  · exact keeps_strHelper _ _ _ _

theorem keeps_loadBoolByte (i : Impl) (p : Nat) : Keeps (F := F) R (loadBoolByte i p) := by
  unfold loadBoolByte
  refine keeps_bind (keeps_getS _) fun s => ?_
  split
  · exact keeps_undef _
  · split
    · exact keeps_undef _
    · exact keeps_undef _
    · split
      · exact keeps_pure _
      · exact keeps_pure _
      · exact keeps_undef _

theorem keeps_allGo (i : Impl) : ∀ n sv, Keeps (F := F) R (allGo i n sv)
  | 0, _ => keeps_undef _
  | n + 1, sv => by
    unfold allGo
    split
    · exact keeps_pure _
    · refine keeps_bind (keeps_lift _) fun p => keeps_bind (keeps_loadBoolByte _ _) fun b => ?_
      split
      · exact keeps_pure _
      · exact keeps_allGo i n _

theorem keeps_allT (t : Nat) : Keeps (F := F) R (allT t) := by
  unfold allT
  refine keeps_bind (keeps_getT _) fun i => ?_
  split
  · exact keeps_pure _
  · split
    · exact keeps_allGo _ _ _
    · exact keeps_bind (keeps_lift _) fun _ => keeps_loadBoolByte _ _

theorem keeps_stride (t : Nat) : Keeps (F := F) R (Tensor.stride t) := by
  unfold Tensor.stride
  exact keeps_bind (keeps_getT _) fun _ => keeps_raise _

theorem keeps_gradOf (t : Nat) : Keeps (F := F) R (gradOf t) := by
  unfold gradOf
  exact keeps_bind (keeps_getT _) fun _ => keeps_pure _

theorem keeps_none' {α : Type} {x : M F α} (hx : Keeps R x) : Keeps R (none' x) := by
  unfold none'
  exact keeps_bind hx fun _ => keeps_pure _
end

/-! ### Operations that return new tensors -/
section
variable [FOps F] {h0 : Heap F} {I : Heap F → Prop} (hI : FrameInv h0 I)
include hI

omit hI in
theorem IsNew.data {h0 h : Heap F} {t : Nat} {i : Impl} (hn : IsNew h0 t h) (hi : h.ts[t]? = some i) :
    h0.st.length ≤ i.data := by
  obtain ⟨_, j, hj, hd⟩ := hn
  rw [hi] at hj
  obtain rfl : i = j := by simpa using hj
  exact hd

omit hI in
theorem IsNew.ts {h0 h h' : Heap F} {t : Nat} (hn : IsNew h0 t h) (e : h'.ts = h.ts) : IsNew h0 t h' := by
  unfold IsNew at *
  rw [e]
  exact hn

omit hI in
theorem IsNew.ext {h0 h h' : Heap F} {t : Nat} (hn : IsNew h0 t h)
    (e : ∀ (k : Nat) (x : Impl), h.ts[k]? = some x → h'.ts[k]? = some x) : IsNew h0 t h' := by
  obtain ⟨h1, i, h2, h3⟩ := hn
  exact ⟨h1, i, e _ _ h2, h3⟩

/-- Stores into a new tensor. -/
theorem FrameInv.into {α : Type} {x : M F α} {h : Heap F} {t : Nat} {i : Impl} (hh : I h) (hn : IsNew h0 t h)
    (hi : h.ts[t]? = some i) (hx : ∀ D : Nat → Prop, D i.data → Keeps (Writes D) x) :
    Post I (x h) fun _ h' => h'.ts = h.ts :=
  hI.kernel (hx (fun d => d = i.data) rfl) (fun d hd => by subst hd; exact hn.data hi) hh

theorem FrameInv.createScalar {h : Heap F} (hh : I h) (dt : DType) (v : Val F) :
    Post I (Tensor.createScalar dt v h) fun t h' => IsNew h0 t h' ∧
      (∀ (e : Nat) (x : Impl), h.ts[e]? = some x → h'.ts[e]? = some x) := by
  unfold Tensor.createScalar
  refine post_bind (hI.create hh _ _ _) fun t h1 hh1 hn => ?_
  refine post_bind (post_getT hh1) fun i h2 hh2 hi => ?_
  obtain ⟨rfl, hi⟩ := hi
  refine post_bind (hI.into hh2 hn.1 hi fun D hD => keeps_store hD _ _ _) fun _ h3 hh3 e => ?_
  exact post_pure hh3 ⟨hn.1.ts e, fun k x hx => by rw [e]; exact hn.2 k x hx⟩

theorem FrameInv.full {h : Heap F} (hh : I h) (s : List Nat) (nt : DType) (v : Val F) (dt : DType) :
    Post I (Tensor.full s nt v dt h) fun t h' => IsNew h0 t h' := by
  unfold Tensor.full
  refine post_bind (hI.createScalar hh _ _) fun o h1 hh1 ho => ?_
  refine post_bind (hI.create hh1 _ _ _) fun t h2 hh2 hn => ?_
  refine post_bind (post_getT hh2) fun i h3 hh3 hi => ?_
  obtain ⟨rfl, hi⟩ := hi
  refine post_bind (post_getT hh3) fun j h4 hh4 hj => ?_
  obtain ⟨rfl, hj⟩ := hj
  refine post_bind (hI.into hh4 hn.1 hi fun D hD => keeps_tensorFill hD _ _ _) fun _ h5 hh5 e => ?_
  exact post_pure hh5 (hn.1.ts e)

theorem FrameInv.ones {h : Heap F} (hh : I h) (s : List Nat) (dt : DType) :
    Post I (Tensor.ones s dt h) fun t h' => IsNew h0 t h' := hI.full hh s .i8 (.i 1) dt

theorem FrameInv.zeros {h : Heap F} (hh : I h) (s : List Nat) (dt : DType) :
    Post I (Tensor.zeros s dt h) fun t h' => IsNew h0 t h' ∧
      (∀ (e : Nat) (x : Impl), h.ts[e]? = some x → h'.ts[e]? = some x) := by
  unfold Tensor.zeros
  refine post_bind (hI.create hh _ _ _) fun t h1 hh1 hn => ?_
  refine post_bind (post_getT hh1) fun i h2 hh2 hi => ?_
  obtain ⟨rfl, hi⟩ := hi
  refine post_bind (hI.into hh2 hn.1 hi fun D hD => keeps_zeroS hD) fun _ h3 hh3 e => ?_
  exact post_pure hh3 ⟨hn.1.ts e, fun k x hx => by rw [e]; exact hn.2 k x hx⟩

theorem FrameInv.zerosLike {h : Heap F} (hh : I h) (t : Nat) :
    Post I (Tensor.zerosLike t h) fun t h' => IsNew h0 t h' ∧
      (∀ (e : Nat) (x : Impl), h.ts[e]? = some x → h'.ts[e]? = some x) := by
  unfold Tensor.zerosLike
  refine post_bind (post_getT hh) fun i h2 hh2 hi => ?_
  obtain ⟨rfl, hi⟩ := hi
  exact hI.zeros hh2 _ _

theorem FrameInv.onesLike {h : Heap F} (hh : I h) (t : Nat) :
    Post I (Tensor.onesLike t h) fun t h' => IsNew h0 t h' := by
  unfold Tensor.onesLike
  refine post_bind (post_getT hh) fun i h2 hh2 hi => ?_
  obtain ⟨rfl, hi⟩ := hi
  exact hI.ones hh2 _ _

theorem FrameInv.eye {h : Heap F} (hh : I h) (n m : Nat) (dt : DType) :
    Post I (Tensor.eye n m dt h) fun t h' => IsNew h0 t h' := by
  unfold Tensor.eye
  refine post_bind (hI.create hh _ _ _) fun t h1 hh1 hn => ?_
  refine post_bind (post_getT hh1) fun i h2 hh2 hi => ?_
  obtain ⟨rfl, hi⟩ := hi
  refine post_bind (hI.into hh2 hn.1 hi fun D hD => keeps_zeroS hD) fun _ h3 hh3 e => ?_
  refine post_bind (hI.into hh3 (hn.1.ts e) (by rw [e]; exact hi) fun D hD => keeps_tensorEye hD _) fun _ h4 hh4 e' => ?_
  exact post_pure hh4 ((hn.1.ts e).ts e')

omit hI in
theorem keeps_blobGo {D : Nat → Prop} {i : Impl} (hd : D i.data) (dt : DType) : ∀ (l : List (Val F)) (k : Nat),
    Keeps (Writes D) (blobGo dt i k l)
  | [], _ => keeps_pure _
  | v :: vs, k => by
    unfold blobGo
    exact keeps_bind (keeps_store hd _ _ _) fun _ => keeps_blobGo hd dt vs _

theorem FrameInv.fromBlob {h : Heap F} (hh : I h) (data : List (Val F)) (s : List Nat) (dt : DType) :
    Post I (Tensor.fromBlob data s dt h) fun t h' => IsNew h0 t h' := by
  unfold Tensor.fromBlob
  refine post_bind (hI.create hh _ _ _) fun t h1 hh1 hn => ?_
  refine post_bind (post_getT hh1) fun i h2 hh2 hi => ?_
  obtain ⟨rfl, hi⟩ := hi
  dsimp only
  split
  · trivial
  · refine post_bind (hI.into hh2 hn.1 hi fun D hD => keeps_blobGo hD _ _ _) fun _ h3 hh3 e => ?_
    exact post_pure hh3 (hn.1.ts e)

omit hI in
theorem keeps_randGo {D : Nat → Prop} {i : Impl} (hd : D i.data) (w size : Nat) : ∀ (l : List F) (k : Nat),
    Keeps (Writes D) (randGo i w size k l)
  | [], _ => keeps_pure _
  | v :: vs, k => by
    unfold randGo
    split
    · exact keeps_undef _
    · split
      · exact keeps_randGo hd w size vs _
      · exact keeps_bind (keeps_store hd _ _ _) fun _ => keeps_randGo hd w size vs _

theorem FrameInv.randn {h : Heap F} (hh : I h) (rnd : Nat → F) (s : List Nat) (dt : DType) :
    Post I (Tensor.randn rnd s dt h) fun t h' => IsNew h0 t h' := by
  unfold Tensor.randn
  refine post_bind (post_expect hh) fun _ h' hh' _ => ?_
  refine post_bind (hI.create hh' _ _ _) fun t h1 hh1 hn => ?_
  refine post_bind (post_getT hh1) fun i h2 hh2 hi => ?_
  obtain ⟨rfl, hi⟩ := hi
  refine post_bind (post_getS hh2) fun s h3 hh3 hs => ?_
  obtain ⟨rfl, hs⟩ := hs
  refine post_bind (hI.into hh3 hn.1 hi fun D hD => keeps_randGo hD _ _ _ _) fun _ h3 hh3 e => ?_
  exact post_pure hh3 (hn.1.ts e)

theorem FrameInv.clone {h : Heap F} (hh : I h) (t : Nat) :
    Post I (Tensor.clone t h) fun t h' => IsNew h0 t h' := by
  unfold Tensor.clone
  refine post_bind (post_getT hh) fun i h1 hh1 hi => ?_
  obtain ⟨rfl, hi⟩ := hi
  refine post_bind (hI.create hh1 _ _ _) fun r h2 hh2 hn => ?_
  refine post_bind (post_getT hh2) fun j h3 hh3 hj => ?_
  obtain ⟨rfl, hj⟩ := hj
  refine post_bind (hI.into hh3 hn.1 hj fun D hD => keeps_copyLoop hD _ _ _) fun _ h4 hh4 e => ?_
  split
  · exact post_pure hh4 (hn.1.ts e)
  · refine post_bind (hI.setGradFn hh4 (hn.1.ts e) _ _) fun _ h5 hh5 hn' => post_pure hh5 hn'

theorem FrameInv.toType {h : Heap F} (hh : I h) (t : Nat) (dt : DType) :
    Post I (Tensor.toType t dt h) fun r h' => IsNew h0 r h' ∨ (r = t ∧ h' = h) := by
  unfold Tensor.toType
  refine post_bind (post_getT hh) fun i h1 hh1 hi => ?_
  obtain ⟨rfl, hi⟩ := hi
  split
  · exact post_raise hh1
  split
  · exact post_pure hh1 (.inr ⟨rfl, rfl⟩)
  refine post_bind (hI.create hh1 _ _ _) fun r h2 hh2 hn => ?_
  refine post_bind (post_getT hh2) fun j h3 hh3 hj => ?_
  obtain ⟨rfl, hj⟩ := hj
  refine post_bind (hI.into hh3 hn.1 hj fun D hD => keeps_copyLoop hD _ _ _) fun _ h4 hh4 e => ?_
  split
  · exact post_pure hh4 (.inl (hn.1.ts e))
  · refine post_bind (hI.setGradFn hh4 (hn.1.ts e) _ _) fun _ h5 hh5 hn' => post_pure hh5 (.inl hn')

theorem FrameInv.applyNoGradBinary {h : Heap F} (hh : I h) {k : Kernel F}
    (hk : ∀ (D : Nat → Prop) (L R : DType) (d l r : Impl), D d.data → Keeps (Writes D) (k L R d l r)) (l r : Nat)
    (o : Bool) : Post I (Tensor.applyNoGradBinary k l r o h) fun t h' => IsNew h0 t h' := by
  unfold Tensor.applyNoGradBinary
  refine post_bind (post_getT hh) fun i h1 hh1 hi => ?_
  obtain ⟨rfl, hi⟩ := hi
  refine post_bind (post_getT hh1) fun j h2 hh2 hj => ?_
  obtain ⟨rfl, hj⟩ := hj
  refine post_bind (post_keeps (R := fun a b => b = a) (x := M.lift _) (fun h => ?_) hh2 (fun _ e => e ▸ hh2))
    fun range h3 hh3 e => ?_
  · cases broadcastRange i.view.sizes j.view.sizes <;> simp [M.lift]
  subst e
  refine post_bind (hI.create hh3 _ _ _) fun t h4 hh4 hn => ?_
  refine post_bind (post_getT hh4) fun d h5 hh5 hd => ?_
  obtain ⟨rfl, hd⟩ := hd
  have key : ∀ (L R : DType) (a b : Impl), Post I ((k L R d a b >>= fun _ => (pure t : M F Nat)) h5)
      fun t h' => IsNew h0 t h' := fun L R a b =>
    post_bind (hI.into hh5 hn.1 hd fun D hD => hk D _ _ _ _ _ hD) fun _ h6 hh6 e => post_pure hh6 (hn.1.ts e)
  split
  · split
    · exact key _ _ _ _
    · exact key _ _ _ _
  · exact key _ _ _ _

theorem FrameInv.applyBinary {h : Heap F} (hh : I h) {k : Kernel F}
    (hk : ∀ (D : Nat → Prop) (L R : DType) (d l r : Impl), D d.data → Keeps (Writes D) (k L R d l r)) (b : BackKind)
    (l r : Nat) (o : Bool) : Post I (Tensor.applyBinary k b l r o h) fun t h' => IsNew h0 t h' := by
  unfold Tensor.applyBinary
  refine post_bind (hI.applyNoGradBinary hh hk l r o) fun t h1 hh1 hn => ?_
  refine post_bind (post_getT hh1) fun i h2 hh2 hi => ?_
  obtain ⟨rfl, hi⟩ := hi
  refine post_bind (post_getT hh2) fun j h3 hh3 hj => ?_
  obtain ⟨rfl, hj⟩ := hj
  split
  · exact post_pure hh3 hn
  · exact post_bind (hI.setGradFn hh3 hn _ _) fun _ h5 hh5 hn' => post_pure hh5 hn'

theorem FrameInv.addT {h : Heap F} (hh : I h) (l r : Nat) : Post I (addT l r h) fun t h' => IsNew h0 t h' :=
  hI.applyBinary hh (fun _ _ _ _ _ _ hD => keeps_tensorAdd hD _ _ _ _) _ _ _ _
theorem FrameInv.subT {h : Heap F} (hh : I h) (l r : Nat) : Post I (subT l r h) fun t h' => IsNew h0 t h' :=
  hI.applyBinary hh (fun _ _ _ _ _ _ hD => keeps_tensorSub hD _ _ _ _) _ _ _ _
theorem FrameInv.mulT {h : Heap F} (hh : I h) (l r : Nat) : Post I (mulT l r h) fun t h' => IsNew h0 t h' :=
  hI.applyBinary hh (fun _ _ _ _ _ _ hD => keeps_tensorMul hD _ _ _ _) _ _ _ _
theorem FrameInv.divT {h : Heap F} (hh : I h) (l r : Nat) : Post I (divT l r h) fun t h' => IsNew h0 t h' :=
  hI.applyBinary hh (fun _ _ _ _ _ _ hD => keeps_tensorDiv hD _ _ _ _) _ _ _ _
theorem FrameInv.negT {h : Heap F} (hh : I h) (t : Nat) : Post I (negT t h) fun t h' => IsNew h0 t h' := by
  unfold Tensor.negT
  exact post_bind (hI.createScalar hh _ _) fun _ h' hh' _ => hI.subT hh' _ _

theorem FrameInv.cmp {h : Heap F} (hh : I h) (op : COp) (l r : Nat) :
    Post I (Tensor.cmp op l r h) fun t h' => IsNew h0 t h' := by
  unfold Tensor.cmp
  refine post_bind (post_getT hh) fun i h1 hh1 hi => ?_
  obtain ⟨rfl, hi⟩ := hi
  refine post_bind (post_getT hh1) fun j h2 hh2 hj => ?_
  obtain ⟨rfl, hj⟩ := hj
  refine post_bind (post_keeps (R := fun a b => b = a) (x := M.lift _) (fun h => ?_) hh2 (fun _ e => e ▸ hh2))
    fun range h3 hh3 e => ?_
  · cases broadcastRange i.view.sizes j.view.sizes <;> simp [M.lift]
  subst e
  refine post_bind (hI.create hh3 _ _ _) fun t h4 hh4 hn => ?_
  refine post_bind (post_getT hh4) fun d h5 hh5 hd => ?_
  obtain ⟨rfl, hd⟩ := hd
  exact post_bind (hI.into hh5 hn.1 hd fun D hD => keeps_tensorCmp hD _ _ _ _ _) fun _ h6 hh6 e => post_pure hh6 (hn.1.ts e)

theorem FrameInv.sumLike {h : Heap F} (hh : I h) {k : DType → DType → Impl → Impl → M F Unit}
    (hk : ∀ (D : Nat → Prop) (T S : DType) (d l : Impl), D d.data → Keeps (Writes D) (k T S d l)) (b : BackKind) (t : Nat) :
    Post I ((do
      let i ← getT t
      let tf ← Tensor.zeros [] (sumType i.dtype)
      k (sumType i.dtype) i.dtype (← getT tf) i
      if i.requiresGrad then Tensor.setGradFn tf b [t]
      return tf : M F Nat) h) fun t h' => IsNew h0 t h' := by
  refine post_bind (post_getT hh) fun i h1 hh1 hi => ?_
  obtain ⟨rfl, hi⟩ := hi
  refine post_bind (hI.zeros hh1 _ _) fun r h2 hh2 hn => ?_
  refine post_bind (post_getT hh2) fun j h3 hh3 hj => ?_
  obtain ⟨rfl, hj⟩ := hj
  refine post_bind (hI.into hh3 hn.1 hj fun D hD => hk D _ _ _ _ hD) fun _ h4 hh4 e => ?_
  split
  · exact post_bind (hI.setGradFn hh4 (hn.1.ts e) _ _) fun _ h5 hh5 hn' => post_pure hh5 hn'
  · exact post_pure hh4 (hn.1.ts e)

theorem FrameInv.sumT {h : Heap F} (hh : I h) (t : Nat) : Post I (sumT t h) fun t h' => IsNew h0 t h' :=
  hI.sumLike hh (k := tensorSum) (fun _ _ _ _ _ hD => keeps_tensorSum hD _ _ _) .sum t
theorem FrameInv.meanT {h : Heap F} (hh : I h) (t : Nat) : Post I (meanT t h) fun t h' => IsNew h0 t h' :=
  hI.sumLike hh (k := tensorMean) (fun _ _ _ _ _ hD => keeps_tensorMean hD _ _ _) .mean t

theorem FrameInv.absT {h : Heap F} (hh : I h) (t : Nat) : Post I (absT t h) fun t h' => IsNew h0 t h' := by
  unfold Tensor.absT
  refine post_bind (post_getT hh) fun i h1 hh1 hi => ?_
  obtain ⟨rfl, hi⟩ := hi
  refine post_bind (hI.create hh1 _ _ _) fun r h2 hh2 hn => ?_
  split
  · refine post_bind (post_getT hh2) fun j h3 hh3 hj => ?_
    obtain ⟨rfl, hj⟩ := hj
    exact post_bind (hI.into hh3 hn.1 hj fun D hD => keeps_tensorAbs hD _ _ _ _ (by simp)) fun _ h4 hh4 e =>
      post_pure hh4 (hn.1.ts e)
  · refine post_bind (hI.create hh2 _ _ _) fun g h3 hh3 hg => ?_
    refine post_bind (post_getT hh3) fun j h4 hh4 hj => ?_
    obtain ⟨rfl, hj⟩ := hj
    refine post_bind (post_getT hh4) fun k h5 hh5 hk => ?_
    obtain ⟨rfl, hk⟩ := hk
    have hr : IsNew h0 r h5 := hn.1.ext hg.2
    refine post_bind (hI.kernel (D := fun d => d = j.data ∨ d = k.data)
      (keeps_tensorAbs (.inl rfl) _ _ _ _ fun x hx => by cases hx; exact .inr rfl) (fun d hd => ?_) hh5) fun _ h6 hh6 e => ?_
    · rcases hd with rfl | rfl
      · exact hr.data hj
      · exact hg.1.data hk
    exact post_bind (hI.setGradFn hh6 (hr.ts e) _ _) fun _ h7 hh7 hn' => post_pure hh7 hn'

theorem FrameInv.extreme {h : Heap F} (hh : I h) (o : COp) (t : Nat) :
    Post I (extreme o t h) fun t h' => IsNew h0 t h' := by
  unfold Tensor.extreme
  refine post_bind (post_getT hh) fun i h1 hh1 hi => ?_
  obtain ⟨rfl, hi⟩ := hi
  refine post_bind (hI.zeros hh1 _ _) fun r h2 hh2 hn => ?_
  split
  · refine post_bind (post_getT hh2) fun j h3 hh3 hj => ?_
    obtain ⟨rfl, hj⟩ := hj
    exact post_bind (hI.into hh3 hn.1 hj fun D hD => keeps_tensorExtreme hD _ _ _ _ (by simp)) fun _ h4 hh4 e =>
      post_pure hh4 (hn.1.ts e)
  · refine post_bind (hI.zerosLike hh2 _) fun g h3 hh3 hg => ?_
    refine post_bind (post_getT hh3) fun j h4 hh4 hj => ?_
    obtain ⟨rfl, hj⟩ := hj
    refine post_bind (post_getT hh4) fun k h5 hh5 hk => ?_
    obtain ⟨rfl, hk⟩ := hk
    have hr : IsNew h0 r h5 := hn.1.ext hg.2
    refine post_bind (hI.kernel (D := fun d => d = j.data ∨ d = k.data)
      (keeps_tensorExtreme (.inl rfl) _ _ _ _ fun x hx => by cases hx; exact .inr rfl) (fun d hd => ?_) hh5) fun _ h6 hh6 e => ?_
    · rcases hd with rfl | rfl
      · exact hr.data hj
      · exact hg.1.data hk
    exact post_bind (hI.setGradFn hh6 (hr.ts e) _ _) fun _ h7 hh7 hn' => post_pure hh7 hn'

omit hI [FOps F] in
theorem keeps_catCheck {R : Heap F → Heap F → Prop} [Pre R] (d : Nat) (a : Impl) : ∀ l, Keeps (F := F) R (catCheck d a l)
  | [] => keeps_pure _
  | i :: is => by
    unfold catCheck
    exact keeps_bind (keeps_expect _) fun _ => keeps_bind (keeps_expect _) fun _ => keeps_catCheck d a is

omit hI [FOps F] in
theorem keeps_getAll {R : Heap F → Heap F → Prop} [Pre R] : ∀ l, Keeps (F := F) R (getAll l)
  | [] => keeps_pure _
  | i :: is => by
    unfold getAll
    exact keeps_bind (keeps_getT _) fun _ => keeps_bind (keeps_getAll is) fun _ => keeps_pure _

omit hI in
theorem keeps_catGo {D : Nat → Prop} {ret : Impl} (hd : D ret.data) (d : Nat) (dt : DType) : ∀ (l : List Impl) (s : Nat),
    Keeps (F := F) (Writes D) (catGo d dt ret s l)
  | [], _ => by unfold catGo; exact keeps_pure _
  | i :: is, s => by
    unfold catGo
    refine keeps_bind (keeps_lift _) fun _ => keeps_bind (keeps_tensorCat hd _ _ _ _) fun _ => ?_
    exact keeps_bind (keeps_lift _) fun _ => keeps_catGo hd d dt is _

omit hI [FOps F] in
instance : Pre (F := F) (fun a b : Heap F => b = a) := ⟨fun _ => rfl, fun h1 h2 => h2.trans h1⟩

omit hI [FOps F] in
/-- A computation that only reads. -/
theorem post_reads {α : Type} {x : M F α} (hx : Keeps (fun a b : Heap F => b = a) x) {h : Heap F} (hh : I h) :
    Post I (x h) fun _ h' => h' = h := post_keeps hx hh fun _ e => by subst e; exact hh

theorem FrameInv.catT {h : Heap F} (hh : I h) (ts : List Nat) (d : Nat) :
    Post I (catT ts d h) fun t h' => IsNew h0 t h' := by
  unfold Tensor.catT
  cases ts with
  | nil => exact post_undef
  | cons t0 rest =>
    refine post_bind (post_getT hh) fun i h1 hh1 hi => ?_
    obtain ⟨rfl, hi⟩ := hi
    refine post_bind (post_reads (keeps_expect _) hh1) fun _ h2 hh2 e => ?_
    subst e
    refine post_bind (post_reads (keeps_getAll _) hh2) fun others h3 hh3 e => ?_
    subst e
    refine post_bind (post_reads (keeps_catCheck _ _ _) hh3) fun _ h4 hh4 e => ?_
    subst e
    refine post_bind (hI.create hh4 _ _ _) fun r h5 hh5 hn => ?_
    refine post_bind (post_getT hh5) fun j h6 hh6 hj => ?_
    obtain ⟨rfl, hj⟩ := hj
    refine post_bind (hI.into hh6 hn.1 hj fun D hD => keeps_catGo hD _ _ _ _) fun _ h7 hh7 e => ?_
    split
    · exact post_bind (hI.setGradFn hh7 (hn.1.ts e) _ _) fun _ h8 hh8 hn' => post_pure hh8 hn'
    · exact post_pure hh7 (hn.1.ts e)

theorem FrameInv.ofInit {h : Heap F} (hh : I h) (tree : InitTree F) :
    Post I (ofInit tree h) fun r h' => ∀ t, r = some t → IsNew h0 t h' := by
  unfold Tensor.ofInit
  refine post_bind (post_reads (keeps_lift _) hh) fun init h1 hh1 e => ?_
  subst e
  unfold Tensor.createImpl
  split
  · exact post_pure hh1 (by simp)
  · cases init.dtype with
    | none => exact post_undef
    | some dt =>
      refine post_bind (hI.create hh1 _ _ _) fun t h2 hh2 hn => ?_
      refine post_bind (post_getT hh2) fun i h3 hh3 hi => ?_
      obtain ⟨rfl, hi⟩ := hi
      refine post_bind (post_getS hh3) fun s h4 hh4 hs => ?_
      obtain ⟨rfl, hs⟩ := hs
      refine post_bind (Q := fun _ h' => h'.ts = h4.ts) ?_ fun _ h5 hh5 e => ?_
      · refine ⟨hI.mono hh4 (fun _ _ => rfl) fun d hd => ?_, rfl⟩
        have := hn.1.data hi
        show (h4.st.set i.data _)[d]? = _
        rw [List.getElem?_set_ne (by omega)]
      · exact post_pure hh5 (by rintro _ ⟨⟩; exact hn.1.ts e)

theorem FrameInv.detach {h : Heap F} (hh : I h) (t : Nat) :
    Post I (Tensor.detach t h) fun r h' => h0.ts.length ≤ r ∧ ∃ i j, h.ts[t]? = some i ∧ h'.ts[r]? = some j ∧
      j.data = i.data ∧ j.dtype = i.dtype ∧ j.view = i.view := by
  unfold Tensor.detach createOn
  refine post_bind (post_getT hh) fun i h1 hh1 hi => ?_
  obtain ⟨rfl, hi⟩ := hi
  exact post_mono (hI.newT hh1 _) fun r h' hr => ⟨hr.1, i, _, hi, hr.2.1, rfl, rfl, rfl⟩
end

/-! ### Views and gradient bookkeeping -/

/-- An invariant that does not depend on the gradients and flags of tensors, nor on the operations of new ones. -/
structure FlagInv (h0 : Heap F) (I : Heap F → Prop) : Prop extends FrameInv h0 I where
  flags : ∀ {h t i j}, I h → h.ts[t]? = some i → j.dtype = i.dtype → j.view = i.view → j.data = i.data →
    (h0.ts.length ≤ t ∨ j.gradFn = i.gradFn) → I { h with ts := h.ts.set t j }

theorem flagInv_preserves (h0 : Heap F) : FlagInv h0 (Preserves h0) where
  toFrameInv := frameInv_preserves h0
  flags := fun {h t i j} hh hi e1 e2 e3 _ => by
    refine hh.trans ⟨fun u x hx => ?_, fun _ _ h => h⟩
    by_cases htu : t = u
    · subst htu
      rw [hi] at hx
      obtain rfl : i = x := by simpa using hx
      exact ⟨j, List.getElem?_set_self (getElem?_lt hi), e1, e2, e3⟩
    · exact ⟨x, by simpa [List.getElem?_set_ne htu] using hx, rfl, rfl, rfl⟩

section
variable [FOps F] {h0 : Heap F} {I : Heap F → Prop} (hI : FlagInv h0 I)
include hI

/-- The tensor is new and lies on storage `d`. -/
def IsOn (h0 : Heap F) (d : Nat) (t : Nat) (h : Heap F) : Prop :=
  h0.ts.length ≤ t ∧ ∃ i, h.ts[t]? = some i ∧ i.data = d

theorem FlagInv.setFlags {h : Heap F} {t : Nat} {i j : Impl} (hh : I h) (hi : h.ts[t]? = some i)
    (e1 : j.dtype = i.dtype) (e2 : j.view = i.view) (e3 : j.data = i.data) (e4 : h0.ts.length ≤ t ∨ j.gradFn = i.gradFn) :
    Post I (setT t j h) fun _ h' => h' = { h with ts := h.ts.set t j } := ⟨hI.flags hh hi e1 e2 e3 e4, rfl⟩

omit [FOps F] hI in
theorem IsOn.set {h : Heap F} {d r t : Nat} {i j : Impl} (hr : IsOn h0 d r h) (hi : h.ts[t]? = some i)
    (e3 : j.data = i.data) : IsOn h0 d r { h with ts := h.ts.set t j } := by
  obtain ⟨h1, x, hx, hd⟩ := hr
  refine ⟨h1, ?_⟩
  by_cases htr : t = r
  · subst htr
    rw [hi] at hx
    obtain rfl : i = x := by simpa using hx
    exact ⟨j, List.getElem?_set_self (getElem?_lt hi), e3.trans hd⟩
  · exact ⟨x, by simpa [List.getElem?_set_ne htr] using hx, hd⟩

omit [FOps F] hI in
theorem IsOn.ext {h h' : Heap F} {d r : Nat} (hr : IsOn h0 d r h)
    (e : ∀ (k : Nat) (x : Impl), h.ts[k]? = some x → h'.ts[k]? = some x) : IsOn h0 d r h' := by
  obtain ⟨h1, x, hx, hd⟩ := hr
  exact ⟨h1, x, e _ _ hx, hd⟩

theorem FlagInv.shareGradStorage {h : Heap F} {d r frm : Nat} (hh : I h) (hr : IsOn h0 d r h) :
    Post I (Tensor.shareGradStorage r frm h) fun _ h' => IsOn h0 d r h' := by
  unfold Tensor.shareGradStorage
  refine post_bind (post_getT hh) fun f h1 hh1 hf => ?_
  obtain ⟨rfl, hf⟩ := hf
  have rest : ∀ (g : Nat) (H : Heap F), I H → IsOn h0 d r H → Post I ((do
      let gi ← getT g
      let t ← getT r
      let g' ← createOn t.dtype t.view gi.data
      let t ← getT r
      setT r { t with grad := some g' } : M F Unit) H) fun _ h' => IsOn h0 d r h' := by
    intro g H hH hr
    refine post_bind (post_getT hH) fun gi h2 hh2 hgi => ?_
    obtain ⟨rfl, hgi⟩ := hgi
    refine post_bind (post_getT hh2) fun t h3 hh3 ht => ?_
    obtain ⟨rfl, ht⟩ := ht
    refine post_bind (hI.newT hh3 _) fun g' h4 hh4 hg' => ?_
    have hr4 := hr.ext hg'.2.2.2
    refine post_bind (post_getT hh4) fun t' h5 hh5 ht' => ?_
    obtain ⟨rfl, ht'⟩ := ht'
    exact post_mono (hI.setFlags hh5 ht' rfl rfl rfl (.inr rfl)) fun _ h6 e => by subst e; exact hr4.set ht' rfl
  cases f.grad with
  | some g => exact rest g _ hh1 hr
  | none =>
    refine post_bind (hI.create hh1 _ _ _) fun g h2 hh2 hg => ?_
    have hr2 := hr.ext hg.2
    refine post_bind (post_getT hh2) fun f' h3 hh3 hf' => ?_
    obtain ⟨rfl, hf'⟩ := hf'
    refine post_bind (hI.setFlags hh3 hf' rfl rfl rfl (.inr rfl)) fun _ h4 hh4 e => ?_
    subst e
    exact rest _ _ hh4 (hr2.set hf' rfl)

theorem FlagInv.makeView {h : Heap F} (hh : I h) (dt : DType) (v : Layout) (d base : Nat) :
    Post I (Tensor.makeView dt v d base h) fun r h' => IsOn h0 d r h' := by
  unfold Tensor.makeView createOn
  refine post_bind (hI.newT hh _) fun r h1 hh1 hr => ?_
  have hon : IsOn h0 d r h1 := ⟨hr.1, _, hr.2.1, rfl⟩
  refine post_bind (post_getT hh1) fun b h2 hh2 hb => ?_
  obtain ⟨rfl, hb⟩ := hb
  split
  · exact post_pure hh2 hon
  · refine post_bind (Q := fun _ h' => IsOn h0 d r h') ?_ fun _ h3 hh3 hon3 => ?_
    · unfold Tensor.setGradFn
      refine post_bind (post_getT hh2) fun i h3 hh3 hi => ?_
      obtain ⟨rfl, hi⟩ := hi
      exact post_mono (hI.setFlags hh3 hi rfl rfl rfl (.inl hon.1)) fun _ h4 e => by subst e; exact hon.set hi rfl
    · exact post_bind (hI.shareGradStorage hh3 hon3) fun _ h4 hh4 hon4 => post_pure hh4 hon4

theorem FlagInv.slice {h : Heap F} (hh : I h) (t : Nat) (s : Str) :
    Post I (Tensor.slice t s h) fun r h' => ∃ i, h.ts[t]? = some i ∧ IsOn h0 i.data r h' := by
  unfold Tensor.slice
  refine post_bind (post_getT hh) fun i h1 hh1 hi => ?_
  obtain ⟨rfl, hi⟩ := hi
  refine post_bind (post_reads (keeps_lift _) hh1) fun v h2 hh2 e => ?_
  subst e
  exact post_mono (hI.makeView hh2 _ _ _ _) fun _ _ ho => ⟨i, hi, ho⟩

theorem FlagInv.transpose {h : Heap F} (hh : I h) (t a b : Nat) :
    Post I (Tensor.transpose t a b h) fun r h' => ∃ i, h.ts[t]? = some i ∧ IsOn h0 i.data r h' := by
  unfold Tensor.transpose
  refine post_bind (post_getT hh) fun i h1 hh1 hi => ?_
  obtain ⟨rfl, hi⟩ := hi
  refine post_bind (post_reads (keeps_lift _) hh1) fun v h2 hh2 e => ?_
  subst e
  exact post_mono (hI.makeView hh2 _ _ _ _) fun _ _ ho => ⟨i, hi, ho⟩

theorem FlagInv.reshapeSizes {h : Heap F} (hh : I h) (t : Nat) (s : List Nat) :
    Post I (Tensor.reshapeSizes t s h) fun r h' => ∃ d, IsOn h0 d r h' ∧
      (h0.st.length ≤ d ∨ ∃ i, h.ts[t]? = some i ∧ d = i.data) := by
  unfold Tensor.reshapeSizes
  dsimp only
  refine post_bind (post_getT hh) fun i h1 hh1 hi => ?_
  obtain ⟨rfl, hi⟩ := hi
  refine post_bind (post_reads (keeps_expect _) hh1) fun _ h2 hh2 e => ?_
  subst e
  have rest : ∀ H : Heap F, I H → Post I ((if i.view.sizes.length < i.view.strides.length then M.undef .vecOob
    else do
    let iso ← M.lift (isometry i.view.sizes i.view.strides)
    if iso then
      let strides ← if s.length ≠ 0 then do
          let last ← M.lift (vecAt i.view.strides (i.view.strides.length - 1))
          pure (scaledStrides last s)
        else pure i.view.strides
      Tensor.makeView i.dtype ⟨s, strides, i.view.offset⟩ i.data t
    else do
      let m ← Tensor.clone t
      let mi ← getT m
      Tensor.makeView i.dtype (Layout.contig s) mi.data m : M F Nat) H) fun r h' => ∃ d, IsOn h0 d r h' ∧
      (h0.st.length ≤ d ∨ ∃ i, h2.ts[t]? = some i ∧ d = i.data) := by
    intro H hH
    split
    · trivial
    refine post_bind (post_reads (keeps_lift _) hH) fun iso h3 hh3 e => ?_
    subst e
    split
    · split
      · refine post_bind (post_reads (keeps_lift _) hh3) fun _ h4 hh4 e => ?_
        subst e
        exact post_mono (hI.makeView hh4 _ _ _ _) fun _ _ ho => ⟨_, ho, .inr ⟨i, hi, rfl⟩⟩
      · exact post_mono (hI.makeView hh3 _ _ _ _) fun _ _ ho => ⟨_, ho, .inr ⟨i, hi, rfl⟩⟩
    · refine post_bind (hI.toFrameInv.clone hh3 t) fun m h4 hh4 hm => ?_
      refine post_bind (post_getT hh4) fun mi h5 hh5 hmi => ?_
      obtain ⟨rfl, hmi⟩ := hmi
      exact post_mono (hI.makeView hh5 _ _ _ _) fun _ _ ho => ⟨_, ho, .inl (hm.data hmi)⟩
  split
  · refine post_bind (hI.makeView hh2 _ _ _ _) fun r h3 hh3 hr => ?_
    rw [M.bind_ok (M.pure_run _ _)]
    cases hq : i.requiresGrad
    · exact post_pure hh3 ⟨_, hr, .inr ⟨i, hi, rfl⟩⟩
    · exact rest h3 hh3
  · exact rest h2 hh2

theorem FlagInv.reshape {h : Heap F} (hh : I h) (t : Nat) (s : List Int) :
    Post I (Tensor.reshape t s h) fun r h' => ∃ d, IsOn h0 d r h' ∧
      (h0.st.length ≤ d ∨ ∃ i, h.ts[t]? = some i ∧ d = i.data) := by
  unfold Tensor.reshape
  refine post_bind (post_getT hh) fun i h1 hh1 hi => ?_
  obtain ⟨rfl, hi⟩ := hi
  refine post_bind (post_reads (keeps_lift _) hh1) fun v h2 hh2 e => ?_
  subst e
  exact hI.reshapeSizes hh2 _ _

theorem FlagInv.reshapeAs {h : Heap F} (hh : I h) (t u : Nat) :
    Post I (Tensor.reshapeAs t u h) fun r h' => ∃ d, IsOn h0 d r h' ∧
      (h0.st.length ≤ d ∨ ∃ i, h.ts[t]? = some i ∧ d = i.data) := by
  unfold Tensor.reshapeAs
  refine post_bind (post_getT hh) fun i h1 hh1 hi => ?_
  obtain ⟨rfl, hi⟩ := hi
  exact hI.reshapeSizes hh1 _ _

theorem FlagInv.setRequiresGrad {h : Heap F} (hh : I h) (t : Nat) (b : Bool) :
    Post I (Tensor.setRequiresGrad t b h) fun _ _ => True := by
  unfold Tensor.setRequiresGrad
  have set : ∀ H : Heap F, I H → Post I ((do
      let i ← getT t
      setT t { i with requiresGrad := b } : M F Unit) H) fun _ _ => True := by
    intro H hH
    refine post_bind (post_getT hH) fun j h3 hh3 hj => ?_
    obtain ⟨rfl, hj⟩ := hj
    exact post_true (hI.setFlags hh3 hj rfl rfl rfl (.inr rfl))
  refine post_bind (post_getT hh) fun i h1 hh1 hi => ?_
  obtain ⟨rfl, hi⟩ := hi
  split
  · refine post_bind (post_reads (keeps_expect _) hh1) fun _ h2 hh2 e => ?_
    subst e
    exact set _ hh2
  · exact set _ hh1

theorem FlagInv.setRetainGrad {h : Heap F} (hh : I h) (t : Nat) (b : Bool) :
    Post I (Tensor.setRetainGrad t b h) fun _ _ => True := by
  unfold Tensor.setRetainGrad
  refine post_bind (post_getT hh) fun j h3 hh3 hj => ?_
  obtain ⟨rfl, hj⟩ := hj
  exact post_true (hI.setFlags hh3 hj rfl rfl rfl (.inr rfl))
end
end INNC
