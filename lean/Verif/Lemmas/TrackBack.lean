import Verif.Lemmas.Track
/-
Back-propagation and the remaining calls keep the type, layout, storage and flag of every tensor.
-/
namespace INNC
open Spec Tensor
variable {F : Type} [FOps F] {h0 h : Heap F}

theorem Trk.upd (ht : Trk h0 h) {t : Nat} {i j : Impl} (hi : h.ts[t]? = some i)
    (e1 : j.dtype = i.dtype) (e2 : j.view = i.view) (e3 : j.data = i.data) (e4 : j.requiresGrad = i.requiresGrad) :
    Post (Trk h0) (INNC.setT t j h) fun _ _ => True := post_true (ht.setT hi e1 e2 e3 e4)

theorem Trk.reads {α : Type} (ht : Trk h0 h) {x : M F α} (hx : Keeps (fun a b : Heap F => b = a) x) :
    Post (Trk h0) (x h) fun _ h' => h' = h := post_reads hx ht

theorem keeps_isAllocS {R : Heap F → Heap F → Prop} [Pre R] (d : Nat) : Keeps (F := F) R (isAllocS d) := by
  unfold isAllocS
  exact keeps_bind (keeps_getS _) fun _ => keeps_pure _

theorem post_ts_storage {d : Nat} {s' : Storage F → Storage F} (ht : Trk h0 h) :
    Post (Trk h0) ((getS d >>= fun s => setS d (s' s) : M F Unit) h) fun _ h' => h'.ts = h.ts := by
  refine post_bind (post_getS ht) fun s h1 hh1 hs => ?_
  obtain ⟨rfl, hs⟩ := hs
  exact ⟨hh1.of_ts rfl, rfl⟩

theorem Trk.allocS (ht : Trk h0 h) (d : Nat) : Post (Trk h0) (INNC.allocS d h) fun _ h' => h'.ts = h.ts := by
  unfold INNC.allocS
  refine post_bind (post_getS ht) fun s h1 hh1 hs => ?_
  obtain ⟨rfl, hs⟩ := hs
  split
  · exact ⟨hh1.of_ts rfl, rfl⟩
  · exact post_raise hh1

theorem Trk.tryAccUpdate (ht : Trk h0 h) (p : Nat) : Post (Trk h0) (Tensor.tryAccUpdate p h) fun _ _ => True := by
  unfold Tensor.tryAccUpdate
  refine post_bind (post_getT ht) fun i h1 hh1 hi => ?_
  obtain ⟨rfl, hi⟩ := hi
  have rest : ∀ H : Heap F, Trk h0 H → Post (Trk h0) ((match i.grad with
    | none => do
      let g ← INNC.create i.dtype i.view true
      let i ← getT p
      INNC.setT p { i with grad := some g }
      let gi ← getT g
      zeroS gi.data
    | some g => do
      let gi ← getT g
      let al ← isAllocS gi.data
      if !al then do
        INNC.allocS gi.data
        zeroS gi.data
      else pure () : M F Unit) H) fun _ _ => True := by
    intro H hH
    cases i.grad with
    | none =>
      refine post_bind (hH.create _ _ _) fun g h2 hh2 _ => ?_
      refine post_bind (post_getT hh2) fun j h3 hh3 hj => ?_
      obtain ⟨rfl, hj⟩ := hj
      refine post_bind (hh3.upd hj rfl rfl rfl rfl) fun _ h4 hh4 _ => ?_
      refine post_bind (post_getT hh4) fun gi h5 hh5 _ => ?_
      exact post_true (hh5.kernel (keeps_zeroS trivial))
    | some g =>
      refine post_bind (post_getT hH) fun gi h2 hh2 _ => ?_
      refine post_bind (hh2.reads (keeps_isAllocS _)) fun al h3 hh3 _ => ?_
      split
      · exact post_bind (hh3.allocS _) fun _ h4 hh4 _ => post_true (hh4.kernel (keeps_zeroS trivial))
      · exact post_pure hh3 trivial
  split
  · exact post_pure hh1 trivial
  · cases i.gradFn with
    | none => exact rest _ hh1
    | some g => exact post_bind (hh1.upd hi rfl rfl rfl rfl) fun _ h2 hh2 _ => rest _ hh2

theorem Trk.mulAddF (ht : Trk h0 h) (d a b : Nat) : Post (Trk h0) (Tensor.mulAddF d a b h) fun _ _ => True := by
  unfold Tensor.mulAddF
  refine post_bind (post_getT ht) fun i h1 hh1 hi => ?_
  refine post_bind (post_getT hh1) fun j h2 hh2 hi => ?_
  refine post_bind (post_getT hh2) fun k h3 hh3 hi => ?_
  split
  · exact post_true (hh3.kernel (keeps_tensorMulAccF trivial _ _ _ _ _))
  · trivial

theorem keeps_derefGrad {R : Heap F → Heap F → Prop} [Pre R] (p : Nat) : Keeps (F := F) R (derefGrad p) := by
  unfold derefGrad
  refine keeps_bind (keeps_getT _) fun i => ?_
  cases i.grad with
  | none => exact keeps_undef _
  | some g => exact keeps_pure _

theorem Trk.addAssign (ht : Trk h0 h) (t r : Nat) : Post (Trk h0) (Tensor.addAssign t r h) fun _ _ => True := by
  unfold Tensor.addAssign
  refine post_bind (post_getT ht) fun i h1 hh1 hi => ?_
  refine post_bind (hh1.reads (keeps_expect _)) fun _ h2 hh2 _ => ?_
  refine post_bind (post_getT hh2) fun j h3 hh3 hi => ?_
  exact post_true (hh3.kernel (keeps_tensorAdd trivial _ _ _ _))

theorem Trk.tryAccGrad (ht : Trk h0 h) (p : Nat) (w o : Option Nat) :
    Post (Trk h0) (Tensor.tryAccGrad p w o h) fun _ _ => True := by
  unfold Tensor.tryAccGrad
  refine post_bind (post_getT ht) fun i h1 hh1 hi => ?_
  split
  · exact post_pure hh1 trivial
  refine post_bind (hh1.tryAccUpdate p) fun _ h2 hh2 _ => ?_
  cases w with
  | none => cases o with
    | none => exact post_pure hh2 trivial
    | some o => trivial
  | some w => cases o with
    | none =>
      exact post_bind (hh2.reads (keeps_derefGrad _)) fun g h3 hh3 _ => hh3.addAssign _ _
    | some o =>
      refine post_bind (post_getT hh2) fun wi h3 hh3 hi => ?_
      refine post_bind (hh3.reads (keeps_derefGrad _)) fun g h3 hh3 _ => ?_
      split
      · exact hh3.mulAddF _ _ _
      · exact hh3.mulAddF _ _ _

theorem keeps_inputAt {R : Heap F → Heap F → Prop} [Pre R] (g : GradFn) (k : Nat) : Keeps (F := F) R (inputAt g k) :=
  keeps_lift _

theorem Trk.catBackGo (t dim : Nat) : ∀ (xs : List Nat) (s : Nat) {h : Heap F}, Trk h0 h →
    Post (Trk h0) (Tensor.catBackGo t dim s xs h) fun _ _ => True
  | [], _, _, ht => post_pure ht trivial
  | x :: xs, s, _, ht => by
    unfold Tensor.catBackGo
    refine post_bind (post_getT ht) fun i h1 hh1 hi => ?_
    refine post_bind (post_getT hh1) fun xi h2 hh2 hi => ?_
    refine post_bind (hh2.reads (keeps_lift _)) fun st h3 hh3 _ => ?_
    refine post_bind (hh3.reads (keeps_derefGrad _)) fun g h3 hh3 _ => ?_
    refine post_bind (post_getT hh3) fun gi h4 hh4 hi => ?_
    refine post_bind (hh4.createOn _ _ _) fun r h5 hh5 _ => ?_
    refine post_bind (hh5.tryAccGrad _ _ _) fun _ h6 hh6 _ => ?_
    refine post_bind (post_getT hh6) fun xi h7 hh7 hi => ?_
    refine post_bind (hh7.reads (keeps_lift _)) fun d h8 hh8 _ => ?_
    exact Trk.catBackGo t dim xs _ hh8

theorem Trk.divBackNum (ht : Trk h0 h) (d a b : Nat) : Post (Trk h0) (Tensor.divBackNum d a b h) fun _ _ => True := by
  unfold Tensor.divBackNum
  refine post_bind (post_getT ht) fun i h1 hh1 hi => ?_
  refine post_bind (post_getT hh1) fun j h2 hh2 hi => ?_
  refine post_bind (post_getT hh2) fun k h3 hh3 hi => ?_
  split
  · exact post_true (hh3.kernel (keeps_tensorDivBackNum trivial _ _ _ _ _))
  · trivial

theorem Trk.divBackDen (ht : Trk h0 h) (t d : Nat) : Post (Trk h0) (Tensor.divBackDen t d h) fun _ _ => True := by
  unfold Tensor.divBackDen
  refine post_bind (post_getT ht) fun i h1 hh1 hi => ?_
  refine post_bind (post_getT hh1) fun j h2 hh2 hi => ?_
  split
  · refine post_bind (hh2.reads (keeps_derefGrad _)) fun g h3 hh3 _ => ?_
    refine post_bind (hh3.reads (keeps_derefGrad _)) fun og h3 hh3 _ => ?_
    refine post_bind (post_getT hh3) fun k h3 hh3 hi => ?_
    refine post_bind (post_getT hh3) fun k h3 hh3 hi => ?_
    exact post_true (hh3.kernel (keeps_tensorDivBackDen trivial _ _ _ _ _))
  · trivial

theorem Trk.stepBack (ht : Trk h0 h) (t : Nat) (g : GradFn) : Post (Trk h0) (Tensor.stepBack t g h) fun _ _ => True := by
  unfold Tensor.stepBack
  cases g.kind with
  | add =>
    refine post_bind (ht.reads (keeps_inputAt _ _)) fun a h1 hh1 _ => ?_
    refine post_bind (hh1.reads (keeps_derefGrad _)) fun o h2 hh2 _ => ?_
    refine post_bind (hh2.tryAccGrad _ _ _) fun _ h3 hh3 _ => ?_
    refine post_bind (hh3.reads (keeps_inputAt _ _)) fun a h1 hh1 _ => ?_
    refine post_bind (hh1.reads (keeps_derefGrad _)) fun o h2 hh2 _ => ?_
    exact hh2.tryAccGrad _ _ _
  | sub =>
    refine post_bind (ht.reads (keeps_inputAt _ _)) fun a h1 hh1 _ => ?_
    refine post_bind (hh1.reads (keeps_derefGrad _)) fun o h2 hh2 _ => ?_
    refine post_bind (hh2.tryAccGrad _ _ _) fun _ h3 hh3 _ => ?_
    refine post_bind (hh3.createScalar _ _) fun m h4 hh4 _ => ?_
    refine post_bind (hh4.reads (keeps_inputAt _ _)) fun a h1 hh1 _ => ?_
    refine post_bind (hh1.reads (keeps_derefGrad _)) fun o h2 hh2 _ => ?_
    exact hh2.tryAccGrad _ _ _
  | mul =>
    refine post_bind (ht.reads (keeps_inputAt _ _)) fun a h1 hh1 _ => ?_
    refine post_bind (hh1.reads (keeps_inputAt _ _)) fun b h1 hh1 _ => ?_
    refine post_bind (hh1.reads (keeps_derefGrad _)) fun o h2 hh2 _ => ?_
    refine post_bind (hh2.tryAccGrad _ _ _) fun _ h3 hh3 _ => ?_
    refine post_bind (hh3.reads (keeps_inputAt _ _)) fun a h1 hh1 _ => ?_
    refine post_bind (hh1.reads (keeps_inputAt _ _)) fun b h1 hh1 _ => ?_
    refine post_bind (hh1.reads (keeps_derefGrad _)) fun o h2 hh2 _ => ?_
    exact hh2.tryAccGrad _ _ _
  | div =>
    refine post_bind (ht.reads (keeps_inputAt _ _)) fun a h1 hh1 _ => ?_
    refine post_bind (hh1.reads (keeps_inputAt _ _)) fun b h1 hh1 _ => ?_
    refine post_bind (hh1.tryAccUpdate _) fun _ h3 hh3 _ => ?_
    refine post_bind (hh3.reads (keeps_derefGrad _)) fun o h2 hh2 _ => ?_
    refine post_bind (hh2.reads (keeps_derefGrad _)) fun o h2 hh2 _ => ?_
    refine post_bind (hh2.divBackNum _ _ _) fun _ h3 hh3 _ => ?_
    refine post_bind (hh3.tryAccUpdate _) fun _ h3 hh3 _ => ?_
    exact hh3.divBackDen _ _
  | sum =>
    refine post_bind (ht.reads (keeps_inputAt _ _)) fun a h1 hh1 _ => ?_
    refine post_bind (hh1.onesLike _) fun w h1 hh1 _ => ?_
    refine post_bind (hh1.reads (keeps_derefGrad _)) fun o h2 hh2 _ => ?_
    exact hh2.tryAccGrad _ _ _
  | mean =>
    refine post_bind (ht.reads (keeps_inputAt _ _)) fun a h1 hh1 _ => ?_
    refine post_bind (post_getT hh1) fun k h3 hh3 hi => ?_
    refine post_bind (hh3.full _ _ _ _) fun w h1 hh1 _ => ?_
    exact hh1.tryAccGrad _ _ _
  | noBack =>
    refine post_bind (ht.reads (keeps_inputAt _ _)) fun a h1 hh1 _ => ?_
    exact hh1.tryAccGrad _ _ _
  | clone =>
    refine post_bind (ht.reads (keeps_inputAt _ _)) fun a h1 hh1 _ => ?_
    refine post_bind (hh1.reads (keeps_derefGrad _)) fun o h2 hh2 _ => ?_
    exact hh2.tryAccGrad _ _ _
  | cat dim => exact Trk.catBackGo t dim _ _ ht
  | knownGrad k =>
    refine post_bind (ht.reads (keeps_inputAt _ _)) fun a h1 hh1 _ => ?_
    refine post_bind (hh1.reads (keeps_derefGrad _)) fun o h2 hh2 _ => ?_
    exact hh2.tryAccGrad _ _ _

theorem Trk.setGF (ht : Trk h0 h) (t : Nat) (g : GradFn) : Post (Trk h0) (Tensor.setGF t g h) fun _ _ => True := by
  unfold Tensor.setGF
  refine post_bind (post_getT ht) fun i h1 hh1 hi => ?_
  obtain ⟨rfl, hi⟩ := hi
  exact hh1.upd hi rfl rfl rfl rfl

theorem keeps_getGradFn {R : Heap F → Heap F → Prop} [Pre R] (p : Nat) : Keeps (F := F) R (getGradFn p) := by
  unfold getGradFn
  refine keeps_bind (keeps_getT _) fun i => ?_
  cases i.gradFn with
  | none => exact keeps_undef _
  | some g => exact keeps_pure _
theorem keeps_getVersion {R : Heap F → Heap F → Prop} [Pre R] : Keeps (F := F) R getVersion := fun _ => Pre.refl _
theorem keeps_heapSize {R : Heap F → Heap F → Prop} [Pre R] : Keeps (F := F) R heapSize := fun _ => Pre.refl _

theorem Trk.bumpVersion (ht : Trk h0 h) : Post (Trk h0) (Tensor.bumpVersion h) fun _ _ => True := ⟨ht.of_ts rfl, trivial⟩

theorem Trk.queueLoop {visit : Nat → M F (List Nat)}
    (hv : ∀ (t : Nat) (h : Heap F), Trk h0 h → Post (Trk h0) (visit t h) fun _ _ => True) : ∀ (n : Nat) (q : List Nat)
    (h : Heap F), Trk h0 h → Post (Trk h0) (Tensor.queueLoop visit n q h) fun _ _ => True
  | _, [], _, ht => by unfold Tensor.queueLoop; exact post_pure ht trivial
  | 0, _ :: _, _, ht => trivial
  | n + 1, t :: q, _, ht => by
    unfold Tensor.queueLoop
    exact post_bind (hv t _ ht) fun _ h1 hh1 _ => Trk.queueLoop hv n _ _ hh1

theorem Trk.resetInputs : ∀ (l : List Nat) {h : Heap F}, Trk h0 h →
    Post (Trk h0) (Tensor.resetInputs l h) fun _ _ => True
  | [], _, ht => post_pure ht trivial
  | x :: xs, _, ht => by
    unfold Tensor.resetInputs
    refine post_bind (post_getT ht) fun i h1 hh1 hi => ?_
    refine post_bind (hh1.reads keeps_getVersion) fun v h2 hh2 _ => ?_
    cases i.gradFn with
    | none => exact Trk.resetInputs xs hh2
    | some g =>
      simp only
      split
      · refine post_bind (hh2.setGF _ _) fun _ h3 hh3 _ => ?_
        exact post_bind (Trk.resetInputs xs hh3) fun _ h4 hh4 _ => post_pure hh4 trivial
      · exact Trk.resetInputs xs hh2

theorem Trk.countInputs : ∀ (l : List Nat) {h : Heap F}, Trk h0 h →
    Post (Trk h0) (Tensor.countInputs l h) fun _ _ => True
  | [], _, ht => post_pure ht trivial
  | x :: xs, _, ht => by
    unfold Tensor.countInputs
    refine post_bind (post_getT ht) fun i h1 hh1 hi => ?_
    refine post_bind (hh1.reads keeps_getVersion) fun v h2 hh2 _ => ?_
    cases i.gradFn with
    | none => exact Trk.countInputs xs hh2
    | some g =>
      simp only
      split
      · refine post_bind (hh2.setGF _ _) fun _ h3 hh3 _ => ?_
        exact post_bind (Trk.countInputs xs hh3) fun _ h4 hh4 _ => post_pure hh4 trivial
      · refine post_bind (hh2.setGF _ _) fun _ h3 hh3 _ => ?_
        exact Trk.countInputs xs hh3

theorem Trk.readyInputs : ∀ (l : List Nat) {h : Heap F}, Trk h0 h →
    Post (Trk h0) (Tensor.readyInputs l h) fun _ _ => True
  | [], _, ht => post_pure ht trivial
  | x :: xs, _, ht => by
    unfold Tensor.readyInputs
    refine post_bind (post_getT ht) fun i h1 hh1 hi => ?_
    refine post_bind (hh1.reads keeps_getVersion) fun v h2 hh2 _ => ?_
    cases i.gradFn with
    | none => exact Trk.readyInputs xs hh2
    | some g =>
      simp only
      split
      · refine post_bind (hh2.setGF _ _) fun _ h3 hh3 _ => ?_
        exact post_bind (Trk.readyInputs xs hh3) fun _ h4 hh4 _ => post_pure hh4 trivial
      · exact Trk.readyInputs xs hh2

theorem Trk.refreshNOutway (ht : Trk h0 h) (t : Nat) : Post (Trk h0) (Tensor.refreshNOutway t h) fun _ _ => True := by
  unfold Tensor.refreshNOutway
  refine post_bind (ht.reads keeps_heapSize) fun n h1 hh1 _ => ?_
  refine post_bind hh1.bumpVersion fun v h1 hh1 _ => ?_
  refine post_bind (hh1.reads (keeps_getGradFn _)) fun g h1 hh1 _ => ?_
  refine post_bind (hh1.setGF _ _) fun _ h1 hh1 _ => ?_
  refine post_bind (Trk.queueLoop (fun x h hh => ?_) _ _ _ hh1) fun _ h1 hh1 _ => ?_
  · exact post_bind (hh.reads (keeps_getGradFn _)) fun g h1 hh1 _ => Trk.resetInputs _ hh1
  refine post_bind hh1.bumpVersion fun v h1 hh1 _ => ?_
  refine post_bind (hh1.reads (keeps_getGradFn _)) fun g h1 hh1 _ => ?_
  refine post_bind (hh1.setGF _ _) fun _ h1 hh1 _ => ?_
  refine Trk.queueLoop (fun x h hh => ?_) _ _ _ hh1
  exact post_bind (hh.reads (keeps_getGradFn _)) fun g h1 hh1 _ => Trk.countInputs _ hh1

theorem Trk.backVisit (ht : Trk h0 h) (t : Nat) : Post (Trk h0) (Tensor.backVisit t h) fun _ _ => True := by
  unfold Tensor.backVisit
  refine post_bind (ht.reads (keeps_getGradFn _)) fun g h1 hh1 _ => ?_
  refine post_bind (hh1.stepBack _ _) fun _ h1 hh1 _ => ?_
  refine post_bind (post_getT hh1) fun i h1 hh1 hi => ?_
  obtain ⟨rfl, hi⟩ := hi
  split
  · refine post_bind (hh1.upd hi rfl rfl rfl rfl) fun _ h1 hh1 _ => ?_
    exact post_bind (hh1.reads (keeps_getGradFn _)) fun g h1 hh1 _ => Trk.readyInputs _ hh1
  · exact post_bind (hh1.reads (keeps_getGradFn _)) fun g h1 hh1 _ => Trk.readyInputs _ hh1

theorem Trk.backward (ht : Trk h0 h) (t : Nat) : Post (Trk h0) (Tensor.backward t h) fun _ _ => True := by
  unfold Tensor.backward
  refine post_bind (post_getT ht) fun i h1 hh1 hi => ?_
  refine post_bind (hh1.reads (keeps_expect _)) fun _ h1 hh1 _ => ?_
  refine post_bind (hh1.reads (keeps_expect _)) fun _ h1 hh1 _ => ?_
  refine post_bind (hh1.reads (keeps_expect _)) fun _ h1 hh1 _ => ?_
  refine post_bind (hh1.reads keeps_heapSize) fun n h1 hh1 _ => ?_
  refine post_bind (hh1.refreshNOutway _) fun _ h1 hh1 _ => ?_
  refine post_bind (hh1.onesLike _) fun o h1 hh1 _ => ?_
  refine post_bind (post_getT hh1) fun i h1 hh1 hi => ?_
  obtain ⟨rfl, hi⟩ := hi
  refine post_bind (hh1.upd hi rfl rfl rfl rfl) fun _ h1 hh1 _ => ?_
  refine post_bind hh1.bumpVersion fun v h1 hh1 _ => ?_
  refine post_bind (hh1.reads (keeps_getGradFn _)) fun g h1 hh1 _ => ?_
  refine post_bind (hh1.setGF _ _) fun _ h1 hh1 _ => ?_
  exact Trk.queueLoop (fun x h hh => hh.backVisit x) _ _ _ hh1

theorem Trk.zeroGrad (ht : Trk h0 h) (t : Nat) : Post (Trk h0) (Tensor.zeroGrad t h) fun _ _ => True := by
  unfold Tensor.zeroGrad
  refine post_bind (post_getT ht) fun i h1 hh1 hi => ?_
  cases i.grad with
  | none => exact post_pure hh1 trivial
  | some g =>
    refine post_bind (post_getT hh1) fun i h1 hh1 hi => ?_
    exact post_true (hh1.kernel (keeps_zeroS trivial))

theorem Trk.release (ht : Trk h0 h) (t : Nat) : Post (Trk h0) (Tensor.release t h) fun _ _ => True := by
  unfold Tensor.release
  refine post_bind (post_getT ht) fun i h1 hh1 hi => ?_
  unfold releaseS
  exact post_true (post_ts_storage (s' := fun s => _) hh1)

theorem Trk.setRetainGrad (ht : Trk h0 h) (t : Nat) (b : Bool) :
    Post (Trk h0) (Tensor.setRetainGrad t b h) fun _ _ => True := by
  unfold Tensor.setRetainGrad
  refine post_bind (post_getT ht) fun i h1 hh1 hi => ?_
  obtain ⟨rfl, hi⟩ := hi
  exact hh1.upd hi rfl rfl rfl rfl

end INNC
