import Verif.Lemmas.Slots
/-
Gradients: where their storages are, and what one step of back-propagation needs and keeps.
-/
namespace INNC
open Spec Tensor
variable {F : Type}

/-! ### The storages of gradients -/

/-- Number of elements of a storage, also of one that is not allocated yet. -/
def Storage.cap (s : Storage F) : Nat :=
  match s.blob with
  | some c => c.length
  | none => s.size / s.dt.size

/-- The positions of the view are elements of the storage `d`; the storage is initialised if it is allocated. -/
structure Seat (h : Heap F) (v : Layout) (dt : DType) (d : Nat) : Prop where
  strides : v.strides.length = v.sizes.length
  offset : v.offset < 18446744073709551616
  cells : ∃ s, h.st[d]? = some s ∧ s.dt = dt ∧ s.cap * dt.size < 4611686018427387904 ∧
    (∀ idx, InBox v.sizes idx → ∃ p : Nat, position v idx = p ∧ p < s.cap) ∧
    ∀ c, s.blob = some c → ∀ p, p < c.length → ∃ w : Val F, c[p]? = some (some w) ∧ w.HasType dt

/-- Storages that are not allocated stay so or are filled. -/
def Idles (h h' : Heap F) : Prop := ∀ (d : Nat) (s : Storage F), h.st[d]? = some s → s.blob = none →
  ∃ s', h'.st[d]? = some s' ∧ s'.dt = s.dt ∧ s'.cap = s.cap ∧
    ∀ c, s'.blob = some c → ∀ p, p < c.length → ∃ w : Val F, c[p]? = some (some w) ∧ w.HasType s.dt

theorem Seat.keep {h h' : Heap F} {v : Layout} {dt : DType} {d : Nat} (hs : Seat h v dt d) (hr : Retains h h') (hi : Idles h h') :
    Seat h' v dt d := by
  obtain ⟨s, h1, h2, h3, h4, h5⟩ := hs.cells
  refine ⟨hs.strides, hs.offset, ?_⟩
  cases hb : s.blob with
  | none =>
    obtain ⟨s', e1, e2, e3, e4⟩ := hi d s h1 hb
    exact ⟨s', e1, e2.trans h2, by rw [e3]; exact h3, fun idx hx => by rw [e3]; exact h4 idx hx, by rw [← h2]; exact e4⟩
  | some c =>
    obtain ⟨s', e1, e2, e3⟩ := hr.st d s h1
    obtain ⟨c', f1, f2, f3⟩ := e3 c hb
    have hc : s'.cap = s.cap := by unfold Storage.cap; rw [f1, hb]; exact f2
    refine ⟨s', e1, e2.trans h2, by rw [hc]; exact h3, fun idx hx => by rw [hc]; exact h4 idx hx, fun c2 hc2 p hp => ?_⟩
    rw [f1] at hc2
    obtain rfl := Option.some.inj hc2
    obtain ⟨w, hw, ht⟩ := h5 c hb p (by omega)
    obtain ⟨w', hw', ht'⟩ := f3 p w hw (by rw [h2]; exact ht)
    exact ⟨w', hw', by rw [← h2]; exact ht'⟩

theorem Seat.sits {h : Heap F} {i : Impl} (hs : Seat h i.view i.dtype i.data) {s : Storage F} {c : List (Option (Val F))}
    (h1 : h.st[i.data]? = some s) (hc : s.blob = some c) : Sits h i := by
  obtain ⟨s', g1, g2, g3, g4, g5⟩ := hs.cells
  rw [h1] at g1
  obtain rfl := Option.some.inj g1
  have hcap : s.cap = c.length := by unfold Storage.cap; rw [hc]
  rw [hcap] at g3 g4
  refine ⟨⟨hs.strides, hs.offset, s, c, h1, g2, hc, g3, g4⟩, fun p hp => ?_⟩
  obtain ⟨s2, c2, q1, q2, q3, q4⟩ := hp
  rw [h1] at q1
  obtain rfl := Option.some.inj q1
  rw [hc] at q3
  obtain rfl := Option.some.inj q3
  obtain ⟨w, hw, ht⟩ := g5 c hc p q4
  exact ⟨s, c, w, h1, g2, hc, hw, ht⟩

theorem Sits.seat {h : Heap F} {i : Impl} (hs : Sits h i) : Seat h i.view i.dtype i.data := by
  obtain ⟨s, c, h1, h2, h3, h4, h5⟩ := hs.cells
  have hcap : s.cap = c.length := by unfold Storage.cap; rw [h3]
  refine ⟨hs.strides, hs.offset, s, h1, h2, by rw [hcap]; exact h4, by rw [hcap]; exact h5, fun c' hc' p hp => ?_⟩
  rw [h3] at hc'
  obtain rfl := Option.some.inj hc'
  obtain ⟨s2, c2, w, q1, q2, q3, q4, q5⟩ := hs.full p ⟨s, c, h1, h2, h3, hp⟩
  rw [h1] at q1
  obtain rfl := Option.some.inj q1
  rw [h3] at q3
  obtain rfl := Option.some.inj q3
  exact ⟨w, q4, q5⟩

/-- The gradient `g` of a tensor `i` has its type and shape, and its storage has room for the tensor. -/
def Slot (h : Heap F) (i : Impl) (g : Nat) : Prop :=
  ∃ j, h.ts[g]? = some j ∧ j.dtype = i.dtype ∧ j.view.sizes = i.view.sizes ∧ Seat h j.view j.dtype j.data ∧ Seat h i.view i.dtype j.data ∧
    (vol j.view.sizes ≠ 0 → Tame j.view.sizes j.view.strides)

def Seated (h : Heap F) : Prop := ∀ (x g : Nat) (i : Impl), h.ts[x]? = some i → i.grad = some g → Slot h i g

theorem Slot.keep {h h' : Heap F} {i i' : Impl} {g : Nat} (hs : Slot h i g) (h1 : i'.dtype = i.dtype) (h2 : i'.view = i.view)
    (hr : Retains h h') (hi : Idles h h') : Slot h' i' g := by
  obtain ⟨j, e1, e2, e3, e4, e5, e6⟩ := hs
  obtain ⟨j', f1, f2, f3, f4⟩ := hr.ts g j e1
  refine ⟨j', f1, by rw [f2, h1, e2], by rw [f3, h2, e3], ?_, ?_, by rw [f3]; exact e6⟩
  · rw [f2, f3, f4]; exact e4.keep hr hi
  · rw [h1, h2, f4]; exact e5.keep hr hi

/-- The gradient of `x` is allocated. -/
def Fed (h : Heap F) (x : Nat) : Prop :=
  ∃ i g j s c, h.ts[x]? = some i ∧ i.grad = some g ∧ h.ts[g]? = some j ∧ h.st[j.data]? = some s ∧ s.blob = some c

theorem Fed.sits {h : Heap F} {x : Nat} (hf : Fed h x) (hs : Seated h) {i : Impl} (hi : h.ts[x]? = some i) :
    ∃ g j, i.grad = some g ∧ h.ts[g]? = some j ∧ j.dtype = i.dtype ∧ j.view.sizes = i.view.sizes ∧ Sits h j ∧
      Sits h { i with data := j.data } ∧ Var h g := by
  obtain ⟨i', g, j, s, c, h1, h2, h3, h4, h5⟩ := hf
  rw [hi] at h1
  obtain rfl := Option.some.inj h1
  obtain ⟨j', e1, e2, e3, e4, e5, e6⟩ := hs x g i hi h2
  rw [h3] at e1
  obtain rfl := Option.some.inj e1
  have hsj := e4.sits h4 h5
  refine ⟨g, j, h2, h3, e2, e3, hsj, Seat.sits (i := { i with data := j.data }) e5 h4 h5, j, h3, hsj, e6⟩

/-! ### Computations that keep gradients -/

/-- What a step of back-propagation keeps. -/
structure Feeds (h h' : Heap F) : Prop where
  ret : Retains h h'
  idles : Idles h h'
  old : ∀ (x : Nat) (i : Impl), h.ts[x]? = some i → ∃ i', h'.ts[x]? = some i' ∧ i'.requiresGrad = i.requiresGrad ∧
    i'.retainGrad = i.retainGrad ∧ (∀ g, i.grad = some g → i'.grad = some g) ∧
    i'.gradFn.map (fun f => (f.kind, f.inputs)) = i.gradFn.map (fun f => (f.kind, f.inputs))
  new : ∀ (x : Nat) (i' : Impl), h'.ts[x]? = some i' → h.ts[x]? = none → i'.gradFn = none ∧ i'.requiresGrad = false
  slots : Seated h → Seated h'

theorem Idles.refl (h : Heap F) : Idles h h := fun d s hs hb => ⟨s, hs, rfl, rfl, fun c hc => by rw [hb] at hc; cases hc⟩

theorem Idles.trans {a b c : Heap F} (h1 : Idles a b) (h2 : Idles b c) (hr : Retains b c) : Idles a c := fun d s hs hb => by
  obtain ⟨s1, e1, e2, e3, e4⟩ := h1 d s hs hb
  cases hb1 : s1.blob with
  | none =>
    obtain ⟨s2, f1, f2, f3, f4⟩ := h2 d s1 e1 hb1
    exact ⟨s2, f1, f2.trans e2, f3.trans e3, by rw [← e2]; exact f4⟩
  | some cells =>
    obtain ⟨s2, f1, f2, f3⟩ := hr.st d s1 e1
    obtain ⟨c2, g1, g2, g3⟩ := f3 cells hb1
    refine ⟨s2, f1, f2.trans e2, ?_, fun c' hc' p hp => ?_⟩
    · rw [← e3]; unfold Storage.cap; rw [g1, hb1]; exact g2
    · rw [g1] at hc'
      obtain rfl := Option.some.inj hc'
      obtain ⟨w, hw, ht⟩ := e4 cells hb1 p (by omega)
      obtain ⟨w', hw', ht'⟩ := g3 p w hw (by rw [e2]; exact ht)
      exact ⟨w', hw', by rw [← e2]; exact ht'⟩

theorem Feeds.refl (h : Heap F) : Feeds h h :=
  ⟨.refl h, .refl h, fun x i hi => ⟨i, hi, rfl, rfl, fun _ hg => hg, rfl⟩, fun x i hi hn => by { rw [hi] at hn; cases hn }, id⟩

theorem Feeds.trans {a b c : Heap F} (h1 : Feeds a b) (h2 : Feeds b c) : Feeds a c := by
  refine ⟨h1.ret.trans h2.ret, h1.idles.trans h2.idles h2.ret, fun x i hi => ?_, fun x i' hi' hn => ?_, fun hs => h2.slots (h1.slots hs)⟩
  · obtain ⟨j, e1, e2, e3, e4, e5⟩ := h1.old x i hi
    obtain ⟨k, f1, f2, f3, f4, f5⟩ := h2.old x j e1
    exact ⟨k, f1, f2.trans e2, f3.trans e3, fun g hg => f4 g (e4 g hg), f5.trans e5⟩
  · cases hb : b.ts[x]? with
    | none => exact h2.new x i' hi' hb
    | some j =>
      have h3 := h1.new x j hb hn
      obtain ⟨k, f1, f2, f3, f4, f5⟩ := h2.old x j hb
      rw [hi'] at f1
      obtain rfl := Option.some.inj f1
      rw [h3.1] at f5
      exact ⟨Option.map_eq_none_iff.1 f5, f2.trans h3.2⟩

theorem Feeds.fed {h h' : Heap F} (hk : Feeds h h') {x : Nat} (hf : Fed h x) : Fed h' x := by
  obtain ⟨i, g, j, s, c, h1, h2, h3, h4, h5⟩ := hf
  obtain ⟨i', e1, _, _, e4, _⟩ := hk.old x i h1
  obtain ⟨j', f1, _, _, f4⟩ := hk.ret.ts g j h3
  obtain ⟨s', g1, _, g3⟩ := hk.ret.st j.data s h4
  obtain ⟨c', k1, _⟩ := g3 c h5
  exact ⟨i', g, j', s', c', e1, e4 g h2, f1, by rw [f4]; exact g1, k1⟩

/-- The computation keeps gradients, returns with `Q` or throws, and its undefined behaviour comes from values. -/
def Feed {α : Type} (h : Heap F) (o : Out (Heap F) α) (Q : α → Heap F → Prop) : Prop :=
  match o with
  | .ok a h' => Feeds h h' ∧ Q a h'
  | .throw _ h' => Feeds h h'
  | .ub u => ByValue u

section
variable {α β : Type} {h : Heap F}

theorem feed_bind {x : M F α} {f : α → M F β} {Q : α → Heap F → Prop} {R : β → Heap F → Prop} (hx : Feed h (x h) Q)
    (hf : ∀ a h', Feeds h h' → Q a h' → Feed h' (f a h') R) : Feed h ((x >>= f) h) R := by
  rw [M.bind_def]
  cases hxh : x h with
  | ok a h1 =>
    rw [hxh] at hx
    have := hf a h1 hx.1 hx.2
    simp only
    unfold Feed at this ⊢
    split at this
    · exact ⟨hx.1.trans this.1, this.2⟩
    · exact hx.1.trans this
    · exact this
  | throw e h1 => rw [hxh] at hx; exact hx
  | ub u => rw [hxh] at hx; exact hx

theorem feed_pure {Q : α → Heap F → Prop} {a : α} (hq : Q a h) : Feed h ((pure a : M F α) h) Q := ⟨.refl h, hq⟩

theorem feed_mono {o : Out (Heap F) α} {Q R : α → Heap F → Prop} (ho : Feed h o Q) (hq : ∀ a h', Feeds h h' → Q a h' → R a h') :
    Feed h o R := by
  unfold Feed at *
  split
  · exact ⟨ho.1, hq _ _ ho.1 ho.2⟩
  · exact ho
  · exact ho

theorem feed_getT {t : Nat} {i : Impl} (hi : h.ts[t]? = some i) : Feed h ((getT t : M F Impl) h) fun j h' => j = i ∧ h' = h := by
  rw [getT_ok hi]; exact ⟨.refl h, rfl, rfl⟩

/-- Computations that only add tensors and write elements. -/
structure Swells (h h' : Heap F) : Prop where
  old : ∀ (x : Nat) (i : Impl), h.ts[x]? = some i → h'.ts[x]? = some i
  new : ∀ (x : Nat) (i' : Impl), h'.ts[x]? = some i' → h.ts[x]? = some i' ∨ i'.grad = none ∧ i'.gradFn = none ∧ i'.requiresGrad = false
  idle : ∀ (d : Nat) (s : Storage F), h.st[d]? = some s → s.blob = none → h'.st[d]? = some s

instance : Pre (F := F) Swells where
  refl h := ⟨fun _ _ h => h, fun _ _ h => .inl h, fun _ _ h _ => h⟩
  trans h1 h2 := ⟨fun x i hi => h2.old x i (h1.old x i hi), fun x i hi => (h2.new x i hi).elim (h1.new x i) .inr,
    fun d s hs hb => h2.idle d s (h1.idle d s hs hb) hb⟩

theorem Swells.feeds {h' : Heap F} (hg : Swells h h') (hr : Retains h h') : Feeds h h' := by
  have hid : Idles h h' := fun d s hs hb => ⟨s, hg.idle d s hs hb, rfl, rfl, fun c hc => by rw [hb] at hc; cases hc⟩
  refine ⟨hr, hid, fun x i hi => ⟨i, hg.old x i hi, rfl, rfl, fun _ h => h, rfl⟩, fun x i' hi' hn => ?_, fun hs x g i hi hig => ?_⟩
  · rcases hg.new x i' hi' with h | h
    · rw [hn] at h; cases h
    · exact h.2
  · rcases hg.new x i hi with h | h
    · exact (hs x g i h hig).keep rfl rfl hr hid
    · rw [h.1] at hig; cases hig

theorem swells_writes {x : M F α} (hx : Keeps (Writes fun _ => True) x) : Keeps Swells x :=
  keeps_mono hx fun a b h => ⟨fun x i hi => by rw [h.ts]; exact hi, fun x i hi => .inl (by rw [← h.ts]; exact hi),
    (nk_writes_idle h)⟩

theorem swells_newS (s : Storage F) : Keeps Swells (newS s) := fun h => ⟨fun _ _ h => h, fun _ _ h => .inl h, fun d s' hs _ => by
  show (h.st ++ [s])[d]? = some s'
  rw [List.getElem?_append_left (getElem?_lt hs)]; exact hs⟩
theorem swells_createOn (dt : DType) (v : Layout) (d : Nat) : Keeps (F := F) Swells (createOn dt v d) := fun h => by
  refine ⟨fun x i hi => ?_, fun x i hi => ?_, fun d s' hs _ => hs⟩
  · show (h.ts ++ [_])[x]? = some i
    rw [List.getElem?_append_left (getElem?_lt hi)]; exact hi
  · have hi : (h.ts ++ [_])[x]? = some i := hi
    by_cases hlt : x < h.ts.length
    · rw [List.getElem?_append_left hlt] at hi
      exact .inl hi
    · rw [List.getElem?_append_right (by omega)] at hi
      cases hk : x - h.ts.length with
      | zero =>
        rw [hk] at hi
        simp only [List.getElem?_cons_zero, Option.some.injEq] at hi
        subst hi
        exact .inr ⟨rfl, rfl, rfl⟩
      | succ n => rw [hk] at hi; simp at hi
theorem swells_create (dt : DType) (v : Layout) (b : Bool) : Keeps (F := F) Swells (create dt v b) := by
  unfold create mkStorage
  have key : ∀ s : Storage F, Keeps Swells (newS s >>= fun d => createOn dt v d) := fun s =>
    keeps_bind (swells_newS s) fun d => swells_createOn _ _ _
  split
  · split
    · exact key _
    · exact fun h => Pre.refl (R := Swells) h
  · exact key _

theorem feed_of_mem {x : M F α} {Q : α → Heap F → Prop} (hm : Mem h (x h) Q) (hk : Keeps Swells x) : Feed h (x h) Q := by
  have := hk h
  cases e : x h with
  | ok a h' => rw [e] at this hm; exact ⟨this.feeds hm.1, hm.2⟩
  | throw ex h' => rw [e] at this hm; exact this.feeds hm
  | ub u => rw [e] at hm; exact hm

variable [FOps F]

theorem swells_createScalar (dt : DType) (v : Val F) : Keeps Swells (createScalar dt v) := by
  unfold createScalar
  refine keeps_bind (swells_create _ _ _) fun t => keeps_bind (keeps_getT _) fun i => ?_
  exact keeps_bind (swells_writes (keeps_store trivial _ _ _)) fun _ => keeps_pure _
theorem swells_full (s : List Nat) (nt : DType) (v : Val F) (dt : DType) : Keeps Swells (full s nt v dt) := by
  unfold full
  refine keeps_bind (swells_createScalar _ _) fun t => keeps_bind (swells_create _ _ _) fun r => keeps_bind (keeps_getT _) fun i =>
    keeps_bind (keeps_getT _) fun i => ?_
  exact keeps_bind (swells_writes (keeps_tensorFill trivial _ _ _)) fun _ => keeps_pure _
theorem swells_onesLike (t : Nat) : Keeps (F := F) Swells (onesLike t) := by
  unfold onesLike
  exact keeps_bind (keeps_getT _) fun i => swells_full _ _ _ _

end

end INNC
