import Verif.Lemmas.FeedKernels
/-
One step of back-propagation is memory safe and keeps gradients.
-/
namespace INNC
open Spec Tensor
variable {F : Type} [FOps F] {h : Heap F}

/-- The tensor `x` can accumulate a gradient: it does not require grad, or it has a gradient, or its elements fill its storage. -/
def Open (h : Heap F) (x : Nat) : Prop := ∃ i, h.ts[x]? = some i ∧ (i.requiresGrad = true →
  (vol i.view.sizes ≠ 0 → Tame i.view.sizes i.view.strides) ∧ (i.grad = none → Dense i.view ∧ Modest i.view.sizes i.dtype))

omit [FOps F] in
theorem Open.feeds {h' : Heap F} {x : Nat} (ho : Open h x) (hk : Feeds h h') : Open h' x := by
  obtain ⟨i, hi, h1⟩ := ho
  obtain ⟨i', e1, e2, e3, e4, e5⟩ := hk.old x i hi
  obtain ⟨i2, f1, f2, f3, f4⟩ := hk.ret.ts x i hi
  rw [e1] at f1
  obtain rfl := Option.some.inj f1
  refine ⟨i', e1, fun hr => ?_⟩
  rw [e2] at hr
  refine ⟨by rw [f3]; exact (h1 hr).1, fun hg => ?_⟩
  rw [f2, f3]
  refine (h1 hr).2 ?_
  cases hg' : i.grad with
  | none => rfl
  | some g => rw [e4 g hg'] at hg; cases hg

/-- The storage `d`, filled with zeros. -/
def Heap.zeroed (h : Heap F) (d : Nat) (s : Storage F) : Heap F :=
  { h with st := h.st.set d { s with blob := some (List.replicate s.cap (some (zeroVal s.dt))) } }

omit [FOps F] in
theorem feeds_of {h' : Heap F} (hr : Retains h h') (hid : Idles h h')
    (old : ∀ (x : Nat) (i : Impl), h.ts[x]? = some i → ∃ i', h'.ts[x]? = some i' ∧ i'.requiresGrad = i.requiresGrad ∧
      i'.retainGrad = i.retainGrad ∧ (∀ g, i.grad = some g → i'.grad = some g) ∧
      i'.gradFn.map (fun f => (f.kind, f.inputs)) = i.gradFn.map (fun f => (f.kind, f.inputs)))
    (new : ∀ (x : Nat) (i' : Impl), h'.ts[x]? = some i' → h.ts[x]? = none → i'.gradFn = none ∧ i'.requiresGrad = false)
    (gr : ∀ (x g : Nat) (i' : Impl), h'.ts[x]? = some i' → i'.grad = some g → (∃ i, h.ts[x]? = some i ∧ i.grad = some g) ∨ Slot h' i' g) :
    Feeds h h' := by
  refine ⟨hr, hid, old, new, fun hs x g i' hi' hg => ?_⟩
  rcases gr x g i' hi' hg with ⟨i, hi, hig⟩ | h
  · obtain ⟨i2, f1, f2, f3, f4⟩ := hr.ts x i hi
    rw [hi'] at f1
    obtain rfl := Option.some.inj f1
    exact (hs x g i hi hig).keep f2 f3 hr hid
  · exact h

/-- Filling a storage that is not allocated. -/
theorem feeds_zeroed {d : Nat} {s : Storage F} (hs : h.st[d]? = some s) (hb : s.blob = none) : Feeds h (h.zeroed d s) := by
  have hlt := getElem?_lt hs
  refine feeds_of ⟨fun t i hi => ⟨i, hi, rfl, rfl, rfl⟩, fun e s' hs' => ?_⟩ (fun e s' hs' hb' => ?_)
    (fun x i hi => ⟨i, hi, rfl, rfl, fun _ h => h, rfl⟩) (fun x i hi hn => by rw [show h.ts[x]? = some i from hi] at hn; cases hn)
    fun x g i hi hg => .inl ⟨i, hi, hg⟩
  · by_cases he : d = e
    · subst he
      rw [hs] at hs'
      obtain rfl := Option.some.inj hs'
      exact ⟨_, List.getElem?_set_self hlt, rfl, fun c hc => by rw [hb] at hc; cases hc⟩
    · exact ⟨s', by rw [Heap.zeroed, List.getElem?_set_ne he]; exact hs', rfl, fun c' hc' => ⟨c', hc', rfl, fun q w hq hw => ⟨w, hq, hw⟩⟩⟩
  · by_cases he : d = e
    · subst he
      rw [hs] at hs'
      obtain rfl := Option.some.inj hs'
      refine ⟨_, List.getElem?_set_self hlt, rfl, ?_, fun c hc p hp => ?_⟩
      · simp [Storage.cap]
      · simp only [Option.some.injEq] at hc
        subst hc
        exact ⟨zeroVal s.dt, List.getElem?_replicate_of_lt (by simpa using hp), zeroVal_hasType _⟩
    · exact ⟨s', by rw [Heap.zeroed, List.getElem?_set_ne he]; exact hs', rfl, rfl, fun c hc => by rw [hb'] at hc; cases hc⟩

/-- A new gradient, filled with zeros. -/
def Heap.granted (h : Heap F) (p : Nat) (i : Impl) (dt : DType) (v : Layout) : Heap F :=
  { h with
    st := h.st ++ [⟨dt, dt.size * vol v.sizes, some (List.replicate (vol v.sizes) (some (zeroVal dt)))⟩]
    ts := (h.ts ++ [(⟨dt, v, h.st.length, none, false, false, none⟩ : Impl)]).set p { i with grad := some h.ts.length } }

theorem feeds_granted {p : Nat} {i : Impl} (hi : h.ts[p]? = some i) (hd : Dense i.view) (hm : Modest i.view.sizes i.dtype)
    (ht : vol i.view.sizes ≠ 0 → Tame i.view.sizes i.view.strides) (hn : i.grad = none) :
    Feeds h (h.granted p i i.dtype i.view) ∧ Fed (h.granted p i i.dtype i.view) p := by
  have hlt := getElem?_lt hi
  have oldT : ∀ (x : Nat) (j : Impl), h.ts[x]? = some j → (h.granted p i i.dtype i.view).ts[x]? =
      some (if x = p then { i with grad := some h.ts.length } else j) := fun x j hj => by
    simp only [Heap.granted]
    by_cases hx : x = p
    · subst hx
      rw [List.getElem?_set_self (by simp; omega), if_pos rfl]
    · rw [List.getElem?_set_ne (Ne.symm hx), if_neg hx, List.getElem?_append_left (getElem?_lt hj)]; exact hj
  have newT : (h.granted p i i.dtype i.view).ts[h.ts.length]? = some ⟨i.dtype, i.view, h.st.length, none, false, false, none⟩ := by
    simp only [Heap.granted]
    rw [List.getElem?_set_ne (by omega)]; simp
  have backT : ∀ (x : Nat) (j : Impl), (h.granted p i i.dtype i.view).ts[x]? = some j → (x = p ∧ j = { i with grad := some h.ts.length }) ∨
      h.ts[x]? = some j ∨ (h.ts[x]? = none ∧ j = ⟨i.dtype, i.view, h.st.length, none, false, false, none⟩) := fun x j hj => by
    by_cases hx : x = p
    · subst hx
      rw [oldT x i hi, if_pos rfl] at hj
      exact .inl ⟨rfl, (Option.some.inj hj).symm⟩
    · cases hx' : h.ts[x]? with
      | some j' =>
        rw [oldT x j' hx', if_neg hx] at hj
        exact .inr (.inl hj)
      | none =>
        have hge := List.getElem?_eq_none_iff.1 hx'
        by_cases he : x = h.ts.length
        · rw [he, newT] at hj
          exact .inr (.inr ⟨rfl, (Option.some.inj hj).symm⟩)
        · have : (h.granted p i i.dtype i.view).ts[x]? = none := by
            rw [List.getElem?_eq_none_iff]
            simp only [Heap.granted, List.length_set, List.length_append, List.length_singleton]
            omega
          rw [this] at hj; cases hj
  have oldS : ∀ (d : Nat) (s : Storage F), h.st[d]? = some s → (h.granted p i i.dtype i.view).st[d]? = some s := fun d s hs => by
    simp only [Heap.granted]
    rw [List.getElem?_append_left (getElem?_lt hs)]; exact hs
  have newS : (h.granted p i i.dtype i.view).st[h.st.length]? =
      some ⟨i.dtype, i.dtype.size * vol i.view.sizes, some (List.replicate (vol i.view.sizes) (some (zeroVal i.dtype)))⟩ := by
    simp [Heap.granted]
  have hseat : Seat (h.granted p i i.dtype i.view) i.view i.dtype h.st.length := by
    refine ⟨hd.strides, hd.offset, _, newS, rfl, ?_, fun idx hb => ?_, fun c hc q hq => ?_⟩
    · simp only [Storage.cap, List.length_replicate]; exact hm
    · obtain ⟨h1, h2⟩ := hd.inside idx hb
      exact ⟨(position i.view idx).toNat, by omega, by simp only [Storage.cap, List.length_replicate]; omega⟩
    · simp only [Option.some.injEq] at hc
      subst hc
      exact ⟨zeroVal i.dtype, List.getElem?_replicate_of_lt (by simpa using hq), zeroVal_hasType _⟩
  refine ⟨feeds_of ⟨fun t j hj => ?_, fun d s hs => ⟨s, oldS d s hs, rfl, fun c' hc' => ⟨c', hc', rfl, fun q w hq hw => ⟨w, hq, hw⟩⟩⟩⟩
    (fun d s hs hb => ⟨s, oldS d s hs, rfl, rfl, fun c hc => by rw [hb] at hc; cases hc⟩) (fun x j hj => ?_) (fun x j hj hno => ?_)
    fun x g j hj hg => ?_, ?_⟩
  · refine ⟨_, oldT t j hj, ?_⟩
    by_cases hx : t = p
    · subst hx
      rw [hi] at hj
      obtain rfl := Option.some.inj hj
      rw [if_pos rfl]; exact ⟨rfl, rfl, rfl⟩
    · rw [if_neg hx]; exact ⟨rfl, rfl, rfl⟩
  · refine ⟨_, oldT x j hj, ?_⟩
    by_cases hx : x = p
    · subst hx
      rw [hi] at hj
      obtain rfl := Option.some.inj hj
      rw [if_pos rfl]; exact ⟨rfl, rfl, fun g hg => absurd (hn.symm.trans hg) (by simp), rfl⟩
    · rw [if_neg hx]; exact ⟨rfl, rfl, fun _ h => h, rfl⟩
  · rcases backT x j hj with ⟨rfl, _⟩ | h | ⟨_, rfl⟩
    · rw [hi] at hno; cases hno
    · rw [hno] at h; cases h
    · exact ⟨rfl, rfl⟩
  · rcases backT x j hj with ⟨rfl, rfl⟩ | h | ⟨_, rfl⟩
    · obtain rfl := Option.some.inj hg
      exact .inr ⟨_, newT, rfl, rfl, hseat, hseat, ht⟩
    · exact .inl ⟨j, h, hg⟩
    · cases hg
  · exact ⟨_, _, _, _, _, by rw [oldT p i hi, if_pos rfl], rfl, newT, newS, rfl⟩

theorem feed_update {p : Nat} {i : Impl} (hi : h.ts[p]? = some i) (ho : Open h p) (hs : Seated h) :
    Feed h (tryAccUpdate p h) fun _ h' => i.requiresGrad = true → Fed h' p := by
  obtain ⟨i', hi', ho⟩ := ho
  rw [hi] at hi'
  obtain rfl := Option.some.inj hi'
  unfold tryAccUpdate
  rw [M.bind_ok (getT_ok hi)]
  cases hr : i.requiresGrad
  · exact feed_pure (by simp)
  obtain ⟨ht, hroom⟩ := ho hr
  simp only [Bool.not_true, Bool.false_eq_true, if_false]
  have done : ∀ (h1 : Heap F) (i1 : Impl), Feeds h h1 → h1.ts[p]? = some i1 → i1.dtype = i.dtype → i1.view = i.view → i1.grad = i.grad →
      Feed h1 ((match i.grad with
    | none => do
      let g ← create i.dtype i.view true
      let i ← getT p
      setT p { i with grad := some g }
      let gi ← getT g
      zeroS gi.data
    | some g => do
      let gi ← getT g
      let al ← isAllocS gi.data
      if !al then do
        allocS gi.data
        zeroS gi.data
      else pure () : M F Unit) h1) fun _ h' => Fed h' p := by
    intro h1 i1 k1 hi1 d1 v1 g1
    cases hg : i.grad with
    | none =>
      obtain ⟨hd, hm⟩ := hroom hg
      have hlt := getElem?_lt hi1
      simp only
      rw [M.bind_ok (create_view hm.bytes h1), M.bind_ok (getT_ok (i := i1) (by
        simp only [Heap.allocView]; rw [List.getElem?_append_left hlt]; exact hi1))]
      rw [M.bind_ok (x := setT p _) rfl, M.bind_ok (getT_ok (i := ⟨i.dtype, i.view, h1.st.length, none, false, false, none⟩) (by
        simp only [Heap.allocView]; rw [List.getElem?_set_ne (by omega)]; simp))]
      unfold zeroS
      rw [M.bind_ok (getS_ok (s := ⟨i.dtype, i.dtype.size * vol i.view.sizes, some (List.replicate (vol i.view.sizes) none)⟩) (by
        simp [Heap.allocView]))]
      have := feeds_granted hi1 (by rw [v1]; exact hd) (by rw [d1, v1]; exact hm) (by rw [v1]; exact ht) (g1.trans hg)
      have e : (⟨h1.st ++ [⟨i.dtype, i.dtype.size * vol i.view.sizes, some (List.replicate (vol i.view.sizes) (some (zeroVal i.dtype)))⟩],
        (h1.ts ++ [(⟨i.dtype, i.view, h1.st.length, none, false, false, none⟩ : Impl)]).set p { i1 with grad := some h1.ts.length }, h1.gver⟩ : Heap F) =
          h1.granted p i1 i1.dtype i1.view := by rw [Heap.granted, d1, v1]
      refine (?_ : Feed h1 (.ok () _) _)
      simp only [Heap.allocView, List.map_replicate]
      rw [List.set_append_right _ _ (Nat.le_refl _)]
      simp only [Nat.sub_self, List.set_cons_zero]
      rw [e]
      exact this
    | some g =>
      have hs1 := k1.slots hs
      obtain ⟨j, e1, e2, e3, e4, e5, e6⟩ := hs1 p g i1 hi1 (g1.trans hg)
      obtain ⟨s, s1, s2, s3, s4, s5⟩ := e4.cells
      simp only
      rw [M.bind_ok (getT_ok e1)]
      unfold isAllocS
      rw [bind_assoc, M.bind_ok (getS_ok s1)]
      cases hb : s.blob with
      | some c => exact feed_pure ⟨i1, g, j, s, c, hi1, g1.trans hg, e1, s1, hb⟩
      | none =>
        show Feed h1 ((do allocS j.data; zeroS j.data : M F Unit) h1) _
        unfold allocS
        rw [bind_assoc, M.bind_ok (getS_ok s1)]
        split
        · have hlt := getElem?_lt s1
          rw [M.bind_ok (x := setS _ _) rfl]
          unfold zeroS
          rw [M.bind_ok (getS_ok (s := { s with blob := some (freshBlob s.dt s.size) }) (List.getElem?_set_self hlt))]
          have key := feeds_zeroed s1 hb
          have e : (⟨h1.st.set j.data { s with blob := some (List.replicate s.cap (some (zeroVal s.dt))) }, h1.ts, h1.gver⟩ : Heap F) =
            h1.zeroed j.data s := rfl
          have hcap : s.cap = s.size / s.dt.size := by unfold Storage.cap; rw [hb]
          refine (?_ : Feed h1 (.ok () _) _)
          simp only [freshBlob, List.map_replicate, List.set_set]
          rw [← hcap, e]
          exact ⟨key, i1, g, j, _, _, hi1, g1.trans hg, e1, List.getElem?_set_self hlt, rfl⟩
        · exact Feeds.refl h1
  cases hf : i.gradFn with
  | none => exact feed_mono (done h i (.refl h) hi rfl rfl rfl) fun _ _ _ hq _ => hq
  | some f =>
    have k1 : Feeds h { h with ts := h.ts.set p { i with gradFn := some { f with accOutway := f.accOutway + 1 } } } :=
      feeds_setT hi rfl rfl rfl rfl rfl rfl (by rw [hf]; rfl)
    refine feed_bind (Q := fun _ h' => h' = { h with ts := h.ts.set p { i with gradFn := some { f with accOutway := f.accOutway + 1 } } })
      (by rw [← hr]; exact ⟨k1, rfl⟩) fun _ h1 _ e => ?_
    subst e
    exact feed_mono (done _ _ k1 (List.getElem?_set_self (getElem?_lt hi)) rfl rfl rfl) fun _ _ _ hq _ => hq

end INNC
