import Verif.Lemmas.Deriv
import Verif.Lemmas.TrackBack
/-
What back-propagation leaves unchanged: only gradients of the tensors of its graph, and counters, differ.
-/
namespace INNC
open Spec Tensor
variable {F : Type} {h0 H : Heap F} {S : Nat → Prop}

/-- Storages that are new or hold the gradient of a tensor of `S`. -/
def Wr (h0 : Heap F) (S : Nat → Prop) (d : Nat) : Prop := h0.st.length ≤ d ∨ ∃ x, S x ∧ gradStore h0 x = some d

/-- A set of tensors that exist, with their gradients. -/
structure GradsIn (h0 : Heap F) (S : Nat → Prop) : Prop where
  lt : ∀ x, S x → x < h0.ts.length
  grad : ∀ (x g : Nat) (i : Impl), S x → h0.ts[x]? = some i → i.grad = some g → g < h0.ts.length

/-- A set of tensors that contains the operands of its members. -/
structure Closed (h0 : Heap F) (S : Nat → Prop) : Prop extends GradsIn h0 S where
  op : ∀ x y, S x → Uses h0 x y → S y

/-- State of a back-propagation started from `h0` that changes gradients of the tensors of `S` only. -/
structure BFrame (h0 : Heap F) (S : Nat → Prop) (H : Heap F) : Prop where
  skel : ∀ (x : Nat) (i : Impl), h0.ts[x]? = some i → ∃ i', H.ts[x]? = some i' ∧ INNC.skel i' = INNC.skel i
  out : ∀ (x : Nat) (i : Impl), h0.ts[x]? = some i → ¬ S x → H.ts[x]? = some i
  leaf : ∀ (x : Nat) (i i' : Impl), h0.ts[x]? = some i → H.ts[x]? = some i' → i.gradFn = none →
    (i.grad.isSome = true ∨ i.requiresGrad = false) → i'.grad = i.grad
  leafNew : ∀ (x g : Nat) (i i' : Impl), h0.ts[x]? = some i → H.ts[x]? = some i' → i.gradFn = none → i.grad = none →
    i'.grad = some g → ∃ j, H.ts[g]? = some j ∧ j.dtype = i.dtype ∧ j.view = i.view ∧ j.requiresGrad = false ∧
      h0.st.length ≤ j.data ∧ j.gradFn = none ∧ j.grad = none
  from_ : ∀ (x g : Nat) (i i' : Impl), h0.ts[x]? = some i → H.ts[x]? = some i' → i'.grad = some g →
    i.grad = some g ∨ (h0.ts.length ≤ g ∧ ∃ j, H.ts[g]? = some j ∧ h0.st.length ≤ j.data)
  store : ∀ d, ¬ Wr h0 S d → H.st[d]? = h0.st[d]?
  slen : h0.st.length ≤ H.st.length
  tlen : h0.ts.length ≤ H.ts.length

theorem BFrame.refl (h0 : Heap F) (S : Nat → Prop) : BFrame h0 S h0 where
  skel := fun x i hi => ⟨i, hi, rfl⟩
  out := fun x i hi _ => hi
  leaf := fun x i i' hi hi' _ _ => by rw [hi] at hi'; rw [Option.some.inj hi']
  leafNew := fun x g i i' hi hi' _ h1 h2 => by rw [hi] at hi'; rw [← Option.some.inj hi', h1] at h2; simp at h2
  from_ := fun x g i i' hi hi' hg => by rw [hi] at hi'; rw [← Option.some.inj hi'] at hg; exact .inl hg
  store := fun _ _ => rfl
  slen := Nat.le_refl _
  tlen := Nat.le_refl _

/-- New tensors, and changes of storages that may change. -/
theorem BFrame.grow (hb : BFrame h0 S H) {H' : Heap F} (hts : ∀ (x : Nat) (i : Impl), H.ts[x]? = some i → H'.ts[x]? = some i)
    (hst : ∀ d, ¬ Wr h0 S d → H'.st[d]? = H.st[d]?) (hsl : H.st.length ≤ H'.st.length) (htl : H.ts.length ≤ H'.ts.length) :
    BFrame h0 S H' := by
  have hold : ∀ (x : Nat) (i i' : Impl), h0.ts[x]? = some i → H'.ts[x]? = some i' → H.ts[x]? = some i' := fun x i i' hi hi' => by
    obtain ⟨j, hj, _⟩ := hb.skel x i hi
    rw [hts x j hj] at hi'
    rw [hj, hi']
  refine ⟨fun x i hi => ?_, fun x i hi hs => hts x i (hb.out x i hi hs), fun x i i' hi hi' => hb.leaf x i i' hi (hold x i i' hi hi'),
    fun x g i i' hi hi' h1 h2 h3 => ?_, fun x g i i' hi hi' hg => ?_,
    fun d hd => (hst d hd).trans (hb.store d hd), Nat.le_trans hb.slen hsl, Nat.le_trans hb.tlen htl⟩
  · obtain ⟨i', h1, h2⟩ := hb.skel x i hi
    exact ⟨i', hts x i' h1, h2⟩
  · obtain ⟨j, hj, hr⟩ := hb.leafNew x g i i' hi (hold x i i' hi hi') h1 h2 h3
    exact ⟨j, hts g j hj, hr⟩
  · rcases hb.from_ x g i i' hi (hold x i i' hi hi') hg with h1 | ⟨h1, j, h2, h3⟩
    · exact .inl h1
    · exact .inr ⟨h1, j, hts g j h2, h3⟩

theorem BFrame.extends (hb : BFrame h0 S H) {H' : Heap F} (he : Extends H H') : BFrame h0 S H' :=
  hb.grow he.ts (fun d hd => by
    by_cases hl : d < H.st.length
    · obtain ⟨s, hs⟩ : ∃ s, H.st[d]? = some s := ⟨_, List.getElem?_eq_getElem hl⟩
      rw [he.st d s hs, hs]
    · exact absurd (.inl (Nat.le_trans hb.slen (by omega))) hd) (extends_len he).1 (extends_len he).2

theorem BFrame.writes (hb : BFrame h0 S H) {H' : Heap F} {D : Nat → Prop} (hw : Writes D H H') (hD : ∀ d, D d → Wr h0 S d) :
    BFrame h0 S H' :=
  hb.grow (fun x i hi => by rw [hw.ts]; exact hi)
    (fun d hd => hw.other d fun hc => hd (hD d hc)) (by rw [hw.len]) (by rw [hw.ts])

/-- Changing counters or the gradient of a tensor of `S`. -/
theorem BFrame.set (hb : BFrame h0 S H) {x : Nat} {i k : Impl} (hi : H.ts[x]? = some i) (hx : S x) (hex : x < h0.ts.length)
    (hs : INNC.skel k = INNC.skel i)
    (hg : k.grad = i.grad ∨ (i.gradFn.isSome = true ∧ ∀ g, k.grad = some g → h0.ts.length ≤ g ∧ ∃ j, H.ts[g]? = some j ∧ h0.st.length ≤ j.data) ∨
      (i.grad = none ∧ i.requiresGrad = true ∧ ∃ g j, k.grad = some g ∧ h0.ts.length ≤ g ∧ H.ts[g]? = some j ∧ j.dtype = i.dtype ∧
        j.view = i.view ∧ j.requiresGrad = false ∧ h0.st.length ≤ j.data ∧ j.gradFn = none ∧ j.grad = none)) :
    BFrame h0 S { H with ts := H.ts.set x k } := by
  have hxl := getElem?_lt hi
  have hself : (H.ts.set x k)[x]? = some k := List.getElem?_set_self hxl
  have hne : ∀ y, y ≠ x → (H.ts.set x k)[y]? = H.ts[y]? := fun y hy => List.getElem?_set_ne (Ne.symm hy)
  have hgf : k.gradFn = none ↔ i.gradFn = none := by
    have := skel_gradFn hs
    cases h1 : i.gradFn <;> cases h2 : k.gradFn <;> simp_all
  obtain ⟨e1, e2, e3, e4, _⟩ := skel_eq hs
  have hgfx : ∀ j : Impl, h0.ts[x]? = some j → (j.gradFn = none ↔ i.gradFn = none) ∧ j.requiresGrad = i.requiresGrad ∧
      j.dtype = i.dtype ∧ j.view = i.view := fun j hj => by
    obtain ⟨j', h1, h2⟩ := hb.skel x j hj
    rw [hi] at h1
    obtain rfl := Option.some.inj h1
    have := skel_gradFn h2
    obtain ⟨f1, f2, f3, f4, _⟩ := skel_eq h2
    refine ⟨?_, f4.symm, f1.symm, f2.symm⟩
    cases h1 : i.gradFn <;> cases h2 : j.gradFn <;> simp_all
  refine ⟨fun y j hj => ?_, fun y j hj hy => ?_, fun y j j' hj hj' h1 h2 => ?_, fun y g j j' hj hj' h1 h2 h3 => ?_,
    fun y g j j' hj hj' h1 => ?_, hb.store, hb.slen, by simpa using hb.tlen⟩
  · by_cases hyx : y = x
    · subst hyx
      obtain ⟨j', f1, f2⟩ := hb.skel y j hj
      rw [hi] at f1
      obtain rfl := Option.some.inj f1
      exact ⟨k, hself, hs.trans f2⟩
    · obtain ⟨j', f1, f2⟩ := hb.skel y j hj
      exact ⟨j', (hne y hyx).trans f1, f2⟩
  · exact (hne y fun e => hy (e ▸ hx)).trans (hb.out y j hj hy)
  · by_cases hyx : y = x
    · subst hyx
      replace hj' : (H.ts.set y k)[y]? = some j' := hj'
      rw [hself] at hj'
      obtain rfl := Option.some.inj hj'
      have hold := hb.leaf y j i hj hi h1 h2
      rcases hg with hg | hg | hg
      · rw [hg, hold]
      · rw [((hgfx j hj).1).1 h1] at hg; simp at hg
      · rcases h2 with h2 | h2
        · rw [← hold, hg.1] at h2; simp at h2
        · rw [(hgfx j hj).2.1, hg.2.1] at h2; simp at h2
    · exact hb.leaf y j j' hj ((hne y hyx).symm.trans hj') h1 h2
  · by_cases hyx : y = x
    · subst hyx
      replace hj' : (H.ts.set y k)[y]? = some j' := hj'
      rw [hself] at hj'
      obtain rfl := Option.some.inj hj'
      rcases hg with hg | hg | hg
      · have hgi : i.grad = some g := by rw [← hg]; exact h3
        obtain ⟨jj, q1, q2⟩ := hb.leafNew y g j i hj hi h1 h2 hgi
        have := hb.from_ y g j i hj hi hgi
        rw [h2] at this
        have : h0.ts.length ≤ g := by simpa using (this.resolve_left (by simp)).1
        exact ⟨jj, (hne g (by omega)).trans q1, q2⟩
      · rw [((hgfx j hj).1).1 h1] at hg; simp at hg
      · obtain ⟨_, _, g', jj, q0, ql, q1, q2, q3, q4⟩ := hg
        rw [h3] at q0
        obtain rfl := Option.some.inj q0
        exact ⟨jj, (hne g (by omega)).trans q1, by rw [q2, (hgfx j hj).2.2.1], by rw [q3, (hgfx j hj).2.2.2], q4⟩
    · obtain ⟨jj, q1, q2⟩ := hb.leafNew y g j j' hj ((hne y hyx).symm.trans hj') h1 h2 h3
      have := hb.from_ y g j j' hj ((hne y hyx).symm.trans hj') h3
      rw [h2] at this
      have : h0.ts.length ≤ g := by simpa using (this.resolve_left (by simp)).1
      exact ⟨jj, (hne g (by omega)).trans q1, q2⟩
  · have hkeep : ∀ g : Nat, (h0.ts.length ≤ g ∧ ∃ j, H.ts[g]? = some j ∧ h0.st.length ≤ j.data) →
        h0.ts.length ≤ g ∧ ∃ j, (H.ts.set x k)[g]? = some j ∧ h0.st.length ≤ j.data := fun g hg => by
      obtain ⟨q1, jj, q2, q3⟩ := hg
      exact ⟨q1, jj, (hne g (by omega)).trans q2, q3⟩
    by_cases hyx : y = x
    · subst hyx
      replace hj' : (H.ts.set y k)[y]? = some j' := hj'
      rw [hself] at hj'
      obtain rfl := Option.some.inj hj'
      rcases hg with hg | hg | hg
      · exact (hb.from_ y g j i hj hi (by rw [← hg]; exact h1)).imp_right (hkeep g)
      · exact .inr (hkeep g (hg.2 g h1))
      · obtain ⟨_, _, g', jj, q0, q1, q2, _, _, _, q3, _⟩ := hg
        rw [h1] at q0
        obtain rfl := Option.some.inj q0
        exact .inr (hkeep g ⟨q1, jj, q2, q3⟩)
    · exact (hb.from_ y g j j' hj ((hne y hyx).symm.trans hj') h1).imp_right (hkeep g)

/-- Gradients of tensors of `S` lie on storages that may change. -/
theorem BFrame.gradWr (hc : GradsIn h0 S) (hb : BFrame h0 S H) {x g : Nat} {i j : Impl} (hx : S x) (hi : H.ts[x]? = some i)
    (hg : i.grad = some g) (hj : H.ts[g]? = some j) : Wr h0 S j.data := by
  obtain ⟨i0, hi0⟩ : ∃ i0, h0.ts[x]? = some i0 := ⟨_, List.getElem?_eq_getElem (hc.lt x hx)⟩
  rcases hb.from_ x g i0 i hi0 hi hg with h1 | ⟨h1, j', h2, h3⟩
  · obtain ⟨j0, hj0⟩ : ∃ j0, h0.ts[g]? = some j0 := ⟨_, List.getElem?_eq_getElem (hc.grad x g i0 hx hi0 h1)⟩
    obtain ⟨j', f1, f2⟩ := hb.skel g j0 hj0
    rw [hj] at f1
    obtain rfl := Option.some.inj f1
    refine .inr ⟨x, hx, ?_⟩
    unfold gradStore
    rw [hi0, Option.bind_some, h1, Option.bind_some, hj0, Option.map_some, (skel_eq f2).2.2.1]
  · rw [hj] at h2
    obtain rfl := Option.some.inj h2
    exact .inl h3

/-! ### The steps of back-propagation -/

section
variable [FOps F]

theorem BFrame.reads {α : Type} (hb : BFrame h0 S H) {x : M F α} (hx : Keeps (fun a b : Heap F => b = a) x) :
    Post (BFrame h0 S) (x H) fun _ h' => h' = H := post_reads hx hb

/-- Calls that make new tensors only. -/
theorem BFrame.of_extends {α : Type} (hb : BFrame h0 S H) {x : M F α} {Q : α → Heap F → Prop} (hx : Post (Extends H) (x H) Q) :
    Post (BFrame h0 S) (x H) fun a h' => Extends H h' ∧ Q a h' := by
  unfold Post at *
  split at hx
  · exact ⟨hb.extends hx.1, hx⟩
  · exact hb.extends hx
  · trivial

omit [FOps F] in
theorem post_mono' {α : Type} {I : Heap F → Prop} {o : Out (Heap F) α} {Q R : α → Heap F → Prop} (h : Post I o Q)
    (hQR : ∀ a h, I h → Q a h → R a h) : Post I o R := by
  unfold Post at *
  split at h
  · exact ⟨h.1, hQR _ _ h.1 h.2⟩
  · exact h
  · trivial

omit [FOps F] in
theorem post_expect_reads {I : Heap F → Prop} {b : Bool} {h : Heap F} (hI : I h) :
    Post I ((expect b : M F Unit) h) fun _ h' => h' = h ∧ b = true := by
  cases b
  · exact hI
  · exact ⟨hI, rfl, rfl⟩

omit [FOps F] in
theorem extends_refl (h : Heap F) : Extends h h := ⟨fun _ _ h => h, fun _ _ h => h⟩

theorem BFrame.kernel {α : Type} (hb : BFrame h0 S H) {x : M F α} {D : Nat → Prop} (hx : Keeps (Writes D) x) (hD : ∀ d, D d → Wr h0 S d) :
    Post (BFrame h0 S) (x H) fun _ h' => h'.ts = H.ts :=
  post_mono (post_keeps hx hb fun _ hw => hb.writes hw hD) fun _ _ hw => hw.ts

theorem BFrame.upd (hb : BFrame h0 S H) {x : Nat} {i k : Impl} (hi : H.ts[x]? = some i) (hx : S x) (hex : x < h0.ts.length)
    (hs : INNC.skel k = INNC.skel i)
    (hg : k.grad = i.grad ∨ (i.gradFn.isSome = true ∧ ∀ g, k.grad = some g → h0.ts.length ≤ g ∧ ∃ j, H.ts[g]? = some j ∧ h0.st.length ≤ j.data) ∨
      (i.grad = none ∧ i.requiresGrad = true ∧ ∃ g j, k.grad = some g ∧ h0.ts.length ≤ g ∧ H.ts[g]? = some j ∧ j.dtype = i.dtype ∧
        j.view = i.view ∧ j.requiresGrad = false ∧ h0.st.length ≤ j.data ∧ j.gradFn = none ∧ j.grad = none)) :
    Post (BFrame h0 S) (INNC.setT x k H) fun _ h' => h' = { H with ts := H.ts.set x k } := ⟨hb.set hi hx hex hs hg, rfl⟩

omit [FOps F] in
theorem create_made {dt : DType} {v : Layout} {b : Bool} (h : Heap F) :
    Post (Extends h) (INNC.create dt v b h) fun g h' => g = h.ts.length ∧
      ∃ j, h'.ts[g]? = some j ∧ j.dtype = dt ∧ j.view = v ∧ j.requiresGrad = false ∧ h.st.length ≤ j.data ∧
        j.gradFn = none ∧ j.grad = none := by
  unfold INNC.create
  refine post_bind (Q := fun d h' => h.st.length ≤ d ∧ h'.ts = h.ts) ?_ fun d h' hh' hd => ?_
  · unfold mkStorage
    split
    · split
      · exact post_mono ((frameInv_extends h).newS (extends_refl h) _) fun _ _ h => ⟨h.1, h.2.2.1⟩
      · exact post_raise (extends_refl h)
    · exact post_mono ((frameInv_extends h).newS (extends_refl h) _) fun _ _ h => ⟨h.1, h.2.2.1⟩
  · have hp := (frameInv_extends h).newT hh' ⟨dt, v, d, none, false, false, none⟩
    refine ⟨hp.1, by rw [hd.2], _, hp.2.2.1, rfl, rfl, rfl, hd.1, rfl, rfl⟩

theorem BFrame.allocS (hb : BFrame h0 S H) {d : Nat} (hd : Wr h0 S d) : Post (BFrame h0 S) (INNC.allocS d H) fun _ h' => h'.ts = H.ts := by
  unfold INNC.allocS
  refine post_bind (post_getS hb) fun s h1 hh1 hs => ?_
  obtain ⟨rfl, hs⟩ := hs
  split
  · refine ⟨hh1.grow (fun _ _ h => h) (fun e he => ?_) (by simp) (Nat.le_refl _), rfl⟩
    exact List.getElem?_set_ne fun hc : d = e => he (by rw [← hc]; exact hd)
  · exact post_raise hh1

theorem BFrame.derefGrad (hc : GradsIn h0 S) (hb : BFrame h0 S H) {p : Nat} (hp : S p) :
    Post (BFrame h0 S) (Tensor.derefGrad p H) fun g h' => h' = H ∧ ∀ j, H.ts[g]? = some j → Wr h0 S j.data := by
  unfold Tensor.derefGrad
  refine post_bind (post_getT hb) fun i h1 hh1 hi => ?_
  obtain ⟨rfl, hi⟩ := hi
  cases hg : i.grad with
  | none => trivial
  | some g => exact post_pure hh1 ⟨rfl, fun j hj => hh1.gradWr hc hp hi hg hj⟩

theorem BFrame.tryAccUpdate (hc : GradsIn h0 S) (hb : BFrame h0 S H) {p : Nat} (hp : S p) :
    Post (BFrame h0 S) (Tensor.tryAccUpdate p H) fun _ _ => True := by
  unfold Tensor.tryAccUpdate
  refine post_bind (post_getT hb) fun i h1 hh1 hi => ?_
  obtain ⟨rfl, hi⟩ := hi
  have rest : ∀ (H : Heap F) (i' : Impl), BFrame h0 S H → H.ts[p]? = some i' → i'.grad = i.grad → i'.requiresGrad = true →
    i'.dtype = i.dtype → i'.view = i.view → Post (BFrame h0 S) ((match i.grad with
    | none => do
      let g ← INNC.create i.dtype i.view true
      let i ← getT p
      INNC.setT p { i with grad := some g }
      let gi ← getT g
      zeroS gi.data
    | some g => do
      let gi ← getT g
      let al ← isAllocS gi.data
      if !al then do
        INNC.allocS gi.data
        zeroS gi.data
      else pure () : M F Unit) H) fun _ _ => True := by
    intro H i' hH hi' hg hr e1 e2
    cases hgr : i.grad with
    | none =>
      rw [hgr] at hg
      refine post_bind (hH.of_extends (create_made H)) fun g h2 hh2 hc2 => ?_
      obtain ⟨he, hgl, jg, hjg, f1, f2, f3, f4, f5⟩ := hc2
      refine post_bind (post_getT hh2) fun j h3 hh3 hj => ?_
      obtain ⟨rfl, hj⟩ := hj
      rw [he.ts p i' hi'] at hj
      obtain rfl := Option.some.inj hj
      have hgp : g ≠ p := by have := getElem?_lt hi'; omega
      have h1 := hH.tlen
      have h2 := hH.slen
      refine post_bind (hh3.upd (k := { i' with grad := some g }) (he.ts p i' hi') hp (hc.lt p hp) (by simp [INNC.skel]) (.inr (.inr
        ⟨hg, hr, g, jg, rfl, by omega, hjg, by rw [f1, e1], by rw [f2, e2], f3, by omega, f5⟩))) fun _ h4 hh4 e4 => ?_
      refine post_bind (post_getT hh4) fun gi h5 hh5 hgi => ?_
      obtain ⟨rfl, hgi⟩ := hgi
      rw [e4] at hgi
      replace hgi : (h3.ts.set p _)[g]? = some gi := hgi
      rw [List.getElem?_set_ne (Ne.symm hgp), hjg] at hgi
      obtain rfl := Option.some.inj hgi
      exact post_true (hh5.kernel (keeps_zeroS (D := fun d => d = jg.data) rfl) fun d hd => .inl (by omega))
    | some g =>
      refine post_bind (post_getT hH) fun gi h2 hh2 hgi => ?_
      obtain ⟨rfl, hgi⟩ := hgi
      have hw := hH.gradWr hc hp hi' (hg.trans hgr) hgi
      refine post_bind (hh2.reads (keeps_isAllocS _)) fun al h3 hh3 _ => ?_
      split
      · exact post_bind (hh3.allocS hw) fun _ h4 hh4 _ => post_true (hh4.kernel (keeps_zeroS (D := fun d => d = gi.data) rfl) fun d hd => hd ▸ hw)
      · exact post_pure hh3 trivial
  split
  · exact post_pure hh1 trivial
  · next hr =>
    have hr : i.requiresGrad = true := by simpa using hr
    cases hgf : i.gradFn with
    | none => exact rest _ i hh1 hi rfl hr rfl rfl
    | some g =>
      refine post_bind (hh1.upd (k := { i with gradFn := some { g with accOutway := g.accOutway + 1 } }) hi hp (hc.lt p hp)
        (by simp [INNC.skel, hgf]) (.inl rfl)) fun _ h2 hh2 e => ?_
      subst e
      exact rest _ _ hh2 (List.getElem?_set_self (getElem?_lt hi)) rfl hr rfl rfl

theorem BFrame.mulAddF (hb : BFrame h0 S H) {d : Nat} (hd : ∀ j, H.ts[d]? = some j → Wr h0 S j.data) (a b : Nat) :
    Post (BFrame h0 S) (Tensor.mulAddF d a b H) fun _ _ => True := by
  unfold Tensor.mulAddF
  refine post_bind (post_getT hb) fun i h1 hh1 hi => ?_
  obtain ⟨rfl, hi⟩ := hi
  refine post_bind (post_getT hh1) fun j h2 hh2 hj => ?_
  refine post_bind (post_getT hh2) fun k h3 hh3 hk => ?_
  split
  · exact post_true (hh3.kernel (keeps_tensorMulAccF (D := fun e => e = i.data) rfl _ _ _ _ _) fun e he => he ▸ hd i hi)
  · trivial

theorem BFrame.divBackNum (hb : BFrame h0 S H) {d : Nat} (hd : ∀ j, H.ts[d]? = some j → Wr h0 S j.data) (a b : Nat) :
    Post (BFrame h0 S) (Tensor.divBackNum d a b H) fun _ _ => True := by
  unfold Tensor.divBackNum
  refine post_bind (post_getT hb) fun i h1 hh1 hi => ?_
  obtain ⟨rfl, hi⟩ := hi
  refine post_bind (post_getT hh1) fun j h2 hh2 hj => ?_
  refine post_bind (post_getT hh2) fun k h3 hh3 hk => ?_
  split
  · exact post_true (hh3.kernel (keeps_tensorDivBackNum (D := fun e => e = i.data) rfl _ _ _ _ _) fun e he => he ▸ hd i hi)
  · trivial

theorem BFrame.addAssign (hb : BFrame h0 S H) {t : Nat} (hd : ∀ j, H.ts[t]? = some j → Wr h0 S j.data) (r : Nat) :
    Post (BFrame h0 S) (Tensor.addAssign t r H) fun _ _ => True := by
  unfold Tensor.addAssign
  refine post_bind (post_getT hb) fun i h1 hh1 hi => ?_
  obtain ⟨rfl, hi⟩ := hi
  refine post_bind (hh1.reads (keeps_expect _)) fun _ h2 hh2 _ => ?_
  refine post_bind (post_getT hh2) fun j h3 hh3 _ => ?_
  exact post_true (hh3.kernel (keeps_tensorAdd (D := fun e => e = i.data) rfl _ _ _ _) fun e he => he ▸ hd i hi)

theorem BFrame.tryAccGrad (hc : GradsIn h0 S) (hb : BFrame h0 S H) {p : Nat} (hp : S p) (w o : Option Nat) :
    Post (BFrame h0 S) (Tensor.tryAccGrad p w o H) fun _ _ => True := by
  unfold Tensor.tryAccGrad
  refine post_bind (post_getT hb) fun i h1 hh1 hi => ?_
  split
  · exact post_pure hh1 trivial
  refine post_bind (hh1.tryAccUpdate hc hp) fun _ h2 hh2 _ => ?_
  cases w with
  | none => cases o with
    | none => exact post_pure hh2 trivial
    | some o => trivial
  | some w => cases o with
    | none =>
      refine post_bind (hh2.derefGrad hc hp) fun g h3 hh3 hg => ?_
      obtain ⟨rfl, hg⟩ := hg
      exact hh3.addAssign hg _
    | some o =>
      refine post_bind (post_getT hh2) fun wi h3 hh3 hi => ?_
      refine post_bind (hh3.derefGrad hc hp) fun g h3 hh3 hg => ?_
      obtain ⟨rfl, hg⟩ := hg
      split
      · exact hh3.mulAddF hg _ _
      · exact hh3.mulAddF hg _ _

theorem BFrame.divBackDen (hc : GradsIn h0 S) (hb : BFrame h0 S H) (t : Nat) {d : Nat} (hd : S d) :
    Post (BFrame h0 S) (Tensor.divBackDen t d H) fun _ _ => True := by
  unfold Tensor.divBackDen
  refine post_bind (post_getT hb) fun i h1 hh1 hi => ?_
  refine post_bind (post_getT hh1) fun j h2 hh2 hi => ?_
  split
  · refine post_bind (hh2.derefGrad hc hd) fun g h3 hh3 hg => ?_
    obtain ⟨rfl, hg⟩ := hg
    refine post_bind (hh3.reads (keeps_derefGrad _)) fun og h4 hh4 e => ?_
    subst e
    refine post_bind (post_getT hh4) fun k h3 hh3 hk => ?_
    obtain ⟨rfl, hk⟩ := hk
    refine post_bind (post_getT hh3) fun k' h3 hh3 _ => ?_
    exact post_true (hh3.kernel (keeps_tensorDivBackDen (D := fun e => e = k.data) rfl _ _ _ _ _) fun e he => he ▸ hg k hk)
  · trivial

theorem BFrame.createOn (hb : BFrame h0 S H) (dt : DType) (v : Layout) (d : Nat) :
    Post (BFrame h0 S) (INNC.createOn dt v d H) fun _ _ => True :=
  ⟨hb.extends ⟨fun t i hi => by
    simp only; rw [List.getElem?_append_left (getElem?_lt hi)]; exact hi, fun _ _ h => h⟩, trivial⟩

theorem BFrame.catBackGo (hc : GradsIn h0 S) (t dim : Nat) : ∀ (xs : List Nat) (s : Nat) {H : Heap F}, BFrame h0 S H → (∀ x ∈ xs, S x) →
    Post (BFrame h0 S) (Tensor.catBackGo t dim s xs H) fun _ _ => True
  | [], _, _, hb, _ => post_pure hb trivial
  | x :: xs, s, _, hb, hS => by
    unfold Tensor.catBackGo
    refine post_bind (post_getT hb) fun i h1 hh1 hi => ?_
    refine post_bind (post_getT hh1) fun xi h2 hh2 hi => ?_
    refine post_bind (hh2.reads (keeps_lift _)) fun st h3 hh3 _ => ?_
    refine post_bind (hh3.reads (keeps_derefGrad _)) fun g h3 hh3 _ => ?_
    refine post_bind (post_getT hh3) fun gi h4 hh4 hi => ?_
    refine post_bind (hh4.createOn _ _ _) fun r h5 hh5 _ => ?_
    refine post_bind (hh5.tryAccGrad hc (hS x (by simp)) _ _) fun _ h6 hh6 _ => ?_
    refine post_bind (post_getT hh6) fun xi h7 hh7 hi => ?_
    refine post_bind (hh7.reads (keeps_lift _)) fun d h8 hh8 _ => ?_
    exact BFrame.catBackGo hc t dim xs _ hh8 fun y hy => hS y (by simp [hy])

theorem BFrame.inputAt (hb : BFrame h0 S H) {g : GradFn} (hS : ∀ x ∈ g.inputs, S x) (k : Nat) :
    Post (BFrame h0 S) (Tensor.inputAt (F := F) g k H) fun a _ => S a := by
  unfold Tensor.inputAt
  refine post_mono (post_lift hb) fun a _ e => ?_
  unfold vecAt at e
  split at e
  · next hv =>
    injection e with e
    exact hS a (e ▸ List.mem_of_getElem? hv)
  · simp at e

theorem BFrame.stepBack (hc : GradsIn h0 S) (hb : BFrame h0 S H) (t : Nat) {g : GradFn} (hS : ∀ x ∈ g.inputs, S x) :
    Post (BFrame h0 S) (Tensor.stepBack t g H) fun _ _ => True := by
  unfold Tensor.stepBack
  cases g.kind with
  | add =>
    refine post_bind (hb.inputAt hS _) fun a h1 hh1 ha => ?_
    refine post_bind (hh1.reads (keeps_derefGrad _)) fun o h2 hh2 _ => ?_
    refine post_bind (hh2.tryAccGrad hc ha _ _) fun _ h3 hh3 _ => ?_
    refine post_bind (hh3.inputAt hS _) fun a h1 hh1 ha => ?_
    refine post_bind (hh1.reads (keeps_derefGrad _)) fun o h2 hh2 _ => ?_
    exact hh2.tryAccGrad hc ha _ _
  | sub =>
    refine post_bind (hb.inputAt hS _) fun a h1 hh1 ha => ?_
    refine post_bind (hh1.reads (keeps_derefGrad _)) fun o h2 hh2 _ => ?_
    refine post_bind (hh2.tryAccGrad hc ha _ _) fun _ h3 hh3 _ => ?_
    refine post_bind (hh3.of_extends ((frameInv_extends h3).createScalar (extends_refl h3) _ _)) fun m h4 hh4 _ => ?_
    refine post_bind (hh4.inputAt hS _) fun a h1 hh1 ha => ?_
    refine post_bind (hh1.reads (keeps_derefGrad _)) fun o h2 hh2 _ => ?_
    exact hh2.tryAccGrad hc ha _ _
  | mul =>
    refine post_bind (hb.inputAt hS _) fun a h1 hh1 ha => ?_
    refine post_bind (hh1.inputAt hS _) fun b h1 hh1 _ => ?_
    refine post_bind (hh1.reads (keeps_derefGrad _)) fun o h2 hh2 _ => ?_
    refine post_bind (hh2.tryAccGrad hc ha _ _) fun _ h3 hh3 _ => ?_
    refine post_bind (hh3.inputAt hS _) fun a h1 hh1 ha => ?_
    refine post_bind (hh1.inputAt hS _) fun b h1 hh1 _ => ?_
    refine post_bind (hh1.reads (keeps_derefGrad _)) fun o h2 hh2 _ => ?_
    exact hh2.tryAccGrad hc ha _ _
  | div =>
    refine post_bind (hb.inputAt hS _) fun a h1 hh1 ha => ?_
    refine post_bind (hh1.inputAt hS _) fun b h1 hh1 hb' => ?_
    refine post_bind (hh1.tryAccUpdate hc ha) fun _ h3 hh3 _ => ?_
    refine post_bind (hh3.derefGrad hc ha) fun o h2 hh2 ho => ?_
    obtain ⟨rfl, ho⟩ := ho
    refine post_bind (hh2.reads (keeps_derefGrad _)) fun o h2 hh2 e => ?_
    subst e
    refine post_bind (hh2.divBackNum ho _ _) fun _ h3 hh3 _ => ?_
    refine post_bind (hh3.tryAccUpdate hc hb') fun _ h3 hh3 _ => ?_
    exact hh3.divBackDen hc _ hb'
  | sum =>
    refine post_bind (hb.inputAt hS _) fun a h1 hh1 ha => ?_
    refine post_bind (hh1.of_extends ((frameInv_extends h1).onesLike (extends_refl h1) _)) fun w h1 hh1 _ => ?_
    refine post_bind (hh1.reads (keeps_derefGrad _)) fun o h2 hh2 _ => ?_
    exact hh2.tryAccGrad hc ha _ _
  | mean =>
    refine post_bind (hb.inputAt hS _) fun a h1 hh1 ha => ?_
    refine post_bind (post_getT hh1) fun k h3 hh3 hi => ?_
    refine post_bind (hh3.of_extends ((frameInv_extends h3).full (extends_refl h3) _ _ _ _)) fun w h1 hh1 _ => ?_
    exact hh1.tryAccGrad hc ha _ _
  | noBack =>
    refine post_bind (hb.inputAt hS _) fun a h1 hh1 ha => ?_
    exact hh1.tryAccGrad hc ha _ _
  | clone =>
    refine post_bind (hb.inputAt hS _) fun a h1 hh1 ha => ?_
    refine post_bind (hh1.reads (keeps_derefGrad _)) fun o h2 hh2 _ => ?_
    exact hh2.tryAccGrad hc ha _ _
  | cat dim => exact BFrame.catBackGo hc t dim _ _ hb hS
  | knownGrad k =>
    refine post_bind (hb.inputAt hS _) fun a h1 hh1 ha => ?_
    refine post_bind (hh1.reads (keeps_derefGrad _)) fun o h2 hh2 _ => ?_
    exact hh2.tryAccGrad hc ha _ _

theorem BFrame.ins (hc : GradsIn h0 S) (hb : BFrame h0 S H) {x : Nat} (hx : S x) (hop : ∀ y, Uses h0 x y → S y) {i : Impl} {g : GradFn} (hi : H.ts[x]? = some i)
    (hg : i.gradFn = some g) : ∀ y ∈ g.inputs, S y := fun y hy => by
  obtain ⟨i0, hi0⟩ : ∃ i0, h0.ts[x]? = some i0 := ⟨_, List.getElem?_eq_getElem (hc.lt x hx)⟩
  obtain ⟨i', h1, h2⟩ := hb.skel x i0 hi0
  rw [hi] at h1
  obtain rfl := Option.some.inj h1
  have h3 := skel_gradFn h2
  refine hop y ?_
  unfold Uses operands opOf
  rw [hi0, Option.bind_some]
  rw [hg] at h3
  cases h4 : i0.gradFn with
  | none => rw [h4] at h3; simp at h3
  | some g0 =>
    rw [h4] at h3
    simp only [Option.map_some, Option.some.injEq, Prod.mk.injEq] at h3
    show y ∈ g0.inputs
    rw [← h3.2]; exact hy

theorem BFrame.getGradFn (hc : GradsIn h0 S) (hb : BFrame h0 S H) {x : Nat} (hx : S x) (hop : ∀ y, Uses h0 x y → S y) :
    Post (BFrame h0 S) (Tensor.getGradFn x H) fun g h' => h' = H ∧ (∃ i, H.ts[x]? = some i ∧ i.gradFn = some g) ∧ ∀ y ∈ g.inputs, S y := by
  unfold Tensor.getGradFn
  refine post_bind (post_getT hb) fun i h1 hh1 hi => ?_
  obtain ⟨rfl, hi⟩ := hi
  cases hg : i.gradFn with
  | none => trivial
  | some g => exact post_pure hh1 ⟨rfl, ⟨i, hi, hg⟩, hh1.ins hc hx hop hi hg⟩

theorem BFrame.setGF (hc : GradsIn h0 S) (hb : BFrame h0 S H) {x : Nat} (hx : S x) {i : Impl} {g g' : GradFn} (hi : H.ts[x]? = some i)
    (hg : i.gradFn = some g) (hk : g'.kind = g.kind) (hin : g'.inputs = g.inputs) :
    Post (BFrame h0 S) (Tensor.setGF x g' H) fun _ _ => True := by
  unfold Tensor.setGF
  refine post_bind (post_getT hb) fun j h1 hh1 hj => ?_
  obtain ⟨rfl, hj⟩ := hj
  rw [hi] at hj
  obtain rfl := Option.some.inj hj
  exact post_true (hh1.upd (k := { i with gradFn := some g' }) hi hx (hc.lt x hx) (by simp [INNC.skel, hg, hk, hin]) (.inl rfl))

theorem BFrame.bumpVersion (hb : BFrame h0 S H) : Post (BFrame h0 S) (Tensor.bumpVersion H) fun _ h' => h'.ts = H.ts :=
  ⟨hb.grow (fun _ _ h => h) (fun _ _ => rfl) (Nat.le_refl _) (Nat.le_refl _), rfl⟩

theorem BFrame.queueLoop {visit : Nat → M F (List Nat)}
    (hv : ∀ (t : Nat) (H : Heap F), BFrame h0 S H → S t → Post (BFrame h0 S) (visit t H) fun l _ => ∀ x ∈ l, S x) : ∀ (n : Nat) (q : List Nat)
    (H : Heap F), BFrame h0 S H → (∀ x ∈ q, S x) → Post (BFrame h0 S) (Tensor.queueLoop visit n q H) fun _ _ => True
  | _, [], _, hb, _ => by unfold Tensor.queueLoop; exact post_pure hb trivial
  | 0, _ :: _, _, _, _ => trivial
  | n + 1, t :: q, _, hb, hq => by
    unfold Tensor.queueLoop
    refine post_bind (hv t _ hb (hq t (by simp))) fun l h1 hh1 hl => BFrame.queueLoop hv n _ _ hh1 fun x hx => ?_
    rcases List.mem_append.1 hx with hx | hx
    · exact hq x (by simp [hx])
    · exact hl x hx

theorem BFrame.resetInputs (hc : GradsIn h0 S) : ∀ (l : List Nat) {H : Heap F}, BFrame h0 S H → (∀ x ∈ l, S x) →
    Post (BFrame h0 S) (Tensor.resetInputs l H) fun l _ => ∀ x ∈ l, S x
  | [], _, hb, _ => post_pure hb (by simp)
  | x :: xs, _, hb, hS => by
    have hx := hS x (by simp)
    have hxs : ∀ y ∈ xs, S y := fun y hy => hS y (by simp [hy])
    unfold Tensor.resetInputs
    refine post_bind (post_getT hb) fun i h1 hh1 hi => ?_
    obtain ⟨rfl, hi⟩ := hi
    refine post_bind (hh1.reads keeps_getVersion) fun v h2 hh2 e => ?_
    subst e
    cases hg : i.gradFn with
    | none => exact BFrame.resetInputs hc xs hh2 hxs
    | some g =>
      simp only
      split
      · refine post_bind (hh2.setGF hc hx hi hg rfl rfl) fun _ h3 hh3 _ => ?_
        exact post_bind (BFrame.resetInputs hc xs hh3 hxs) fun l h4 hh4 hl => post_pure hh4 (by simpa using ⟨hx, hl⟩)
      · exact BFrame.resetInputs hc xs hh2 hxs

theorem BFrame.countInputs (hc : GradsIn h0 S) : ∀ (l : List Nat) {H : Heap F}, BFrame h0 S H → (∀ x ∈ l, S x) →
    Post (BFrame h0 S) (Tensor.countInputs l H) fun l _ => ∀ x ∈ l, S x
  | [], _, hb, _ => post_pure hb (by simp)
  | x :: xs, _, hb, hS => by
    have hx := hS x (by simp)
    have hxs : ∀ y ∈ xs, S y := fun y hy => hS y (by simp [hy])
    unfold Tensor.countInputs
    refine post_bind (post_getT hb) fun i h1 hh1 hi => ?_
    obtain ⟨rfl, hi⟩ := hi
    refine post_bind (hh1.reads keeps_getVersion) fun v h2 hh2 e => ?_
    subst e
    cases hg : i.gradFn with
    | none => exact BFrame.countInputs hc xs hh2 hxs
    | some g =>
      simp only
      split
      · refine post_bind (hh2.setGF hc hx hi hg rfl rfl) fun _ h3 hh3 _ => ?_
        exact post_bind (BFrame.countInputs hc xs hh3 hxs) fun l h4 hh4 hl => post_pure hh4 (by simpa using ⟨hx, hl⟩)
      · refine post_bind (hh2.setGF hc hx hi hg rfl rfl) fun _ h3 hh3 _ => ?_
        exact BFrame.countInputs hc xs hh3 hxs

theorem BFrame.readyInputs (hc : GradsIn h0 S) : ∀ (l : List Nat) {H : Heap F}, BFrame h0 S H → (∀ x ∈ l, S x) →
    Post (BFrame h0 S) (Tensor.readyInputs l H) fun l _ => ∀ x ∈ l, S x
  | [], _, hb, _ => post_pure hb (by simp)
  | x :: xs, _, hb, hS => by
    have hx := hS x (by simp)
    have hxs : ∀ y ∈ xs, S y := fun y hy => hS y (by simp [hy])
    unfold Tensor.readyInputs
    refine post_bind (post_getT hb) fun i h1 hh1 hi => ?_
    obtain ⟨rfl, hi⟩ := hi
    refine post_bind (hh1.reads keeps_getVersion) fun v h2 hh2 e => ?_
    subst e
    cases hg : i.gradFn with
    | none => exact BFrame.readyInputs hc xs hh2 hxs
    | some g =>
      simp only
      split
      · refine post_bind (hh2.setGF hc hx hi hg rfl rfl) fun _ h3 hh3 _ => ?_
        exact post_bind (BFrame.readyInputs hc xs hh3 hxs) fun l h4 hh4 hl => post_pure hh4 (by simpa using ⟨hx, hl⟩)
      · exact BFrame.readyInputs hc xs hh2 hxs

theorem BFrame.refreshNOutway (hc : Closed h0 S) (hb : BFrame h0 S H) {t : Nat} (ht : S t) :
    Post (BFrame h0 S) (Tensor.refreshNOutway t H) fun _ _ => True := by
  unfold Tensor.refreshNOutway
  refine post_bind (hb.reads keeps_heapSize) fun n h1 hh1 _ => ?_
  refine post_bind hh1.bumpVersion fun v h1 hh1 _ => ?_
  refine post_bind (hh1.getGradFn hc.toGradsIn ht (hc.op _ · ht)) fun g h2 hh2 hg => ?_
  obtain ⟨rfl, ⟨i, hi, hg⟩, _⟩ := hg
  refine post_bind (hh2.setGF hc.toGradsIn ht hi hg rfl rfl) fun _ h1 hh1 _ => ?_
  refine post_bind (BFrame.queueLoop (fun x h hh hx => ?_) _ _ _ hh1 (by simpa using ht)) fun _ h1 hh1 _ => ?_
  · refine post_bind (hh.getGradFn hc.toGradsIn hx (hc.op _ · hx)) fun g h1 hh1 hg => ?_
    exact BFrame.resetInputs hc.toGradsIn _ hh1 hg.2.2
  refine post_bind hh1.bumpVersion fun v h1 hh1 _ => ?_
  refine post_bind (hh1.getGradFn hc.toGradsIn ht (hc.op _ · ht)) fun g h2 hh2 hg => ?_
  obtain ⟨rfl, ⟨i, hi, hg⟩, _⟩ := hg
  refine post_bind (hh2.setGF hc.toGradsIn ht hi hg rfl rfl) fun _ h1 hh1 _ => ?_
  refine BFrame.queueLoop (fun x h hh hx => ?_) _ _ _ hh1 (by simpa using ht)
  refine post_bind (hh.getGradFn hc.toGradsIn hx (hc.op _ · hx)) fun g h1 hh1 hg => ?_
  exact BFrame.countInputs hc.toGradsIn _ hh1 hg.2.2

theorem BFrame.backVisit (hc : GradsIn h0 S) (hb : BFrame h0 S H) {t : Nat} (ht : S t) (hop : ∀ y, Uses h0 t y → S y) :
    Post (BFrame h0 S) (Tensor.backVisit t H) fun l _ => ∀ x ∈ l, S x := by
  unfold Tensor.backVisit
  refine post_bind (hb.getGradFn hc ht hop) fun g h1 hh1 hg => ?_
  obtain ⟨rfl, ⟨i0, hi0, hg0⟩, hS⟩ := hg
  refine post_bind (Q := fun _ h' => ∀ i, h'.ts[t]? = some i → i.gradFn.isSome = true) ?_ fun _ h2 hh2 hsome => ?_
  · refine post_mono' (hh1.stepBack hc t hS) fun _ h' hh' _ i hi => ?_
    obtain ⟨i00, hi00⟩ : ∃ i0, h0.ts[t]? = some i0 := ⟨_, List.getElem?_eq_getElem (hc.lt t ht)⟩
    obtain ⟨j1, f1, f2⟩ := hh1.skel t i00 hi00
    obtain ⟨j2, g1, g2⟩ := hh'.skel t i00 hi00
    rw [hi0] at f1
    rw [hi] at g1
    obtain rfl := Option.some.inj f1
    obtain rfl := Option.some.inj g1
    have := skel_gradFn (g2.trans f2.symm)
    rw [hg0] at this
    cases hx : i.gradFn with
    | none => rw [hx] at this; simp at this
    | some _ => rfl
  refine post_bind (post_getT hh2) fun i h3 hh3 hi => ?_
  obtain ⟨rfl, hi⟩ := hi
  split
  · refine post_bind (hh3.upd (k := { i with grad := none }) hi ht (hc.lt t ht) (by simp [INNC.skel])
      (.inr (.inl ⟨hsome i hi, by simp⟩))) fun _ h1 hh1 _ => ?_
    exact post_bind (hh1.getGradFn hc ht hop) fun g h1 hh1 hg => BFrame.readyInputs hc _ hh1 hg.2.2
  · exact post_bind (hh3.getGradFn hc ht hop) fun g h1 hh1 hg => BFrame.readyInputs hc _ hh1 hg.2.2

/-- Back-propagation changes gradients of its graph, and counters, only. -/
theorem BFrame.backward (hc : Closed h0 S) (hb : BFrame h0 S H) {t : Nat} (ht : S t) :
    Post (BFrame h0 S) (Tensor.backward t H) fun _ _ => True := by
  unfold Tensor.backward
  refine post_bind (post_getT hb) fun i h1 hh1 hi => ?_
  obtain ⟨rfl, hi⟩ := hi
  refine post_bind (hh1.reads (keeps_expect _)) fun _ h1 hh1 _ => ?_
  refine post_bind (post_expect_reads hh1) fun _ h2 hh2 e => ?_
  obtain ⟨rfl, hsome⟩ := e
  refine post_bind (hh2.reads (keeps_expect _)) fun _ h1 hh1 _ => ?_
  refine post_bind (hh1.reads keeps_heapSize) fun n h1 hh1 _ => ?_
  refine post_bind (hh1.refreshNOutway hc ht) fun _ h1 hh1 _ => ?_
  refine post_bind (hh1.of_extends ((frameInv_extends h1).onesLike (extends_refl h1) _)) fun o h3 hh3 ho => ?_
  obtain ⟨he, ho1, jo, ho2, ho3⟩ := ho
  refine post_bind (post_getT hh3) fun i' h4 hh4 hi' => ?_
  obtain ⟨rfl, hi'⟩ := hi'
  have hs' : i'.gradFn.isSome = true := by
    obtain ⟨i00, hi00⟩ : ∃ i0, h0.ts[t]? = some i0 := ⟨_, List.getElem?_eq_getElem (hc.lt t ht)⟩
    obtain ⟨j1, f1, f2⟩ := hb.skel t i00 hi00
    obtain ⟨j2, g1, g2⟩ := hh4.skel t i00 hi00
    rw [hi] at f1
    rw [hi'] at g1
    obtain rfl := Option.some.inj f1
    obtain rfl := Option.some.inj g1
    have := skel_gradFn (g2.trans f2.symm)
    cases hx : i'.gradFn with
    | none =>
      rw [hx] at this
      cases hy : i.gradFn with
      | none => rw [hy] at hsome; simp at hsome
      | some _ => rw [hy] at this; simp at this
    | some _ => rfl
  have l1 := hh1.tlen
  have l2 := hh1.slen
  refine post_bind (hh4.upd (k := { i' with grad := some o }) hi' ht (hc.lt t ht) (by simp [INNC.skel])
    (.inr (.inl ⟨hs', fun g hg => by
      obtain rfl := Option.some.inj hg
      exact ⟨by omega, jo, ho2, by omega⟩⟩))) fun _ h1 hh1 _ => ?_
  refine post_bind hh1.bumpVersion fun v h1 hh1 _ => ?_
  refine post_bind (hh1.getGradFn hc.toGradsIn ht (hc.op _ · ht)) fun g h2 hh2 hg => ?_
  obtain ⟨rfl, ⟨i, hi, hg⟩, _⟩ := hg
  refine post_bind (hh2.setGF hc.toGradsIn ht hi hg rfl rfl) fun _ h1 hh1 _ => ?_
  exact BFrame.queueLoop (fun x h hh hx => hh.backVisit hc.toGradsIn hx (hc.op _ · hx)) _ _ _ hh1 (by simpa using ht)

end

end INNC
