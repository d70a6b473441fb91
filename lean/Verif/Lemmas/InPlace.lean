import Verif.Lemmas.Accum
import Verif.Lemmas.Outcome
import Verif.Spec.InPlace
/-
Lemmas on in-place addition of operands that may share memory.
-/
namespace INNC
open Spec Tensor
variable {F : Type} [FOps F]

theorem accum_none {l r : DType} {x y : Val F} (hx : x.HasType l) (hy : y.HasType r) (h : elemAccum l r x y = none) :
    ∃ u, (cArith .add l r x y >>= cConv (DType.arith l r) l) = .ub u ∧ ByValue u := by
  unfold elemAccum at h
  cases hz : elemArith .add l r x y with
  | none =>
    have hk := kernelElem_none hx hy hz
    cases hw : cArith .add l r x y with
    | ub u =>
      rw [hw] at hk
      refine ⟨u, rfl, ?_⟩
      rcases hk with hk | hk
      · injection hk with hk; exact .inl hk
      · injection hk with hk; exact .inr (.inl hk)
    | throw e => rw [hw] at hk; rcases hk with hk | hk <;> exact nomatch hk
    | ok w =>
      rw [hw] at hk
      exact absurd hk (by
        change ¬ (cConv (DType.arith l r) (later l r) w = _ ∨ cConv (DType.arith l r) (later l r) w = _)
        unfold cConv convTo
        split
        · simp
        · split <;> first | (simp; done) | (split <;> first | (simp; done) | (split <;> simp)))
  | some z =>
    rw [hz] at h
    have h : convert (later l r) l z = none := h
    obtain ⟨e, hzt⟩ := kernelElem_ok hx hy hz
    have hc : cConv (later l r) l z = .ub .floatToInt := by rw [cConv_eq hzt, h]; rfl
    cases hw : cArith .add l r x y with
    | throw e' => rw [hw] at e; exact nomatch e
    | ub u => rw [hw] at e; exact nomatch e
    | ok w =>
      rw [hw] at e
      have e : cConv (DType.arith l r) (later l r) w = .ok z := e
      refine ⟨.floatToInt, ?_, .inr (.inr (.inl rfl))⟩
      show cConv (DType.arith l r) l w = _
      by_cases h2 : DType.arith l r = later l r
      · rw [h2] at e ⊢
        rw [cConv, if_pos rfl] at e
        injection e with e
        rw [e]; exact hc
      · have hi : isInteger (later l r) = true := by
          revert h2
          cases l <;> cases r <;> decide
        have hl : isInteger l = true := by
          revert h2
          cases l <;> cases r <;> decide
        exfalso
        cases z with
        | f y => 
          have := hasType_f.1 hzt
          rw [hi] at this
          exact absurd this (by simp)
        | i n =>
          unfold convert at h
          rw [if_pos hl] at h
          exact nomatch h

/-- Writing one cell of a storage changes the elements at that cell. -/
theorem Spec.Reads.write {H : Heap F} {j : Impl} {f : List Nat → Val F} {d q : Nat} {c : List (Option (Val F))} {v : Val F}
    {st : Storage F} (hst : H.st[d]? = some st) (hv : v.HasType st.dt) (hq : q < c.length)
    (hr : Reads (H.setCells d c) j f) :
    Reads (H.setCells d (c.set q (some v))) j fun idx => if j.data = d ∧ position j.view idx = q then v else f idx := by
  by_cases hd : j.data = d
  · obtain ⟨s1, c1, h1, h2, h3, h4, h5⟩ := hr.cells
    rw [hd, Heap.setCells_st_self hst] at h1
    obtain rfl := Option.some.inj h1
    obtain rfl := Option.some.inj h3
    refine ⟨hr.strides, hr.offset, ⟨{ st with blob := some (c.set q (some v)) }, c.set q (some v),
      by rw [hd]; exact Heap.setCells_st_self hst _, h2, rfl, by simpa using h4, fun idx hb => ?_⟩, fun idx hb => ?_⟩
    · obtain ⟨p, hp, hc⟩ := h5 idx hb
      refine ⟨p, hp, ?_⟩
      by_cases hpq : p = q
      · subst hpq
        rw [List.getElem?_set_self hq, if_pos ⟨hd, hp⟩]
      · rw [List.getElem?_set_ne (Ne.symm hpq), if_neg (by rintro ⟨_, h⟩; rw [hp] at h; exact hpq (by exact_mod_cast h))]
        exact hc
    · split
      · rw [← h2]; exact hv
      · exact hr.typed idx hb
  · obtain ⟨s1, c1, h1, h2, h3, h4, h5⟩ := hr.cells
    rw [Heap.setCells_st_ne _ hd] at h1
    refine ⟨hr.strides, hr.offset, ⟨s1, c1, by rw [Heap.setCells_st_ne _ hd]; exact h1, h2, h3, h4, fun idx hb => ?_⟩, fun idx hb => ?_⟩
    · rw [if_neg fun h => hd h.1]; exact h5 idx hb
    · rw [if_neg fun h => hd h.1]; exact hr.typed idx hb

/-- The relation between how the additions end and what the loop does. -/
def Ended (H : Heap F) (i j : Impl) (N : Nat) (c : List (Option (Val F))) (p q : List Nat → Nat) : Added F → Out (Heap F) Unit → Prop
  | .undefined, o => ∃ u, o = .ub u ∧ ByValue u
  | .done m, o => ∃ c', o = .ok () (H.setCells i.data c') ∧ c'.length = N ∧ Reads (H.setCells i.data c') i (fun x => m (p x)) ∧
      Reads (H.setCells i.data c') j (fun x => m (q x)) ∧
      ∀ r : Nat, (∀ idx, InBox i.view.sizes idx → position i.view idx ≠ r) → c'[r]? = c[r]?
  | .rejected m, o => ∃ c', o = .throw .runtime (H.setCells i.data c') ∧ c'.length = N ∧ Reads (H.setCells i.data c') i (fun x => m (p x)) ∧
      Reads (H.setCells i.data c') j (fun x => m (q x)) ∧
      ∀ r : Nat, (∀ idx, InBox i.view.sizes idx → position i.view idx ≠ r) → c'[r]? = c[r]?

theorem addEach_loop {H : Heap F} {i j : Impl} {st : Storage F} {p q : List Nat → Nat} {N : Nat}
    (hst : H.st[i.data]? = some st) (hdt : st.dt = i.dtype)
    (hp : ∀ x x', InBox i.view.sizes x → InBox i.view.sizes x' → (p x = p x' ↔ position i.view x = position i.view x'))
    (hq : ∀ x y, InBox i.view.sizes x → InBox j.view.sizes y → (p x = q y ↔ j.data = i.data ∧ position i.view x = position j.view y)) :
    ∀ (l : List (List Nat)) (c : List (Option (Val F))) (m : Nat → Val F), c.length = N →
      (∀ k ∈ l, i.view.sizes.length ≤ k.length ∧ j.view.sizes.length ≤ k.length) →
      Reads (H.setCells i.data c) i (fun x => m (p x)) → Reads (H.setCells i.data c) j (fun x => m (q x)) →
      Ended H i j N c p q (addEach i.dtype j.dtype i.view.sizes j.view.sizes p q l m) (runAll (accBody i j) l (H.setCells i.data c))
  | [], c, m, hc, _, h1, h2 => ⟨c, rfl, hc, h1, h2, fun _ _ => rfl⟩
  | k :: l, c, m, hc, hk, h1, h2 => by
    obtain ⟨hk1, hk2⟩ := hk k (by simp)
    unfold addEach
    by_cases hm : Meets i.view.sizes j.view.sizes k
    · rw [if_pos hm]
      have ra : Reaches i k := ⟨hk1, hm.1⟩
      have rb : Reaches j k := ⟨hk2, hm.2⟩
      cases hv : elemAccum i.dtype j.dtype (m (p (project i.view.sizes k))) (m (q (project j.view.sizes k))) with
      | none =>
        obtain ⟨u, e, hu⟩ := accum_none (h1.typed _ hm.1) (h2.typed _ hm.2) hv
        refine ⟨u, ?_, hu⟩
        rw [runAll]
        refine M.bind_ub ?_
        unfold accBody
        rw [zipBody h1 h2 rfl rfl ra rb, e, M.bind_ub (M.lift_ub _ _)]
      | some v =>
        obtain ⟨ev, hvt⟩ := accum_ok (h1.typed _ hm.1) (h2.typed _ hm.2) hv
        have hlt := h1.pos_lt hm.1
        obtain ⟨s1, c1, g1, g2, g3, g4, g5⟩ := h1.cells
        rw [Heap.setCells_st_self hst] at g1
        obtain rfl := Option.some.inj g1
        obtain rfl := Option.some.inj g3
        obtain ⟨r, hr, hcr⟩ := g5 _ hm.1
        have hrl : r < c.length := getElem?_lt hcr
        have hpos : cntFromAugIndex i.view k = .ok r := by
          rw [cntFromAugIndex_project ra.1 ra.2, cntFromIndex_eq ra.2.length (by rw [h1.strides]) h1.offset, hlt.1, hr]
          simp
        have hstep : accBody i j k (H.setCells i.data c) = .ok () (H.setCells i.data (c.set r (some v))) := by
          rw [← Heap.setCells_setCells H i.data c (c.set r (some v))]
          unfold accBody
          rw [zipBody h1 h2 rfl rfl ra rb, ev, M.bind_ok (M.lift_ok _ _), hpos, M.bind_ok (M.lift_ok _ _)]
          exact store_ok (i := i) (p := r) (v := v) (Heap.setCells_st_self hst c) hdt rfl hrl
        rw [runAll, M.bind_ok hstep]
        have hv' : v.HasType st.dt := by rw [hdt]; exact hvt
        have w1 := (Spec.Reads.write hst hv' hrl h1).congr (g := fun x => if p x = p (project i.view.sizes k) then v else m (p x))
          fun x hx => by
            simp only [true_and]
            rw [← hr]
            by_cases he : position i.view x = position i.view (project i.view.sizes k)
            · rw [if_pos he, if_pos ((hp _ _ hx hm.1).2 he)]
            · rw [if_neg he, if_neg fun h => he ((hp _ _ hx hm.1).1 h)]
        have w2 := (Spec.Reads.write hst hv' hrl h2).congr (g := fun x => if q x = p (project i.view.sizes k) then v else m (q x))
          fun x hx => by
            rw [← hr]
            by_cases he : j.data = i.data ∧ position j.view x = position i.view (project i.view.sizes k)
            · rw [if_pos he, if_pos ((hq _ _ hm.1 hx).2 ⟨he.1, he.2.symm⟩).symm]
            · rw [if_neg he, if_neg fun h => he ⟨((hq _ _ hm.1 hx).1 h.symm).1, ((hq _ _ hm.1 hx).1 h.symm).2.symm⟩]
        have ih := addEach_loop (st := st) (p := p) (q := q) hst hdt hp hq l (c.set r (some v))
          (fun n => if n = p (project i.view.sizes k) then v else m n) (by simpa using hc) (fun y hy => hk y (by simp [hy])) w1 w2
        have hrr : ∀ (s : Nat), (∀ idx, InBox i.view.sizes idx → position i.view idx ≠ s) → (c.set r (some v))[s]? = c[s]? := fun s hs =>
          List.getElem?_set_ne fun h => hs _ hm.1 (by rw [hr, h])
        simp only
        cases ho : addEach i.dtype j.dtype i.view.sizes j.view.sizes p q l (fun n => if n = p (project i.view.sizes k) then v else m n) with
        | undefined => rw [ho] at ih; exact ih
        | done m' =>
          rw [ho] at ih
          obtain ⟨c', a1, a2, a3, a4, a5⟩ := ih
          exact ⟨c', a1, a2, a3, a4, fun s hs => (a5 s hs).trans (hrr s hs)⟩
        | rejected m' =>
          rw [ho] at ih
          obtain ⟨c', a1, a2, a3, a4, a5⟩ := ih
          exact ⟨c', a1, a2, a3, a4, fun s hs => (a5 s hs).trans (hrr s hs)⟩
    · rw [if_neg hm]
      refine ⟨c, ?_, hc, h1, h2, fun _ _ => rfl⟩
      rw [runAll]
      refine M.bind_throw ?_
      unfold accBody
      exact zipBody_throw h1 rfl hk1 hk2 (fun hh => hm ⟨hh.1.2, hh.2.2⟩) _

/-- Storage of `a` after the loop, seen from any tensor. -/
theorem changed_of {h : Heap F} {a b : Nat} {i j : Impl} {st : Storage F} {cells cells' : List (Option (Val F))} {p q : List Nat → Nat}
    {m : Nat → Val F} (hi : h.ts[a]? = some i) (hj : h.ts[b]? = some j) (hst : h.st[i.data]? = some st) (hbl : st.blob = some cells)
    (hr' : Reads (h.setCells i.data cells') i fun x => m (p x)) (hrj : Reads (h.setCells i.data cells') j fun x => m (q x))
    (hp : ∀ x x', InBox i.view.sizes x → InBox i.view.sizes x' → (p x = p x' ↔ position i.view x = position i.view x'))
    (hoth : ∀ r : Nat, (∀ idx, InBox i.view.sizes idx → position i.view idx ≠ r) → cells'[r]? = cells[r]?) :
    Changed h (h.setCells i.data cells') a b i.dtype j.dtype i.view.sizes j.view.sizes p q m := by
  refine ⟨rfl, ⟨i, hi, rfl, rfl, hr'⟩, ⟨j, hj, rfl, rfl, hrj⟩, ?_⟩
  rintro t dt st' f ⟨k, hk, rfl, rfl, hrk⟩
  by_cases hd : k.data = i.data
  · obtain ⟨st1, cells1, hst1, hdt1, hbl1, hlen1, hc1⟩ := hrk.cells
    rw [hd, hst] at hst1
    obtain rfl := Option.some.inj hst1
    rw [hbl] at hbl1
    obtain rfl := Option.some.inj hbl1
    obtain ⟨st2, cells2, hst2, hdt2, hbl2, hlen2, hc2⟩ := hr'.cells
    rw [Heap.setCells_st_self hst] at hst2
    obtain rfl := Option.some.inj hst2
    obtain rfl := Option.some.inj hbl2
    have hdt2 : st.dt = i.dtype := hdt2
    have key : ∀ idx, InBox k.view.sizes idx → ∃ v : Val F, ∃ r : Nat, position k.view idx = r ∧
        cells'[r]? = some (some v) ∧ v.HasType k.dtype ∧
        (∀ x, InBox i.view.sizes x → position k.view idx = position i.view x → v = m (p x)) ∧
        ((∀ x, InBox i.view.sizes x → position k.view idx ≠ position i.view x) → v = f idx) := by
      intro idx hb
      obtain ⟨r, hrp, hcp⟩ := hc1 idx hb
      by_cases hx : ∃ x, InBox i.view.sizes x ∧ position k.view idx = position i.view x
      · obtain ⟨x, hxb, hxp⟩ := hx
        obtain ⟨s, hs, hcs⟩ := hc2 x hxb
        have hrs : r = s := by
          have : (r : Int) = s := by rw [← hrp, hxp, hs]
          exact_mod_cast this
        subst hrs
        refine ⟨m (p x), r, hrp, hcs, ?_, fun y hyb hyp => ?_, fun hno => absurd hxp (hno x hxb)⟩
        · rw [← hdt1, hdt2]; exact hr'.typed x hxb
        · rw [(hp x y hxb hyb).2 (by rw [← hxp, hyp])]
      · refine ⟨f idx, r, hrp, ?_, hrk.typed idx hb, fun y hyb hyp => absurd ⟨y, hyb, hyp⟩ hx, fun _ => rfl⟩
        rw [hoth r fun x hxb hxp => hx ⟨x, hxb, by rw [hrp, hxp]⟩]
        exact hcp
    classical
    refine ⟨fun idx => if hb : InBox k.view.sizes idx then (key idx hb).choose else f idx, ⟨k, hk, rfl, rfl, hrk.strides, hrk.offset,
      ⟨{ st with blob := some cells' }, cells', by rw [hd]; exact Heap.setCells_st_self hst cells', hdt1, rfl, hlen2, fun idx hb => ?_⟩, fun idx hb => ?_⟩, fun idx hb => ?_⟩
    · obtain ⟨r, hr, hc, _⟩ := (key idx hb).choose_spec
      exact ⟨r, hr, by rw [dif_pos hb]; exact hc⟩
    · obtain ⟨r, hr, hc, ht, _⟩ := (key idx hb).choose_spec
      rw [dif_pos hb]; exact ht
    · obtain ⟨r, hr, hc, ht, h1, h2⟩ := (key idx hb).choose_spec
      simp only
      rw [dif_pos hb]
      refine ⟨?_, fun hno => h2 fun x hxb hxp => hno x ⟨k, i, hk, hi, hd, hb, hxb, hxp⟩⟩
      rintro x ⟨k', i', hk', hi', _, _, hxb, hxp⟩
      rw [hk] at hk'; obtain rfl := Option.some.inj hk'
      rw [hi] at hi'; obtain rfl := Option.some.inj hi'
      exact h1 x hxb hxp
  · refine ⟨f, ⟨k, hk, rfl, rfl, hrk.setCells_ne hd cells'⟩, fun idx hb => ⟨?_, fun _ => rfl⟩⟩
    rintro x ⟨k', i', hk', hi', hd', _⟩
    rw [hk] at hk'; obtain rfl := Option.some.inj hk'
    rw [hi] at hi'; obtain rfl := Option.some.inj hi'
    exact absurd hd' hd

theorem samePlace_iff {h : Heap F} {a b : Nat} {i j : Impl} (hi : h.ts[a]? = some i) (hj : h.ts[b]? = some j) (x y : List Nat) :
    SamePlace h a x b y ↔ i.data = j.data ∧ InBox i.view.sizes x ∧ InBox j.view.sizes y ∧ position i.view x = position j.view y := by
  constructor
  · rintro ⟨i', j', hi', hj', h1, h2, h3, h4⟩
    rw [hi] at hi'; obtain rfl := Option.some.inj hi'
    rw [hj] at hj'; obtain rfl := Option.some.inj hj'
    exact ⟨h1, h2, h3, h4⟩
  · rintro ⟨h1, h2, h3, h4⟩
    exact ⟨i, j, hi, hj, h1, h2, h3, h4⟩

theorem addAssign_loop {h : Heap F} {a b : Nat} {i j : Impl} (hi : h.ts[a]? = some i) (hj : h.ts[b]? = some j) (hgr : i.requiresGrad = false) :
    addAssign a b h = runAll (accBody i j) (rowMajor (maxShape i.view.sizes j.view.sizes)) h := by
  unfold addAssign
  rw [M.bind_ok (getT_ok hi), M.bind_ok (a := ()) (h' := h) (by rw [hgr]; rfl), M.bind_ok (getT_ok hj)]
  unfold tensorAdd
  rw [broadcastRange_max, M.bind_ok (M.lift_ok _ _)]
  unfold zipLoop
  rw [forEach_eq]
  rfl

/-- `a += b` on one storage, whose places are numbered as they are. -/
theorem addAssign_shared {h : Heap F} {a b : Nat} {i j : Impl} {p q : List Nat → Nat} {m m' : Nat → Val F}
    (hi : h.ts[a]? = some i) (hj : h.ts[b]? = some j) (hra : Reads h i fun x => m (p x)) (hrb : Reads h j fun x => m (q x)) (hd : i.data = j.data)
    (hgr : i.requiresGrad = false) (hpi : ∀ x, InBox i.view.sizes x → position i.view x = p x)
    (hqj : ∀ y, InBox j.view.sizes y → position j.view y = q y)
    (hm : addEach i.dtype j.dtype i.view.sizes j.view.sizes p q (rowMajor (maxShape i.view.sizes j.view.sizes)) m = .done m') :
    ∃ st cells cells', h.st[i.data]? = some st ∧ st.blob = some cells ∧
      addAssign a b h = .ok () (h.setCells i.data cells') ∧ cells'.length = cells.length ∧
      Reads (h.setCells i.data cells') i (fun x => m' (p x)) ∧
      ∀ q : Nat, (∀ idx, InBox i.view.sizes idx → position i.view idx ≠ q) → cells'[q]? = cells[q]? := by
  obtain ⟨st, cells, hst, hdt, hbl, hlen, hc⟩ := hra.cells
  have hself : h.setCells i.data cells = h := Heap.setCells_eq_self hst hbl
  have hloop := addEach_loop (p := p) (q := q) hst hdt (fun x x' hx hx' => by rw [hpi x hx, hpi x' hx']; exact_mod_cast Iff.rfl)
    (fun x y hx hy => by rw [hpi x hx, hqj y hy]; exact ⟨fun e => ⟨hd.symm, by exact_mod_cast e⟩, fun e => by exact_mod_cast e.2⟩)
    (rowMajor (maxShape i.view.sizes j.view.sizes)) cells m rfl
    (fun k hk => maxShape_len (mem_rowMajor.1 hk)) (by rw [hself]; exact hra) (by rw [hself]; exact hrb)
  rw [hself, hm, ← addAssign_loop hi hj hgr] at hloop
  obtain ⟨c', a1, a2, a3, a4, a5⟩ := hloop
  exact ⟨st, cells, c', hst, hbl, a1, a2, a3, a5⟩

theorem addAssign_each {h : Heap F} {a b : Nat} {da db : DType} {sa sb : List Nat} {p q : List Nat → Nat} {m : Nat → Val F}
    (ha : Denotes h a da sa fun i => m (p i)) (hb : Denotes h b db sb fun j => m (q j))
    (hgr : ∀ i, h.ts[a]? = some i → i.requiresGrad = false) (hn : Numbered h a b sa sb p q) :
    match addEach da db sa sb p q (rowMajor (maxShape sa sb)) m with
    | .done m' => ∃ h', addAssign a b h = .ok () h' ∧ Changed h h' a b da db sa sb p q m'
    | .rejected m' => ∃ h', addAssign a b h = .throw .runtime h' ∧ Changed h h' a b da db sa sb p q m'
    | .undefined => ∃ u, addAssign a b h = .ub u ∧ ByValue u := by
  obtain ⟨i, hi, rfl, rfl, hra⟩ := ha
  obtain ⟨j, hj, rfl, rfl, hrb⟩ := hb
  obtain ⟨st, cells, hst, hdt, hbl, hlen, hc⟩ := hra.cells
  have hself : h.setCells i.data cells = h := Heap.setCells_eq_self hst hbl
  have hp : ∀ x x', InBox i.view.sizes x → InBox i.view.sizes x' → (p x = p x' ↔ position i.view x = position i.view x') := fun x x' hx hx' => by
    rw [hn.left x x' hx hx', samePlace_iff hi hi]
    exact ⟨fun h => h.2.2.2, fun h => ⟨rfl, hx, hx', h⟩⟩
  have hq : ∀ x y, InBox i.view.sizes x → InBox j.view.sizes y → (p x = q y ↔ j.data = i.data ∧ position i.view x = position j.view y) := fun x y hx hy => by
    rw [hn.both x y hx hy, samePlace_iff hi hj]
    exact ⟨fun h => ⟨h.1.symm, h.2.2.2⟩, fun h => ⟨h.1.symm, hx, hy, h.2⟩⟩
  have hloop := addEach_loop hst hdt hp hq (rowMajor (maxShape i.view.sizes j.view.sizes)) cells m rfl
    (fun k hk => maxShape_len (mem_rowMajor.1 hk)) (by rw [hself]; exact hra) (by rw [hself]; exact hrb)
  rw [hself] at hloop
  rw [addAssign_loop hi hj (hgr i hi)]
  cases ho : addEach i.dtype j.dtype i.view.sizes j.view.sizes p q (rowMajor (maxShape i.view.sizes j.view.sizes)) m with
  | undefined => rw [ho] at hloop; exact hloop
  | done m' =>
    rw [ho] at hloop
    obtain ⟨c', a1, a2, a3, a4, a5⟩ := hloop
    exact ⟨_, a1, changed_of hi hj hst hbl a3 a4 hp a5⟩
  | rejected m' =>
    rw [ho] at hloop
    obtain ⟨c', a1, a2, a3, a4, a5⟩ := hloop
    exact ⟨_, a1, changed_of hi hj hst hbl a3 a4 hp a5⟩

/-- Places can always be numbered. -/
theorem exists_numbered {h : Heap F} {a b : Nat} {da db : DType} {sa sb : List Nat} {fa fb : List Nat → Val F}
    (ha : Denotes h a da sa fa) (hb : Denotes h b db sb fb) :
    ∃ (p q : List Nat → Nat) (m : Nat → Val F), Numbered h a b sa sb p q ∧ (∀ i, InBox sa i → m (p i) = fa i) ∧ (∀ j, InBox sb j → m (q j) = fb j) := by
  classical
  obtain ⟨i, hi, rfl, rfl, hra⟩ := ha
  obtain ⟨j, hj, rfl, rfl, hrb⟩ := hb
  let off : Nat := if j.data = i.data then 0 else 1
  let p : List Nat → Nat := fun x => 2 * (position i.view x).toNat
  let q : List Nat → Nat := fun x => 2 * (position j.view x).toNat + off
  let m : Nat → Val F := fun n => if hx : ∃ x, InBox i.view.sizes x ∧ p x = n then fa hx.choose
    else if hx : ∃ x, InBox j.view.sizes x ∧ q x = n then fb hx.choose else .i 0
  have hp : ∀ x x', InBox i.view.sizes x → InBox i.view.sizes x' → (p x = p x' ↔ position i.view x = position i.view x') := fun x x' hx hx' => by
    have h1 := hra.range hx
    have h2 := hra.range hx'
    simp only [p]; omega
  have hq' : ∀ x x', InBox j.view.sizes x → InBox j.view.sizes x' → (q x = q x' ↔ position j.view x = position j.view x') := fun x x' hx hx' => by
    have h1 := hrb.range hx
    have h2 := hrb.range hx'
    simp only [q]; omega
  have hq : ∀ x y, InBox i.view.sizes x → InBox j.view.sizes y → (p x = q y ↔ i.data = j.data ∧ position i.view x = position j.view y) := fun x y hx hy => by
    have h1 := hra.range hx
    have h2 := hrb.range hy
    simp only [p, q, off]
    split
    · next he => exact ⟨fun e => ⟨he.symm, by omega⟩, fun e => by omega⟩
    · next he => exact ⟨fun e => by omega, fun e => absurd e.1.symm he⟩
  have same : ∀ (x y : List Nat), InBox i.view.sizes x → InBox i.view.sizes y → position i.view x = position i.view y → fa x = fa y := by
    intro x y hx hy e
    obtain ⟨st, cells, h1, h2, h3, h4, h5⟩ := hra.cells
    obtain ⟨r, hr, hc⟩ := h5 x hx
    obtain ⟨s, hs, hd⟩ := h5 y hy
    have : r = s := by rw [hr, hs] at e; exact_mod_cast e
    subst this
    rw [hc] at hd
    exact Option.some.inj (Option.some.inj hd)
  have same' : ∀ (x y : List Nat), InBox j.view.sizes x → InBox j.view.sizes y → position j.view x = position j.view y → fb x = fb y := by
    intro x y hx hy e
    obtain ⟨st, cells, h1, h2, h3, h4, h5⟩ := hrb.cells
    obtain ⟨r, hr, hc⟩ := h5 x hx
    obtain ⟨s, hs, hd⟩ := h5 y hy
    have : r = s := by rw [hr, hs] at e; exact_mod_cast e
    subst this
    rw [hc] at hd
    exact Option.some.inj (Option.some.inj hd)
  have across : ∀ (x y : List Nat), InBox i.view.sizes x → InBox j.view.sizes y → i.data = j.data → position i.view x = position j.view y →
      fa x = fb y := by
    intro x y hx hy hd e
    obtain ⟨st, cells, h1, h2, h3, h4, h5⟩ := hra.cells
    obtain ⟨st', cells', h1', h2', h3', h4', h5'⟩ := hrb.cells
    rw [← hd, h1] at h1'
    obtain rfl := Option.some.inj h1'
    rw [h3] at h3'
    obtain rfl := Option.some.inj h3'
    obtain ⟨r, hr, hc⟩ := h5 x hx
    obtain ⟨s, hs, hd⟩ := h5' y hy
    have : r = s := by rw [hr, hs] at e; exact_mod_cast e
    subst this
    rw [hc] at hd
    exact Option.some.inj (Option.some.inj hd)
  refine ⟨p, q, m, ⟨fun x x' hx hx' => ?_, fun x y hx hy => ?_⟩, fun x hx => ?_, fun y hy => ?_⟩
  · rw [hp x x' hx hx', samePlace_iff hi hi]
    exact ⟨fun h => ⟨rfl, hx, hx', h⟩, fun h => h.2.2.2⟩
  · rw [hq x y hx hy, samePlace_iff hi hj]
    exact ⟨fun h => ⟨h.1, hx, hy, h.2⟩, fun h => ⟨h.1, h.2.2.2⟩⟩
  · have hex : ∃ z, InBox i.view.sizes z ∧ p z = p x := ⟨x, hx, rfl⟩
    simp only [m]
    rw [dif_pos hex]
    obtain ⟨z1, z2⟩ := hex.choose_spec
    exact same _ _ z1 hx ((hp _ _ z1 hx).1 z2)
  · simp only [m]
    by_cases hex : ∃ z, InBox i.view.sizes z ∧ p z = q y
    · rw [dif_pos hex]
      obtain ⟨z1, z2⟩ := hex.choose_spec
      obtain ⟨w1, w2⟩ := (hq _ _ z1 hy).1 z2
      exact across _ _ z1 hy w1 w2
    · have hex' : ∃ z, InBox j.view.sizes z ∧ q z = q y := ⟨y, hy, rfl⟩
      rw [dif_neg hex, dif_pos hex']
      obtain ⟨z1, z2⟩ := hex'.choose_spec
      exact same' _ _ z1 hy ((hq' _ _ z1 hy).1 z2)

/-! ### Special cases of the sequence of additions -/

variable {da db : DType} {sa sb : List Nat} {p q : List Nat → Nat}

/-- No element of the right operand is at a place of the left one. -/
theorem addEach_separate {fb g : List Nat → Val F} (hinj : ∀ i i', InBox sa i → InBox sa i' → p i = p i' → i = i')
    (hsep : ∀ i j, InBox sa i → InBox sb j → p i ≠ q j) : ∀ (l : List (List Nat)) (m : Nat → Val F), (∀ k ∈ l, Meets sa sb k) →
      (∀ j, InBox sb j → m (q j) = fb j) →
      (∀ idx, InBox sa idx → (l.filter fun k => project sa k = idx).foldlM (fun x k => elemAccum da db x (fb (project sb k))) (m (p idx)) = some (g idx)) →
      ∃ m', addEach da db sa sb p q l m = .done m' ∧ ∀ idx, InBox sa idx → m' (p idx) = g idx
  | [], m, _, _, hg => ⟨m, rfl, fun idx hi => by simpa using hg idx hi⟩
  | k :: l, m, hk, hb, hg => by
    have hm := hk k (by simp)
    have h0 := hg _ hm.1
    rw [List.filter_cons, if_pos (by simp), List.foldlM_cons] at h0
    obtain ⟨v, hv, hrest⟩ := Option.bind_eq_some_iff.1 h0
    unfold addEach
    rw [if_pos hm, hb _ hm.2, hv]
    simp only
    refine addEach_separate (fb := fb) hinj hsep l _ (fun y hy => hk y (by simp [hy])) (fun j hj => ?_) (fun idx hi => ?_)
    · rw [if_neg fun h => hsep _ _ hm.1 hj h.symm]
      exact hb j hj
    · by_cases he : idx = project sa k
      · rw [he, if_pos rfl]; exact hrest
      · rw [if_neg fun h => he (hinj _ _ hi hm.1 h)]
        have := hg idx hi
        rw [List.filter_cons, if_neg (by simpa using fun h => he h.symm)] at this
        exact this

/-- No element of the right operand is read after it was overwritten. -/
theorem addEach_inOrder {g : List Nat → Val F} (hinj : ∀ i i', InBox sa i → InBox sa i' → p i = p i' → i = i') :
    ∀ (l : List (List Nat)) (m : Nat → Val F), (∀ k ∈ l, InBox sa k ∧ InBox sb (project sb k)) →
      l.Pairwise (fun x y => x ≠ y ∧ p x ≠ q (project sb y)) →
      (∀ k ∈ l, elemAccum da db (m (p k)) (m (q (project sb k))) = some (g k)) →
      ∃ m', addEach da db sa sb p q l m = .done m' ∧ (∀ k ∈ l, m' (p k) = g k) ∧ ∀ n, (∀ k ∈ l, p k ≠ n) → m' n = m n
  | [], m, _, _, _ => ⟨m, rfl, by simp, fun _ _ => rfl⟩
  | k :: l, m, hk, hp, hg => by
    obtain ⟨hk1, hk2⟩ := hk k (by simp)
    have hself : project sa k = k := project_self hk1
    obtain ⟨hp1, hp2⟩ := List.pairwise_cons.1 hp
    unfold addEach
    rw [if_pos ⟨by rw [hself]; exact hk1, hk2⟩, hself, hg k (by simp)]
    simp only
    obtain ⟨m', e, h1, h2⟩ := addEach_inOrder hinj l (fun n => if n = p k then g k else m n) (fun y hy => hk y (by simp [hy])) hp2
      (fun y hy => by
        obtain ⟨w1, w2⟩ := hp1 y hy
        rw [if_neg fun h => w1 (hinj _ _ (hk y (by simp [hy])).1 hk1 h).symm, if_neg fun h => w2 h.symm]
        exact hg y (by simp [hy]))
    refine ⟨m', e, fun y hy => ?_, fun n hn => ?_⟩
    · rcases List.mem_cons.1 hy with rfl | hy
      · rw [h2 _ fun z hz h => (hp1 z hz).1 (hinj _ _ (hk z (by simp [hz])).1 hk1 h).symm]
        simp
      · exact h1 y hy
    · rw [h2 n fun z hz => hn z (by simp [hz])]
      rw [if_neg fun h => hn k (by simp) h.symm]

/-- Each addition reads the sum that the previous one wrote. -/
theorem addEach_running {dt : DType} {n : Nat} {f g : Nat → Val F} (hg0 : g 0 = f 0)
    (hg : ∀ k, k < n → elemAccum dt dt (f (k + 1)) (g k) = some (g (k + 1))) :
    ∀ (r j : Nat) (m : Nat → Val F), j + r = n → (∀ k, k ≤ n → m k = if k ≤ j then g k else f k) →
      ∃ m', addEach dt dt [n] [n] (fun i => i.getD 0 0 + 1) (fun i => i.getD 0 0) ((List.range' j r).map fun k => [k]) m = .done m' ∧
        ∀ k, k ≤ n → m' k = g k
  | 0, j, m, hj, hm => ⟨m, rfl, fun k hk => by rw [hm k hk, if_pos (by omega)]⟩
  | r + 1, j, m, hj, hm => by
    have hb : InBox [n] [j] := ⟨by omega, trivial⟩
    have hs : project [n] [j] = [j] := project_self hb
    rw [List.range'_succ, List.map_cons]
    unfold addEach
    rw [if_pos (show Meets [n] [n] [j] from ⟨by rw [hs]; exact hb, by rw [hs]; exact hb⟩), hs]
    have e1 : m (([j] : List Nat).getD 0 0 + 1) = f (j + 1) := by
      show m (j + 1) = _
      rw [hm _ (by omega), if_neg (by omega)]
    have e2 : m (([j] : List Nat).getD 0 0) = g j := by
      show m j = _
      rw [hm _ (by omega), if_pos (by omega)]
    rw [e1, e2, hg j (by omega)]
    simp only
    refine addEach_running hg0 hg r (j + 1) _ (by omega) fun k hk => ?_
    show (if k = j + 1 then g (j + 1) else m k) = _
    by_cases he : k = j + 1
    · subst he; simp
    · rw [if_neg he, hm k hk]
      by_cases hkj : k ≤ j
      · rw [if_pos hkj, if_pos (by omega)]
      · rw [if_neg hkj, if_neg (by omega)]

theorem rowMajor_line (n : Nat) : rowMajor [n] = (List.range' 0 n).map fun k => [k] := by
  rw [← List.range_eq_range']
  simp [rowMajor, List.flatMap_singleton', ← List.map_eq_flatMap]

theorem rowMajor_pairwise (s : List Nat) : (rowMajor s).Pairwise fun x y => rank s x < rank s y := by
  rw [List.pairwise_iff_getElem]
  intro i j hi hj hij
  have key : ∀ i (hi : i < (rowMajor s).length), rank s (rowMajor s)[i] = i := by
    intro i hi
    have hb : InBox s (rowMajor s)[i] := mem_rowMajor.1 (List.getElem_mem hi)
    have h2 := rowMajor_getElem? hb
    have hl := getElem?_lt h2
    rw [List.getElem?_eq_getElem hl] at h2
    exact ((nodup_rowMajor s).getElem_inj_iff).1 (Option.some.inj h2)
  rw [key i hi, key j hj]
  exact hij

end INNC
