import Verif.Lemmas.Build
import Verif.Spec.Accum
import Mathlib.Logic.Function.Basic
/-
Lemmas on in-place addition.
-/
namespace INNC
open Spec Tensor
variable {F : Type} [FOps F]

theorem wrapBits_8_16 (n : Int) : wrapBits 8 (wrapBits 16 n) = wrapBits 8 n := by
  unfold wrapBits
  exact Int.bmod_bmod_of_dvd (by decide)

theorem accum_ok {l r : DType} {x y v : Val F} (hx : x.HasType l) (hy : y.HasType r)
    (h : elemAccum l r x y = some v) :
    (cArith .add l r x y >>= cConv (DType.arith l r) l) = .ok v ∧ v.HasType l := by
  unfold elemAccum at h
  obtain ⟨z, hz, hv⟩ := Option.bind_eq_some_iff.1 h
  obtain ⟨e, hzt⟩ := kernelElem_ok hx hy hz
  have hc := cConv_of_convert hzt hv
  refine ⟨?_, convert_hasType hv⟩
  cases hw : cArith .add l r x y with
  | throw e' => rw [hw] at e; exact nomatch e
  | ub u => rw [hw] at e; exact nomatch e
  | ok w =>
    rw [hw] at e
    have e : cConv (DType.arith l r) (later l r) w = .ok z := e
    show cConv (DType.arith l r) l w = .ok v
    by_cases h1 : later l r = l
    · rw [h1] at e hc
      rw [cConv, if_pos rfl] at hc
      rw [e]; exact hc
    · by_cases h2 : DType.arith l r = later l r
      · rw [h2] at e ⊢
        rw [cConv, if_pos rfl] at e
        injection e with e
        rw [e]; exact hc
      · have : l = .i8 ∧ r = .i16 := by cases l <;> cases r <;> first | exact ⟨rfl, rfl⟩ | exact absurd rfl h1 | exact absurd rfl h2
        obtain ⟨rfl, rfl⟩ := this
        cases x with
        | f x => exact absurd (show DType.i8.isFloat = true from hx) (by decide)
        | i a =>
        cases y with
        | f y => exact absurd (show DType.i16.isFloat = true from hy) (by decide)
        | i b =>
        have hw' : ∃ n, w = .i n := by
          revert hw
          have : cArith .add .i8 .i16 (.i a : Val F) (.i b) =
              (iArith .add .i32 (wrapBits DType.i32.bits a) (wrapBits DType.i32.bits b) >>= fun n => Res.ok (.i n)) := rfl
          rw [this]
          cases iArith .add .i32 (wrapBits DType.i32.bits a) (wrapBits DType.i32.bits b) with
          | ok n => intro h; injection h with h; exact ⟨n, h.symm⟩
          | throw e => intro h; exact nomatch h
          | ub u => intro h; exact nomatch h
        obtain ⟨n, rfl⟩ := hw'
        have e : Res.ok (.i (wrapBits 16 n) : Val F) = .ok z := e
        injection e with e
        subst e
        have hc : Res.ok (.i (wrapBits 8 (wrapBits 16 n)) : Val F) = .ok v := hc
        rw [wrapBits_8_16] at hc
        exact hc

/-- The body of `a += b`. -/
def accBody (a b : Impl) (sv : List Nat) : M F Unit := do
  let x ← load a.dtype a (← M.lift (cntFromAugIndex a.view sv))
  let y ← load b.dtype b (← M.lift (cntFromAugIndex b.view sv))
  let z ← M.lift (cArith .add a.dtype b.dtype x y)
  let z ← M.lift (cConv (DType.arith a.dtype b.dtype) a.dtype z)
  store a.dtype a (← M.lift (cntFromAugIndex a.view sv)) z

/-- The loop of `a += b`. `c` are the cells of the storage of `a`, `f` the current elements of `a`. -/
theorem accLoop_ok {H : Heap F} {a b : Impl} {fb g : List Nat → Val F} {st : Storage F} {p : List Nat → Nat} {N : Nat}
    (hst : H.st[a.data]? = some st) (hdt : st.dt = a.dtype) (hb : Reads H b fb) (hne : b.data ≠ a.data)
    (hstr : a.view.strides.length = a.view.sizes.length) (hoff : a.view.offset < 18446744073709551616)
    (hN : N < 9223372036854775808)
    (hp : ∀ idx, InBox a.view.sizes idx → position a.view idx = p idx ∧ p idx < N)
    (hinj : ∀ x y, InBox a.view.sizes x → InBox a.view.sizes y → p x = p y → x = y) :
    ∀ (l : List (List Nat)) (c : List (Option (Val F))) (f : List Nat → Val F), c.length = N →
      (∀ k ∈ l, Reaches a k ∧ Reaches b k) →
      (∀ idx, InBox a.view.sizes idx → c[p idx]? = some (some (f idx)) ∧ (f idx).HasType a.dtype) →
      (∀ idx, InBox a.view.sizes idx → (l.filter fun k => project a.view.sizes k = idx).foldlM
        (fun x k => elemAccum a.dtype b.dtype x (fb (project b.view.sizes k))) (f idx) = some (g idx)) →
      ∃ c', runAll (accBody a b) l (H.setCells a.data c) =
            .ok () (H.setCells a.data c') ∧ c'.length = N ∧
        (∀ idx, InBox a.view.sizes idx → c'[p idx]? = some (some (g idx)) ∧ (g idx).HasType a.dtype) ∧
        (∀ q, (∀ idx, InBox a.view.sizes idx → p idx ≠ q) → c'[q]? = c[q]?)
  | [], c, f, hc, _, hf, hg => by
    refine ⟨c, rfl, hc, fun idx hi => ?_, fun _ _ => rfl⟩
    have := hg idx hi
    simp only [List.filter_nil, List.foldlM_nil] at this
    injection this with this
    rw [← this]; exact hf idx hi
  | k :: l, c, f, hc, hk, hf, hg => by
    obtain ⟨hka, hkb⟩ := hk k (by simp)
    have h0 := hg _ hka.2
    rw [List.filter_cons, if_pos (by simp), List.foldlM_cons] at h0
    obtain ⟨v, hv, hrest⟩ := Option.bind_eq_some_iff.1 h0
    have hreads : Reads (H.setCells a.data c) a f := by
      refine ⟨hstr, hoff, ⟨_, c, Heap.setCells_st_self hst c, hdt, rfl, by omega, fun idx hi => ?_⟩, fun idx hi => (hf idx hi).2⟩
      exact ⟨p idx, (hp idx hi).1, (hf idx hi).1⟩
    obtain ⟨ev, hvt⟩ := accum_ok (hf _ hka.2).2 (hb.typed _ hkb.2) hv
    have hpos : cntFromAugIndex a.view k = .ok (p (project a.view.sizes k)) := by
      rw [cntFromAugIndex_project hka.1 hka.2, cntFromIndex_eq hka.2.length (by rw [hstr]) hoff]
      have h1 := hreads.pos_lt hka.2
      rw [h1.1, (hp _ hka.2).1]; simp
    have hstep : accBody a b k (H.setCells a.data c) = .ok () ((H.setCells a.data c).setCells a.data
        (c.set (p (project a.view.sizes k)) (some v))) := by
      unfold accBody
      rw [zipBody hreads (hb.setCells_ne hne c) rfl rfl hka hkb, ev, M.bind_ok (M.lift_ok _ _), hpos,
        M.bind_ok (M.lift_ok _ _)]
      exact store_ok (i := a) (p := p (project a.view.sizes k)) (v := v) (Heap.setCells_st_self hst c) hdt rfl
          (by rw [hc]; exact (hp _ hka.2).2)
    rw [Heap.setCells_setCells] at hstep
    rw [runAll, M.bind_ok hstep]
    have hf' : ∀ idx, InBox a.view.sizes idx → (c.set (p (project a.view.sizes k)) (some v))[p idx]? =
        some (some (Function.update f (project a.view.sizes k) v idx)) ∧
        (Function.update f (project a.view.sizes k) v idx).HasType a.dtype := by
      intro idx hi
      by_cases he : idx = project a.view.sizes k
      · subst he
        rw [Function.update_self, List.getElem?_set_self (by rw [hc]; exact (hp _ hi).2)]
        exact ⟨rfl, hvt⟩
      · rw [Function.update_of_ne he, List.getElem?_set_ne (fun h => he (hinj _ _ hka.2 hi h).symm)]
        exact hf idx hi
    have hg' : ∀ idx, InBox a.view.sizes idx → (l.filter fun k => project a.view.sizes k = idx).foldlM
        (fun x k => elemAccum a.dtype b.dtype x (fb (project b.view.sizes k)))
        (Function.update f (project a.view.sizes k) v idx) = some (g idx) := by
      intro idx hi
      by_cases he : idx = project a.view.sizes k
      · subst he
        rw [Function.update_self]; exact hrest
      · rw [Function.update_of_ne he]
        have := hg idx hi
        rw [List.filter_cons, if_neg (by simpa using fun h => he h.symm)] at this
        exact this
    obtain ⟨c', e', hc', hval, hoth⟩ := accLoop_ok hst hdt hb hne hstr hoff hN hp hinj l
      (c.set (p (project a.view.sizes k)) (some v)) (Function.update f (project a.view.sizes k) v) (by simpa using hc)
      (fun j hj => hk j (by simp [hj])) hf' hg'
    refine ⟨c', e', hc', hval, fun q hq => ?_⟩
    rw [hoth q hq, List.getElem?_set_ne (hq _ hka.2)]

theorem addAssign_ok {h : Heap F} {a b : Nat} {i j : Impl} {s : List Nat} {fa fb g : List Nat → Val F}
    (hi : h.ts[a]? = some i) (hj : h.ts[b]? = some j) (hra : Reads h i fa) (hrb : Reads h j fb) (hne : i.data ≠ j.data)
    (hgr : i.requiresGrad = false) (hs : bshape i.view.sizes j.view.sizes = some s)
    (hstr : ¬ stretched i.view.sizes j.view.sizes)
    (hinj : ∀ x y, InBox i.view.sizes x → InBox i.view.sizes y → position i.view x = position i.view y → x = y)
    (hg : ∀ idx, InBox i.view.sizes idx → accumAt i.dtype j.dtype i.view.sizes j.view.sizes s fa fb idx = some (g idx)) :
    ∃ st cells cells', h.st[i.data]? = some st ∧ st.blob = some cells ∧
      addAssign a b h = .ok () (h.setCells i.data cells') ∧ cells'.length = cells.length ∧
      Reads (h.setCells i.data cells') i g ∧
      ∀ q : Nat, (∀ idx, InBox i.view.sizes idx → position i.view idx ≠ q) → cells'[q]? = cells[q]? := by
  obtain ⟨st, cells, hst, hdt, hbl, hlen, hc⟩ := hra.cells
  have hp : ∀ idx, InBox i.view.sizes idx → position i.view idx = (position i.view idx).toNat ∧
      (position i.view idx).toNat < cells.length := by
    intro idx hb
    obtain ⟨p, hp, hcp⟩ := hc idx hb
    rw [hp]; exact ⟨rfl, by simpa using getElem?_lt hcp⟩
  obtain ⟨c', e, hc', hval, hoth⟩ := accLoop_ok (g := g) (p := fun idx => (position i.view idx).toNat) hst hdt hrb
    (Ne.symm hne) hra.strides hra.offset hlen hp (fun x y hx hy he => hinj x y hx hy (by
      have := (hp x hx).1; have := (hp y hy).1; omega)) (rowMajor s) cells fa rfl
    (fun k hk => by
      have hb := mem_rowMajor.1 hk
      exact ⟨⟨by rw [hb.length]; exact bshape_length_left hs, project_inBox_left hs hb⟩,
        ⟨by rw [hb.length]; exact bshape_length_right hs, project_inBox_right hs hb⟩⟩)
    (fun idx hb => by
      obtain ⟨p, hp, hcp⟩ := hc idx hb
      refine ⟨?_, hra.typed idx hb⟩
      simp only [hp]; exact hcp)
    (fun idx hb => hg idx hb)
  rw [Heap.setCells_eq_self hst hbl] at e
  refine ⟨st, cells, c', hst, hbl, ?_, hc', ?_, ?_⟩
  · unfold addAssign
    rw [M.bind_ok (getT_ok hi), M.bind_ok (a := ()) (h' := h) (by rw [hgr]; rfl), M.bind_ok (getT_ok hj)]
    unfold tensorAdd
    rw [broadcastRange_eq hs hstr, M.bind_ok (M.lift_ok _ _)]
    unfold zipLoop
    rw [forEach_eq]
    exact e
  · refine ⟨hra.strides, hra.offset, ⟨_, c', Heap.setCells_st_self hst c', hdt, rfl, by omega, fun idx hb => ?_⟩,
      fun idx hb => (hval idx hb).2⟩
    exact ⟨_, (hp idx hb).1, (hval idx hb).1⟩
  · intro q hq
    exact hoth q fun idx hb he => hq idx hb (by rw [(hp idx hb).1]; exact_mod_cast he)

/-- What `a += b` does to every tensor, in terms of the elements of `a` (`sa`, `fa`) and their new values `g`. -/
theorem add_effect {h : Heap F} {a b : Nat} {da db : DType} {sa sb s : List Nat} {fa fb g : List Nat → Val F}
    (ha : Denotes h a da sa fa) (hb : Denotes h b db sb fb) (hne : ¬ SameStorage h a b)
    (hgr : ∀ i, h.ts[a]? = some i → i.requiresGrad = false) (hs : bshape sa sb = some s) (hstr : ¬ stretched sa sb)
    (hinj : Distinct h a) (hg : ∀ idx, InBox sa idx → accumAt da db sa sb s fa fb idx = some (g idx)) :
    ∃ h', addAssign a b h = .ok () h' ∧ h'.ts = h.ts ∧ Denotes h' a da sa g ∧
      ∀ t dt st f, Denotes h t dt st f → ∃ f', Denotes h' t dt st f' ∧ ∀ idx, InBox st idx →
        (∀ k, SamePlace h t idx a k → f' idx = g k) ∧ ((∀ k, ¬ SamePlace h t idx a k) → f' idx = f idx) := by
  obtain ⟨i, hi, rfl, rfl, hra⟩ := ha
  obtain ⟨j, hj, rfl, rfl, hrb⟩ := hb
  obtain ⟨st, cells, cells', hst, hbl, e, hlen, hr', hoth⟩ := addAssign_ok hi hj hra hrb
    (fun he => hne ⟨i, j, hi, hj, he⟩) (hgr i hi) hs hstr (hinj i hi) hg
  refine ⟨_, e, rfl, ⟨i, hi, rfl, rfl, hr'⟩, ?_⟩
  rintro t dt st' f ⟨k, hk, rfl, rfl, hrk⟩
  by_cases hd : k.data = i.data
  · obtain ⟨st1, cells1, hst1, hdt1, hbl1, hlen1, hc1⟩ := hrk.cells
    rw [hd, hst] at hst1
    obtain rfl := Option.some.inj hst1
    rw [hbl] at hbl1
    obtain rfl := Option.some.inj hbl1
    obtain ⟨st2, cells2, hst2, hdt2, hbl2, hlen2, hc2⟩ := hr'.cells
    rw [Heap.setCells_st_self hst] at hst2
    obtain rfl := Option.some.inj hst2
    have hbl2 : some cells' = some cells2 := hbl2
    obtain rfl := Option.some.inj hbl2
    have hdt2 : st.dt = i.dtype := hdt2
    -- the new element of `t` at each index
    have key : ∀ idx, InBox k.view.sizes idx → ∃ v : Val F, ∃ p : Nat, position k.view idx = p ∧
        cells'[p]? = some (some v) ∧ v.HasType k.dtype ∧
        (∀ x, InBox i.view.sizes x → position k.view idx = position i.view x → v = g x) ∧
        ((∀ x, InBox i.view.sizes x → position k.view idx ≠ position i.view x) → v = f idx) := by
      intro idx hb
      obtain ⟨p, hp, hcp⟩ := hc1 idx hb
      by_cases hx : ∃ x, InBox i.view.sizes x ∧ position k.view idx = position i.view x
      · obtain ⟨x, hxb, hxp⟩ := hx
        obtain ⟨q, hq, hcq⟩ := hc2 x hxb
        have hpq : p = q := by
          have : (p : Int) = q := by rw [← hp, hxp, hq]
          exact_mod_cast this
        subst hpq
        refine ⟨g x, p, hp, hcq, ?_, fun y hyb hyp => ?_, fun hno => absurd hxp (hno x hxb)⟩
        · rw [← hdt1, hdt2]; exact hr'.typed x hxb
        · rw [hinj i hi x y hxb hyb (by rw [← hxp, hyp])]
      · refine ⟨f idx, p, hp, ?_, hrk.typed idx hb, fun y hyb hyp => absurd ⟨y, hyb, hyp⟩ hx, fun _ => rfl⟩
        rw [hoth p fun x hxb hxp => hx ⟨x, hxb, by rw [hp, hxp]⟩]
        exact hcp
    classical
    refine ⟨fun idx => if hb : InBox k.view.sizes idx then (key idx hb).choose else f idx, ⟨k, hk, rfl, rfl, hrk.strides, hrk.offset,
      ⟨{ st with blob := some cells' }, cells', by rw [hd]; exact Heap.setCells_st_self hst cells', hdt1, rfl, hlen2, fun idx hb => ?_⟩, fun idx hb => ?_⟩, fun idx hb => ?_⟩
    · obtain ⟨p, hp, hc, _⟩ := (key idx hb).choose_spec
      exact ⟨p, hp, by rw [dif_pos hb]; exact hc⟩
    · obtain ⟨p, hp, hc, ht, _⟩ := (key idx hb).choose_spec
      rw [dif_pos hb]; exact ht
    · obtain ⟨p, hp, hc, ht, h1, h2⟩ := (key idx hb).choose_spec
      simp only
      rw [dif_pos hb]
      refine ⟨?_, fun hno => h2 fun x hxb hxp => hno x ⟨k, i, hk, hi, hd, hb, hxb, hxp⟩⟩
      rintro x ⟨k', i', hk', hi', _, _, hxb, hxp⟩
      rw [hk] at hk'; obtain rfl := Option.some.inj hk'
      rw [hi] at hi'; obtain rfl := Option.some.inj hi'
      exact h1 x hxb hxp
  · refine ⟨f, ⟨k, hk, rfl, rfl, hrk.setCells_ne hd cells'⟩, fun idx hb => ⟨?_, fun _ => rfl⟩⟩
    rintro x ⟨k', i', hk', hi', hd', _⟩
    rw [hk] at hk'; obtain rfl := Option.some.inj hk'
    rw [hi] at hi'; obtain rfl := Option.some.inj hi'
    exact absurd hd' hd

end INNC
