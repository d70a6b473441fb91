import Verif.Lemmas.Build
import Verif.Lemmas.Accum
import Verif.Spec.Deriv
/-
Element arithmetic without rounding, and loops that add to the cells of one storage.
-/
namespace INNC
open Spec Tensor
variable {F : Type} [Field F] [FOps F] [Exact F]

/-- The four operations on exact numbers. -/
def exactOp (op : AOp) (x y : F) : F :=
  match op with
  | .add => x + y
  | .sub => x - y
  | .mul => x * y
  | .div => x / y

theorem fArith_exact (op : AOp) (t : DType) (x y : F) : fArith op t x y = exactOp op x y := by
  cases op
  · exact Exact.add t x y
  · exact Exact.sub t x y
  · exact Exact.mul t x y
  · exact Exact.div t x y

theorem cConv_exact {s t : DType} {v : Val F} (hv : v.HasType s) (ht : t.isFloat = true) :
    cConv s t v = .ok (.f (real v)) := by
  unfold cConv
  split
  · next h =>
    subst h
    cases v with
    | f x => rfl
    | i n =>
      have := hv.1
      cases s <;> simp_all [DType.isInt, DType.isFloat, DType.idx, DType.floatStart]
  · unfold convTo
    have : t.isInt = false := by cases t <;> simp_all [DType.isInt, DType.isFloat, DType.idx, DType.floatStart]
    rw [this]
    cases v with
    | f x => simp only [Exact.cvt]; rfl
    | i n => simp only [Exact.ofInt]; rfl

theorem arith_isFloat {l r : DType} (h : l.isFloat = true ∨ r.isFloat = true) : (DType.arith l r).isFloat = true := by
  cases l <;> cases r <;> first | rfl | (exfalso; revert h; decide)

theorem hasFloat {t : DType} (ht : t.isFloat = true) (x : F) : (Val.f x).HasType t := ht

omit [FOps F] [Exact F] in
theorem val_real {t : DType} {v : Val F} (hv : v.HasType t) (ht : t.isFloat = true) : v = .f (real v) := by
  cases v with
  | f x => rfl
  | i n => exact absurd ht (by have := hv.1; cases t <;> simp_all [DType.isInt, DType.isFloat, DType.idx, DType.floatStart])

theorem cArith_exact (op : AOp) {l r : DType} {x y : Val F} (hx : x.HasType l) (hy : y.HasType r)
    (h : l.isFloat = true ∨ r.isFloat = true) : cArith op l r x y = .ok (.f (exactOp op (real x) (real y))) := by
  unfold cArith
  simp only [cConv_exact hx (arith_isFloat h), cConv_exact hy (arith_isFloat h), fArith_exact]
  rfl

omit [FOps F] [Exact F] in
/-- A loop that adds `w k` to the cell `q k` for each `k`. -/
theorem scatter {α : Type} {op : α → M F Unit} {H : Heap F} {d N : Nat} {q : α → Nat} {w : α → F} :
    ∀ (l : List α) (c : List (Option (Val F))), c.length = N → (∀ k ∈ l, ∃ v : F, c[q k]? = some (some (.f v))) →
      (∀ k ∈ l, ∀ (c : List (Option (Val F))) v, c.length = N → c[q k]? = some (some (.f v)) →
        op k (H.setCells d c) = .ok () (H.setCells d (c.set (q k) (some (.f (v + w k)))))) →
      ∃ c', runAll op l (H.setCells d c) = .ok () (H.setCells d c') ∧ c'.length = N ∧
        ∀ (p : Nat) v, c[p]? = some (some (.f v)) → c'[p]? = some (some (.f (v + ((l.filter fun k => q k = p).map w).sum)))
  | [], c, hc, _, _ => ⟨c, rfl, hc, fun p v h => by simpa using h⟩
  | k :: l, c, hc, hi, hop => by
    obtain ⟨v, hv⟩ := hi k (by simp)
    have hlt := getElem?_lt hv
    have hcell : ∀ (p : Nat) u, c[p]? = some (some (.f u)) → (c.set (q k) (some (.f (v + w k))))[p]? =
        some (some (.f (u + if q k = p then w k else 0))) := fun p u hu => by
      by_cases hp : q k = p
      · subst hp
        rw [hv] at hu
        injection hu with hu; injection hu with hu; injection hu with hu
        rw [List.getElem?_set_self hlt, if_pos rfl, hu]
      · rw [List.getElem?_set_ne hp, if_neg hp, add_zero, hu]
    obtain ⟨c', e, hl, hval⟩ := scatter l (c.set (q k) (some (.f (v + w k)))) (by simpa using hc)
      (fun j hj => by obtain ⟨u, hu⟩ := hi j (by simp [hj]); exact ⟨_, hcell _ u hu⟩)
      (fun j hj => hop j (by simp [hj]))
    refine ⟨c', ?_, hl, fun p u hu => ?_⟩
    · rw [runAll, M.bind_ok (hop k (by simp) c v hc hv)]
      exact e
    · rw [hval p _ (hcell p u hu), List.filter_cons]
      by_cases hp : q k = p
      · simp only [hp, decide_true, if_true, List.map_cons, List.sum_cons, add_assoc]
      · simp only [hp, decide_false, if_false, add_zero]; rfl

/-- `H'` is `H` with `w k` added to the element `project dst.sizes k` of `dst`, for each `k` of the shape `rg`. -/
def Scattered (H : Heap F) (dst : Impl) (rg : List Nat) (w : List Nat → F) (H' : Heap F) : Prop :=
  ∃ s c c', H.st[dst.data]? = some s ∧ s.blob = some c ∧ H' = H.setCells dst.data c' ∧ c'.length = c.length ∧
    ∀ (p : Nat) v, c[p]? = some (some (.f v)) → c'[p]? = some (some (.f (v + (((rowMajor rg).filter fun k =>
      (position dst.view (project dst.view.sizes k)).toNat = p).map w).sum)))

omit [FOps F] [Exact F] in
/-- A kernel whose body adds to one element of `dst`. -/
theorem scattered_of {H : Heap F} {dst : Impl} {fd : List Nat → Val F} {rg : List Nat} {w : List Nat → F}
    {op : List Nat → M F Unit} (hd : Reads H dst fd) (hf : dst.dtype.isFloat = true)
    (hr : ∀ k, InBox rg k → Reaches dst k)
    (hop : ∀ k, InBox rg k → ∀ (c : List (Option (Val F))) v p,
      p = (position dst.view (project dst.view.sizes k)).toNat → cntFromAugIndex dst.view k = .ok p →
      cntFromIndex dst.view (project dst.view.sizes k) = .ok p →
      load dst.dtype dst p (H.setCells dst.data c) = .ok (.f v) (H.setCells dst.data c) →
      (∀ u, store dst.dtype dst p u (H.setCells dst.data c) = .ok () (H.setCells dst.data (c.set p (some u)))) →
      op k (H.setCells dst.data c) = .ok () (H.setCells dst.data (c.set p (some (.f (v + w k)))))) :
    ∃ H', forEach rg op H = .ok () H' ∧ Scattered H dst rg w H' := by
  obtain ⟨s, c, hs, hdt, hb, hlen, hc⟩ := hd.cells
  obtain ⟨c', e, hl, hval⟩ := scatter (op := op) (H := H) (d := dst.data) (N := c.length)
    (q := fun k => (position dst.view (project dst.view.sizes k)).toNat) (w := w) (rowMajor rg) c rfl
    (fun k hk => by
      obtain ⟨p, hp, hcp⟩ := hc _ (hr k (mem_rowMajor.1 hk)).2
      refine ⟨real (fd (project dst.view.sizes k)), ?_⟩
      rw [hp, ← val_real (hd.typed _ (hr k (mem_rowMajor.1 hk)).2) hf]
      simpa using hcp)
    (fun k hk c1 v hc1 hv => by
      have hk0 := mem_rowMajor.1 hk
      have hk := hr k hk0
      have hx := cntFromIndex_eq hk.2.length (by rw [hd.strides]) hd.offset
      have hx2 := cntFromAugIndex_project hk.1 hk.2
      have hp := hd.pos_lt hk.2
      rw [hp.1] at hx
      rw [hx] at hx2
      have hst := Heap.setCells_st_self hs c1
      have hld : load dst.dtype dst (position dst.view (project dst.view.sizes k)).toNat (H.setCells dst.data c1) =
          .ok (.f v) (H.setCells dst.data c1) := load_ok hst hdt rfl hv
      refine hop k hk0 c1 v _ rfl hx2 hx hld (fun u => ?_)
      · have := store_ok (i := dst) (p := (position dst.view (project dst.view.sizes k)).toNat) (v := u) hst hdt rfl
          (getElem?_lt hv)
        rw [this, Heap.setCells_setCells])
  rw [Heap.setCells_eq_self hs hb] at e
  refine ⟨_, by rw [forEach_eq]; exact e, s, c, c', hs, hb, rfl, hl, hval⟩

theorem tensorAdd_exact {H : Heap F} {dst r : Impl} {fd fr : List Nat → Val F} {rg : List Nat} (hd : Reads H dst fd)
    (hf : dst.dtype.isFloat = true) (hr : Reads H r fr) (hne : r.data ≠ dst.data)
    (hb : Broadcasts dst.view.sizes r.view.sizes rg) :
    ∃ H', tensorAdd dst.dtype r.dtype dst dst r H = .ok () H' ∧
      Scattered H dst rg (fun k => real (fr (project r.view.sizes k))) H' := by
  obtain ⟨hs, hst⟩ := hb
  have hrd : ∀ k, InBox rg k → Reaches dst k := fun k hk =>
    ⟨by rw [hk.length]; exact bshape_length_left hs, project_inBox_left hs hk⟩
  have hrr : ∀ k, InBox rg k → Reaches r k := fun k hk =>
    ⟨by rw [hk.length]; exact bshape_length_right hs, project_inBox_right hs hk⟩
  obtain ⟨H', e, hsc⟩ := scattered_of (w := fun k => real (fr (project r.view.sizes k))) (op := fun sv => do
    let x ← load dst.dtype dst (← M.lift (cntFromAugIndex dst.view sv))
    let y ← load r.dtype r (← M.lift (cntFromAugIndex r.view sv))
    let z ← M.lift (cArith .add dst.dtype r.dtype x y)
    let z ← M.lift (cConv (DType.arith dst.dtype r.dtype) dst.dtype z)
    store dst.dtype dst (← M.lift (cntFromAugIndex dst.view sv)) z) hd hf hrd
    (fun k hk c v p _ hp _ hld hst => by
      have e1 := (hr.setCells_ne hne c).load_aug (hrr k hk).1 (hrr k hk).2
      rw [hp, M.bind_ok (M.lift_ok _ _), M.bind_ok hld, ← bind_assoc, M.bind_ok e1,
        cArith_exact .add (hasFloat hf v) (hr.typed _ (hrr k hk).2) (Or.inl hf), M.bind_ok (M.lift_ok _ _),
        cConv_exact (hasFloat (arith_isFloat (Or.inl hf)) _) hf, M.bind_ok (M.lift_ok _ _), M.bind_ok (M.lift_ok _ _)]
      exact hst _)
  refine ⟨H', ?_, hsc⟩
  unfold tensorAdd
  rw [broadcastRange_eq hs hst, M.bind_ok (M.lift_ok _ _)]
  exact e

theorem tensorMulAccF_exact {H : Heap F} {dst l r : Impl} {fd fl fr : List Nat → Val F} {rg1 rg : List Nat} (hd : Reads H dst fd)
    (hf : dst.dtype.isFloat = true) (hl : Reads H l fl) (hr : Reads H r fr) (hnl : l.data ≠ dst.data)
    (hne : r.data ≠ dst.data) (hlr : l.dtype.isFloat = true)
    (hb1 : Broadcasts dst.view.sizes l.view.sizes rg1) (hb : Broadcasts rg1 r.view.sizes rg)
    (hrd : ∀ k, InBox rg k → Reaches dst k) (hrl : ∀ k, InBox rg k → Reaches l k) (hrr : ∀ k, InBox rg k → Reaches r k) :
    ∃ H', tensorMulAccF dst.dtype l.dtype r.dtype dst l r H = .ok () H' ∧
      Scattered H dst rg (fun k => real (fl (project l.view.sizes k)) * real (fr (project r.view.sizes k))) H' := by
  obtain ⟨H', e, hsc⟩ := scattered_of
    (w := fun k => real (fl (project l.view.sizes k)) * real (fr (project r.view.sizes k))) (op := fun sv => do
    let x ← load l.dtype l (← M.lift (cntFromAugIndex l.view sv))
    let y ← load r.dtype r (← M.lift (cntFromAugIndex r.view sv))
    let p ← M.lift (cArith .mul l.dtype r.dtype x y)
    let pos ← M.lift (cntFromAugIndex dst.view sv)
    let d ← load dst.dtype dst pos
    let z ← M.lift (cArith .add dst.dtype (DType.arith l.dtype r.dtype) d p)
    let z ← M.lift (cConv (DType.arith dst.dtype (DType.arith l.dtype r.dtype)) dst.dtype z)
    store dst.dtype dst pos z) hd hf hrd
    (fun k hk c v p _ hp _ hld hst => by
      have e1 := (hr.setCells_ne hne c).load_aug (hrr k hk).1 (hrr k hk).2
      have e2 := (hl.setCells_ne hnl c).load_aug (hrl k hk).1 (hrl k hk).2
      rw [← bind_assoc, M.bind_ok e2, ← bind_assoc, M.bind_ok e1,
        cArith_exact .mul (hl.typed _ (hrl k hk).2) (hr.typed _ (hrr k hk).2) (Or.inl hlr), M.bind_ok (M.lift_ok _ _),
        hp, M.bind_ok (M.lift_ok _ _), M.bind_ok hld,
        cArith_exact .add (hasFloat hf v) (hasFloat (arith_isFloat (Or.inl hlr)) _) (Or.inl hf), M.bind_ok (M.lift_ok _ _),
        cConv_exact (hasFloat (arith_isFloat (Or.inl hf)) _) hf, M.bind_ok (M.lift_ok _ _)]
      exact hst _)
  refine ⟨H', ?_, hsc⟩
  unfold tensorMulAccF
  rw [broadcastRange_eq hb1.1 hb1.2, M.bind_ok (M.lift_ok _ _), broadcastRange_eq hb.1 hb.2, M.bind_ok (M.lift_ok _ _)]
  exact e

theorem tensorDivBackNum_exact {H : Heap F} {dst l r : Impl} {fd fl fr : List Nat → Val F} (hd : Reads H dst fd)
    (hf : dst.dtype.isFloat = true) (hl : Reads H l fl) (hr : Reads H r fr) (hnl : l.data ≠ dst.data)
    (hne : r.data ≠ dst.data) (hlr : l.dtype.isFloat = true)
    (hrd : ∀ k, InBox l.view.sizes k → Reaches dst k) (hrr : ∀ k, InBox l.view.sizes k → Reaches r k) :
    ∃ H', tensorDivBackNum dst.dtype l.dtype r.dtype dst l r H = .ok () H' ∧
      Scattered H dst l.view.sizes (fun k => real (fl k) / real (fr (project r.view.sizes k))) H' := by
  have hrl : ∀ k, InBox l.view.sizes k → Reaches l k := fun k hk => ⟨by rw [hk.length], by rw [project_self hk]; exact hk⟩
  obtain ⟨H', e, hsc⟩ := scattered_of (rg := l.view.sizes)
    (w := fun k => real (fl k) / real (fr (project r.view.sizes k))) (op := fun sv => do
    let x ← load l.dtype l (← M.lift (cntFromAugIndex l.view sv))
    let y ← load r.dtype r (← M.lift (cntFromAugIndex r.view sv))
    let q ← M.lift (cArith .div l.dtype r.dtype x y)
    let pos ← M.lift (cntFromAugIndex dst.view sv)
    let d ← load dst.dtype dst pos
    let z ← M.lift (cArith .add dst.dtype (DType.arith l.dtype r.dtype) d q)
    let z ← M.lift (cConv (DType.arith dst.dtype (DType.arith l.dtype r.dtype)) dst.dtype z)
    store dst.dtype dst pos z) hd hf hrd
    (fun k hk c v p _ hp _ hld hst => by
      have e1 := (hr.setCells_ne hne c).load_aug (hrr k hk).1 (hrr k hk).2
      have e2 := (hl.setCells_ne hnl c).load_aug (hrl k hk).1 (hrl k hk).2
      rw [project_self hk] at e2
      rw [← bind_assoc, M.bind_ok e2, ← bind_assoc, M.bind_ok e1,
        cArith_exact .div (hl.typed _ hk) (hr.typed _ (hrr k hk).2) (Or.inl hlr), M.bind_ok (M.lift_ok _ _),
        hp, M.bind_ok (M.lift_ok _ _), M.bind_ok hld,
        cArith_exact .add (hasFloat hf v) (hasFloat (arith_isFloat (Or.inl hlr)) _) (Or.inl hf), M.bind_ok (M.lift_ok _ _),
        cConv_exact (hasFloat (arith_isFloat (Or.inl hf)) _) hf, M.bind_ok (M.lift_ok _ _)]
      exact hst _)
  exact ⟨H', e, hsc⟩

theorem tensorDivBackDen_exact {H : Heap F} {dst og qt dn : Impl} {fd fo fq fn : List Nat → Val F} {Den Quot : DType}
    (hd : Reads H dst fd) (hf : Den.isFloat = true) (hfq : Quot.isFloat = true) (ho : Reads H og fo) (hq : Reads H qt fq)
    (hn : Reads H dn fn) (hno : og.data ≠ dst.data) (hnq : qt.data ≠ dst.data) (hnn : dn.data ≠ dst.data)
    (t1 : dst.dtype = Den) (t2 : dn.dtype = Den) (t3 : og.dtype = Quot) (t4 : qt.dtype = Quot)
    (s1 : dst.view.sizes = qt.view.sizes) (s2 : og.view.sizes = qt.view.sizes) (s3 : dn.view.sizes = qt.view.sizes) :
    ∃ H', tensorDivBackDen Den Quot dst og qt dn H = .ok () H' ∧
      Scattered H dst qt.view.sizes (fun k => - (real (fo k) * real (fq k) / real (fn k))) H' := by
  subst t1 t3
  have hr : ∀ i : Impl, i.view.sizes = qt.view.sizes → ∀ k, InBox qt.view.sizes k → Reaches i k := fun i hi k hk => by
    rw [← hi] at hk
    exact ⟨by rw [hk.length], by rw [project_self hk]; exact hk⟩
  obtain ⟨H', e, hsc⟩ := scattered_of (rg := qt.view.sizes)
    (w := fun k => - (real (fo k) * real (fq k) / real (fn k))) (op := fun sv => do
    let g ← load og.dtype og (← M.lift (cntFromAugIndex og.view sv))
    let q ← load og.dtype qt (← M.lift (cntFromAugIndex qt.view sv))
    let gq ← M.lift (cArith .mul og.dtype og.dtype g q)
    let d ← load dst.dtype dn (← M.lift (cntFromAugIndex dn.view sv))
    let w ← M.lift (cArith .div (DType.arith og.dtype og.dtype) dst.dtype gq d)
    let pos ← M.lift (cntFromIndex dst.view sv)
    let old ← load dst.dtype dst pos
    let z ← M.lift (cArith .sub dst.dtype (DType.arith (DType.arith og.dtype og.dtype) dst.dtype) old w)
    let z ← M.lift (cConv (DType.arith dst.dtype (DType.arith (DType.arith og.dtype og.dtype) dst.dtype)) dst.dtype z)
    store dst.dtype dst pos z) hd hf (hr dst s1)
    (fun k hk c v p _ _ hp hld hst => by
      have e1 := (ho.setCells_ne hno c).load_aug (hr _ s2 k hk).1 (hr _ s2 k hk).2
      have e2 := (hq.setCells_ne hnq c).load_aug (hr _ rfl k hk).1 (hr _ rfl k hk).2
      have e3 := (hn.setCells_ne hnn c).load_aug (hr _ s3 k hk).1 (hr _ s3 k hk).2
      have k1 : InBox og.view.sizes k := by rw [s2]; exact hk
      have k3 : InBox dn.view.sizes k := by rw [s3]; exact hk
      have k4 : InBox dst.view.sizes k := by rw [s1]; exact hk
      rw [project_self k1] at e1
      rw [project_self hk, t4] at e2
      rw [project_self k3, t2] at e3
      rw [project_self k4] at hp
      have m1 := cArith_exact .mul (ho.typed _ k1) (by have := hq.typed _ hk; rwa [t4] at this) (Or.inl hfq)
      have m2 := cArith_exact (F := F) .div (x := .f (exactOp .mul (real (fo k)) (real (fq k)))) (y := fn k)
        (l := DType.arith og.dtype og.dtype) (r := dst.dtype) (hasFloat (arith_isFloat (Or.inl hfq)) _)
        (by have := hn.typed _ k3; rwa [t2] at this) (Or.inl (arith_isFloat (Or.inl hfq)))
      rw [← bind_assoc, M.bind_ok e1, ← bind_assoc, M.bind_ok e2, m1, M.bind_ok (M.lift_ok _ _), ← bind_assoc, M.bind_ok e3,
        m2, M.bind_ok (M.lift_ok _ _), hp, M.bind_ok (M.lift_ok _ _), M.bind_ok hld,
        cArith_exact .sub (hasFloat hf v) (hasFloat (arith_isFloat (Or.inr hf)) _) (Or.inl hf), M.bind_ok (M.lift_ok _ _),
        cConv_exact (hasFloat (arith_isFloat (Or.inl hf)) _) hf, M.bind_ok (M.lift_ok _ _)]
      rw [show v + -(real (fo k) * real (fq k) / real (fn k)) = v - real (fo k) * real (fq k) / real (fn k) from
        (sub_eq_add_neg _ _).symm]
      exact hst _)
  exact ⟨H', e, hsc⟩

end INNC
