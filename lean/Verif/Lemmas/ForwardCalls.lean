import Verif.Lemmas.ForwardOps
/-
Each call that computes keeps the invariant: extremes, concatenation, views, flags; all calls together.
-/
namespace INNC
open Spec Tensor
variable {F : Type} [Field F] [FOps F] [Exact F]
variable {h h' : Heap F} {V : Nat → Prop}

/-! ### max and min -/

omit [FOps F] [Exact F] [Field F] in
theorem project_nil (idx : List Nat) : project [] idx = [] := by simp [project]

theorem oneElem_exact {t : DType} (ht : t.isFloat = true) : (oneElem t : Val F) = .f 1 := by
  unfold oneElem
  rw [isInteger_false ht, Exact.ofInt]; simp

theorem Inv.extreme (hI : Inv h V) {keep : COp} (hkeep : keep = .ge ∨ keep = .le) {t x : Nat} (ht : V t)
    (hs : ∀ i, h.ts[t]? = some i → i.view.offset = 0 ∧ vol i.view.sizes ≠ 0 ∧ Small i.view.sizes i.dtype)
    (e : Tensor.extreme keep t h = .ok x h') : Inv h' fun y => V y ∨ y = x := by
  obtain ⟨i, f, hi, hr⟩ := hI.reads t ht
  obtain ⟨ho, hv, hsm⟩ := hs i hi
  have hst := startsWith_of_offset hr ho hv
  cases hg : i.requiresGrad with
  | false =>
    obtain ⟨h2, e2, bt⟩ := extreme_ok (keep := keep) hi hr hst hg
    rw [e2] at e
    injection e with e3 e4
    subst e3 e4
    exact hI.const bt (by decide)
  | true =>
    have hf := hI.float t i ht hi hg
    obtain ⟨hok, hthrow⟩ := extremeGrad_ok (keep := keep) hi hr hst hg hsm
    have hbest : InBox i.view.sizes (best keep i.dtype i.view.sizes f (f (i.view.sizes.map fun _ => 0))).2 ∧
        (best keep i.dtype i.view.sizes f (f (i.view.sizes.map fun _ => 0))).1 =
          f (best keep i.dtype i.view.sizes f (f (i.view.sizes.map fun _ => 0))).2 := by
      rcases foldl_pick keep i.dtype f (rowMajor i.view.sizes) (f (i.view.sizes.map fun _ => 0), []) with e1 | ⟨b, hb, e1⟩
      · have hbe : best keep i.dtype i.view.sizes f (f (i.view.sizes.map fun _ => 0)) = (f (i.view.sizes.map fun _ => 0), []) := e1
        rw [hbe] at hthrow ⊢
        cases hsz : i.view.sizes with
        | nil => exact ⟨trivial, rfl⟩
        | cons n s =>
          rw [hsz] at hthrow
          obtain ⟨h2, e2, _⟩ := hthrow (by simp)
          rw [e2] at e; simp at e
      · have hbe : best keep i.dtype i.view.sizes f (f (i.view.sizes.map fun _ => 0)) = (f b, b) := e1
        rw [hbe]
        exact ⟨mem_rowMajor.1 hb, rfl⟩
    have hmost : Ordered keep i.dtype i.view.sizes f → ∀ idx, InBox i.view.sizes idx → elemCompare keep i.dtype i.dtype
        (best keep i.dtype i.view.sizes f (f (i.view.sizes.map fun _ => 0))).1 (f idx) = true := fun hord idx hb => by
      obtain ⟨a, _, h2, _, h4⟩ := best_spec hord (rowMajor i.view.sizes) (i.view.sizes.map fun _ => 0) [] (zeros_inBox hv)
        fun x hx => mem_rowMajor.1 hx
      have h2 : (best keep i.dtype i.view.sizes f (f (i.view.sizes.map fun _ => 0))).1 = f a := h2
      rw [h2]
      exact h4 idx (mem_rowMajor.2 hb)
    generalize best keep i.dtype i.view.sizes f (f (i.view.sizes.map fun _ => 0)) = B at hok hbest hmost
    obtain ⟨h2, e2, bt, ⟨k, hk, k1, k2, hkr⟩, hfr⟩ := hok hbest.1
    rw [e2] at e
    injection e with e3 e4
    subst e3 e4
    obtain ⟨_, k', hk', hkd⟩ := hfr
    rw [hk] at hk'
    obtain rfl := Option.some.inj hk'
    have hS := hI.same_ext bt.ext ht
    refine hI.built bt (by decide) (fun g hg => hf) (fun g hg => ?_)
    obtain rfl := Option.some.inj hg
    refine ⟨rfl, by simp, fun a ha => by simp at ha; rw [ha]; exact ht, ?_, fun k0 j0 hk0 hj0 => ?_⟩
    · refine ⟨k, _, hk, by rw [k2, hS.shape, shapeOf_eq hi], by rw [k1]; exact hf, hkr, ?_, ?_, fun j hj => ?_⟩
      · refine ⟨i, f, bt.ext.ts _ _ hi, hr.of_extends bt.ext, .inr ⟨bt.shape, keep, B.2, hkeep, hbest.1, ?_, fun idx _ => ?_⟩⟩
        · rw [← hbest.2]; exact hmost
        · simp only []
          split
          · rw [oneElem_exact hf]; rfl
          · rw [zeroElem_exact hf]; rfl
      · rw [hS.shape, bt.shape]; exact broadcasts_nil _
      · rw [bt.shape] at hj ⊢
        have hj0 : j = [] := by cases j with
          | nil => rfl
          | cons => exact absurd hj (by simp [InBox])
        subst hj0
        rw [bt.val hj, hS.shape, hS.val, shapeOf_eq hi, boxSum_single hbest.1, project_nil, if_pos rfl, if_pos rfl, oneElem_exact hf,
          valOf_reads hi hr hbest.1, hbest.2]
        · show _ = 1 * _
          rw [one_mul]
        · intro k _ hne
          rw [if_neg hne, zeroElem_exact hf, project_nil, if_pos rfl]
          show 0 * _ = 0
          rw [zero_mul]
    · injection hk0 with hk0
      rw [← hk0, hk] at hj0
      obtain rfl := Option.some.inj hj0
      exact hkd

/-! ### Views -/

/-- The call added variables, one of which is `x`. -/
def Next (h' : Heap F) (V : Nat → Prop) (x : Nat) : Prop := ∃ V', Inv h' V' ∧ (∀ y, V y → V' y) ∧ V' x

omit [Exact F] in
theorem Inv.next {x : Nat} (hI : Inv h' fun y => V y ∨ y = x) : Next h' V x := ⟨_, hI, fun _ => .inl, .inr rfl⟩

omit [Exact F] in
theorem Inv.keep (hI : Inv h V) {x : Nat} (hx : V x) : Next h V x := ⟨V, hI, fun _ => id, hx⟩

theorem Inv.gradLt (hI : Inv h V) {t : Nat} {i : Impl} (ht : V t) (hi : h.ts[t]? = some i) : ∀ g, i.grad = some g → g < h.ts.length :=
  fun g hg => by
    obtain ⟨j, hj, _⟩ := hI.grad t i g ht hi hg
    exact getElem?_lt hj

theorem Inv.viewed (hI : Inv h V) {t x : Nat} {i : Impl} {v : Layout} {σ : List Nat → List Nat} (ht : V t) (hi : h.ts[t]? = some i)
    (sv : SubView i.view v σ) (e : Tensor.makeView i.dtype v i.data t h = .ok x h') : Inv h' fun y => V y ∨ y = x := by
  obtain ⟨h1, e1, vm⟩ := makeView_ok hi (fun _ => hI.gradLt ht hi) i.dtype v i.data
  rw [e1] at e
  injection e with e2 e3
  subst e2 e3
  exact hI.made ht hi vm rfl rfl sv.len sv.off σ sv.pos

theorem Inv.slice (hI : Inv h V) {t x : Nat} {s : Str} (ht : V t) (hf : Spec.Fits h (Call.slice t s)) (e : Tensor.slice t s h = .ok x h') :
    Inv h' fun y => V y ∨ y = x := by
  obtain ⟨⟨i, hi, htm, _⟩, specs, h1, h2, h3, h4⟩ := hf
  obtain ⟨i', f, hi', hr⟩ := hI.reads t ht
  rw [hi] at hi'
  obtain rfl := Option.some.inj hi'
  rw [shapeOf_eq hi] at h2
  obtain ⟨v, e1, _, _, sv⟩ := slice_view hi hr htm h1 h2 h3 (h4 i hi)
  rw [e1] at e
  exact hI.viewed ht hi sv e

theorem Inv.transpose (hI : Inv h V) {t x a b : Nat} (ht : V t) (hf : Spec.Fits h (Call.transpose t a b))
    (e : Tensor.transpose t a b h = .ok x h') : Inv h' fun y => V y ∨ y = x := by
  obtain ⟨⟨i, hi, htm, _⟩, h1, h2, h3⟩ := hf
  obtain ⟨i', f, hi', hr⟩ := hI.reads t ht
  rw [hi] at hi'
  obtain rfl := Option.some.inj hi'
  rw [shapeOf_eq hi] at h1 h2
  obtain ⟨v, e1, _, _, sv⟩ := transpose_view hi hr htm h1 h2 h3
  rw [e1] at e
  exact hI.viewed ht hi sv e

omit [Field F] [FOps F] [Exact F] in
theorem bind_inv {α β : Type} {x : M F α} {f : α → M F β} {b : β} (e : (x >>= f) h = .ok b h') :
    ∃ a h1, x h = .ok a h1 ∧ f a h1 = .ok b h' := by
  cases hx : x h with
  | ok a h1 => exact ⟨a, h1, rfl, by rw [M.bind_ok hx] at e; exact e⟩
  | throw ex h1 => rw [M.bind_throw hx] at e; simp at e
  | ub u => rw [show (x >>= f) h = .ub u from M.bind_ub hx] at e; simp at e

theorem Inv.reshapeTail (hI : Inv h V) {t x : Nat} {i b : Impl} {s' : List Nat} (ht : V t) (hb : h.ts[t]? = some b)
    (hb1 : b.dtype = i.dtype) (hb2 : b.view = i.view) (hb3 : b.data = i.data) (htm : Tame i.view.sizes i.view.strides)
    (hs : Small i.view.sizes i.dtype) (hv : vol s' = vol i.view.sizes) (hns : i.view.sizes = [] ↔ s' = [])
    (e : INNC.reshapeTail t s' i h = .ok x h') : Next h' V x := by
  obtain ⟨b', f, hb', hr⟩ := hI.reads t ht
  rw [hb] at hb'
  obtain rfl := Option.some.inj hb'
  rcases reshapeTail_view (t := t) (hr.flags hb1.symm hb2.symm hb3.symm) htm hv hns h with ⟨v, c, _, _, e1, sv, _⟩ | ⟨_, e1⟩
  · rw [e1, ← hb1, ← hb3] at e
    exact (hI.viewed ht hb (by rw [hb2]; exact sv) e).next
  · rw [e1] at e
    obtain ⟨m, h1, e2, e3⟩ := bind_inv e
    obtain ⟨hI1, hm⟩ := hI.clone ht (fun j hj => by rw [hb] at hj; rw [← Option.some.inj hj, hb1, hb2]; exact hs) e2
    obtain ⟨mi, h2, e4, e5⟩ := bind_inv e3
    have hden : Denotes h t i.dtype i.view.sizes f := ⟨b, hb, hb1, by rw [hb2], hr⟩
    obtain ⟨h1', b', _, e2', bt⟩ := clone_ok hden hs
    rw [e2'] at e2
    injection e2 with e6 e7
    subst e6 e7
    obtain ⟨d, hmo, hd⟩ := bt.obj
    rw [getT_ok hmo] at e4
    injection e4 with e6 e7
    subst e6 e7
    obtain ⟨V2, hV2, hV3⟩ : ∃ V2 : Nat → Prop, (∀ y, V2 y ↔ (V y ∨ y = h.ts.length) ∨ y = x) ∧ Inv h' V2 :=
      ⟨_, fun y => Iff.rfl, hI1.viewed (.inr rfl) hmo (subView_contig hv (vol_lt_of_bytes hs)) e5⟩
    exact ⟨V2, hV3, fun y hy => (hV2 y).2 (.inl (.inl hy)), (hV2 x).2 (.inr rfl)⟩

theorem Next.trans {V1 : Nat → Prop} {x : Nat} (hsub : ∀ y, V y → V1 y) (hn : Next h' V1 x) : Next h' V x := by
  obtain ⟨V2, h1, h2, h3⟩ := hn
  exact ⟨V2, h1, fun y hy => h2 y (hsub y hy), h3⟩

theorem Inv.reshapeSizes (hI : Inv h V) {t x : Nat} {i : Impl} {s' : List Nat} (ht : V t) (hi : h.ts[t]? = some i)
    (htm : Tame i.view.sizes i.view.strides) (hs : Small i.view.sizes i.dtype) (hv : vol s' = vol i.view.sizes)
    (hns : i.view.sizes = [] ↔ s' = []) (e : Tensor.reshapeSizes t s' h = .ok x h') : Next h' V x := by
  have hvl := vol_lt_of_bytes hs
  have hn1 : numel i.view.sizes = vol i.view.sizes := numel_eq_vol (by omega)
  have hn2 : numel s' = vol i.view.sizes := by rw [numel_eq_vol (by omega), hv]
  obtain ⟨_, f, hi', hr⟩ := hI.reads t ht
  rw [hi] at hi'
  obtain rfl := Option.some.inj hi'
  rw [reshapeSizes_eq, M.bind_ok (getT_ok hi), hn1, hn2,
    M.bind_ok (x := expect _) (a := ()) (h' := h) (by simp [expect])] at e
  by_cases hone : vol i.view.sizes = 1
  · rw [if_pos hone] at e
    obtain ⟨h1, e1, vm⟩ := makeView_ok hi (fun _ => hI.gradLt ht hi) i.dtype ⟨s', List.replicate s'.length 1, i.view.offset⟩ i.data
    have hI1 := hI.viewed ht hi (subView_one hr hv hone) e1
    rw [M.bind_ok e1, M.bind_ok (M.pure_run _ _)] at e
    cases hrg : i.requiresGrad with
    | false =>
      rw [hrg] at e
      injection e with e2 e3
      subst e2 e3
      exact hI1.next
    | true =>
      rw [hrg] at e
      obtain ⟨b', hb', q1, q2, q3⟩ := vm.pres.ts t i hi
      exact (hI1.reshapeTail (.inl ht) hb' q1 q2 q3 htm hs hv hns e).trans fun y => .inl
  · rw [if_neg hone] at e
    exact hI.reshapeTail ht hi rfl rfl rfl htm hs hv hns e

theorem Inv.reshape (hI : Inv h V) {t x : Nat} {sizes : List Int} (ht : V t) (hf : Spec.Fits h (Call.reshape t sizes))
    (e : Tensor.reshape t sizes h = .ok x h') : Next h' V x := by
  obtain ⟨⟨i, hi, htm, _⟩, hs, s', h1, h2, h3, h4⟩ := hf
  rw [shapeOf_eq hi] at h1 h2
  have hvl := vol_lt_of_bytes (hs i hi)
  have hreg : regularizeSize sizes (numel i.view.sizes) = .ok s' := by
    rw [numel_eq_vol (by omega)]
    rcases h4 with rfl | ⟨a, m, b, rfl, h5, h6, rfl⟩
    · exact regularizeSize_known h3 fun hn => by rw [h2.2 hn]; rfl
    · have hv : m * vol (a ++ b) = vol i.view.sizes := by
        rw [← h1, vol_append, vol_append]
        show _ = vol a * (m * vol b)
        ring
      refine regularizeSize_infer (fun k hk => h3 k ?_) h5 h6 hv (h3 m (by simp))
      simp only [List.mem_append, List.mem_cons] at hk ⊢; tauto
  unfold Tensor.reshape at e
  rw [M.bind_ok (getT_ok hi), hreg, M.bind_ok (M.lift_ok _ _)] at e
  exact hI.reshapeSizes ht hi htm (hs i hi) h1 h2 e

theorem Inv.reshapeAs (hI : Inv h V) {t u x : Nat} (ht : V t) (hu : V u) (hf : Spec.Fits h (Call.reshapeAs t u))
    (e : Tensor.reshapeAs t u h = .ok x h') : Next h' V x := by
  obtain ⟨⟨i, hi, htm, _⟩, hs, h1, h2⟩ := hf
  obtain ⟨j, f, hj, hr⟩ := hI.reads u hu
  rw [shapeOf_eq hi, shapeOf_eq hj] at h1 h2
  unfold Tensor.reshapeAs at e
  rw [M.bind_ok (getT_ok hj)] at e
  exact hI.reshapeSizes ht hi htm (hs i hi) h1 h2 e

theorem Inv.detach (hI : Inv h V) {t x : Nat} (ht : V t) (e : Tensor.detach t h = .ok x h') : Inv h' fun y => V y ∨ y = x := by
  obtain ⟨i, f, hi, hr⟩ := hI.reads t ht
  unfold Tensor.detach at e
  rw [M.bind_ok (getT_ok hi)] at e
  injection e with e2 e3
  subst e2 e3
  have hx : (h.ts ++ [(⟨i.dtype, i.view, i.data, none, false, false, none⟩ : Impl)])[h.ts.length]? =
      some ⟨i.dtype, i.view, i.data, none, false, false, none⟩ := by simp
  refine hI.extend ⟨fun y j hj => getElem?_append_some hj _, fun y s hs => hs⟩ (fun y hy => hy.imp id fun e => ?_) fun y hy => .inl hy
  subst e
  refine ⟨⟨_, f, hx, hr.same rfl rfl rfl rfl, rfl, fun hc => by simp at hc, .inr ⟨t, i, ht, hi, rfl⟩⟩, fun g hg => ?_⟩
  rw [opOf_eq hx] at hg
  simp at hg

/-! ### Concatenation -/

omit [FOps F] [Exact F] [Field F] in
theorem inBox_axis : ∀ {s idx : List Nat} {d n m : Nat}, InBox (s.set d n) idx → n ≤ m → InBox (s.set d m) idx
  | [], idx, d, n, m, h, _ => by simpa using h
  | a :: s, [], d, n, m, h, _ => by cases d <;> simp [InBox] at h
  | a :: s, i :: is, 0, n, m, h, hle => by
    simp only [List.set_cons_zero, InBox] at h ⊢
    exact ⟨by omega, h.2⟩
  | a :: s, i :: is, d + 1, n, m, h, hle => by
    simp only [List.set_cons_succ, InBox] at h ⊢
    exact ⟨h.1, inBox_axis h.2 hle⟩

omit [FOps F] [Exact F] [Field F] in
theorem inBox_getD : ∀ {s idx : List Nat} {d n : Nat}, InBox (s.set d n) idx → d < s.length → idx.getD d 0 < n
  | [], idx, d, n, h, hd => by simp at hd
  | a :: s, [], d, n, h, _ => by cases d <;> simp [InBox] at h
  | a :: s, i :: is, 0, n, h, _ => by
    simp only [List.set_cons_zero, InBox] at h
    simpa using h.1
  | a :: s, i :: is, d + 1, n, h, hd => by
    simp only [List.set_cons_succ, InBox] at h
    simpa using inBox_getD h.2 (by simpa using hd)

omit [FOps F] [Exact F] [Field F] in
theorem modify_getD : ∀ (idx : List Nat) (d n : Nat), d < idx.length → (idx.modify d (· + n)).getD d 0 = idx.getD d 0 + n ∧
    (idx.modify d (· + n)).set d (idx.getD d 0) = idx
  | [], d, n, h => by simp at h
  | a :: is, 0, n, _ => by simp
  | a :: is, d + 1, n, h => by
    obtain ⟨h1, h2⟩ := modify_getD is d n (by simpa using h)
    refine ⟨by simpa using h1, ?_⟩
    simp only [List.modify_succ_cons, List.getD_cons_succ, List.set_cons_succ, h2]

theorem catAt_segments {h' : Heap F} {x d : Nat} {dt : DType} {sizes : List Nat} (hdt : dt.isFloat = true) (hd : d < sizes.length) :
    ∀ (ins : List Nat) (bs : List (Block F)) (k : Nat),
      List.Forall₂ (fun t b => Denotes h' t b.dt (sizes.set d b.n) b.f) ins bs →
      shapeOf h' x = sizes.set d (k + axisTotal bs) →
      (∀ idx, InBox (sizes.set d (axisTotal bs)) idx → valOf h' x (idx.modify d (· + k)) = real (catAt d dt bs idx)) →
      Segments h' (valOf h') x d k ins
  | [], bs, k, hf, hs, hv => by
    cases hf
    show (shapeOf h' x)[d]? = some k
    rw [hs]
    simp [axisTotal, hd]
  | a :: ins, bs, k, hf, hs, hv => by
    cases hf with
    | @cons _ b _ bs ha hf =>
      obtain ⟨i, hi, e1, e2, hr⟩ := ha
      refine ⟨b.n, by rw [shapeOf_eq hi, e2, hs, List.set_set], fun idx hb => ?_, catAt_segments hdt hd ins bs (k + b.n) hf ?_ fun idx hb => ?_⟩
      · rw [shapeOf_eq hi] at hb
        rw [valOf_reads hi hr hb]
        rw [e2] at hb
        rw [hv idx (inBox_axis hb (by simp [axisTotal]))]
        unfold catAt
        rw [if_pos (inBox_getD hb hd), converted, convert_exact hdt]
        rfl
      · rw [hs, axisTotal, Nat.add_assoc]
      · have hlen := hb.length
        rw [List.length_set] at hlen
        obtain ⟨m1, m2⟩ := modify_getD idx d b.n (by omega)
        have := hv (idx.modify d (· + b.n)) (by
          refine inBox_modify (d := d) (n := axisTotal bs) (K := axisTotal (b :: bs)) (by rw [List.set_set]; exact hb) (by simp [hd]) ?_
          simp [axisTotal])
        rw [modify_modify_add] at this
        rw [this]
        rw [show catAt d dt (b :: bs) (idx.modify d (· + b.n)) = _ from if_neg (by rw [m1]; omega), m1, Nat.add_sub_cancel, m2]

omit [FOps F] [Exact F] [Field F] in
theorem latest_isFloat : ∀ {l : List DType} {t : DType}, t ∈ l → t.isFloat = true → (latest l).isFloat = true
  | a :: l, t, hm, ht => by
    rcases List.mem_cons.1 hm with rfl | hm
    · exact later_isFloat (.inl ht)
    · exact later_isFloat (.inr (latest_isFloat hm ht))

theorem Inv.cat (hI : Inv h V) {ts : List Nat} {d x : Nat} (ht : ∀ t ∈ ts, V t) (hf : Spec.Fits h (Call.cat ts d))
    (e : catT ts d h = .ok x h') : Inv h' fun y => V y ∨ y = x := by
  obtain ⟨hne, s, ns, hd, hsh, htot, hsm⟩ := hf
  obtain ⟨bs, hbs, hns⟩ : ∃ bs : List (Block F), List.Forall₂ (fun t b => Denotes h t b.dt (s.set d b.n) b.f) ts bs ∧
      axisTotal bs = ns.sum := by
    clear e hne htot hsm
    induction hsh with
    | nil => exact ⟨[], .nil, rfl⟩
    | @cons t n ts ns hc _ ih =>
      obtain ⟨bs, h1, h2⟩ := ih fun a ha => ht a (by simp [ha])
      obtain ⟨i, f, hi, hr⟩ := hI.reads t (ht t (by simp))
      rw [shapeOf_eq hi] at hc
      exact ⟨⟨i.dtype, n, f⟩ :: bs, .cons ⟨i, hi, rfl, hc, hr⟩ h1, by simp [axisTotal, h2]⟩
  have hsz := small_of_f64 hsm (latest (bs.map (·.dt)))
  rw [← hns] at hsz htot
  obtain ⟨h2, is, his, e2, bt, _⟩ := catT_ok hbs hne hd htot hsz
  rw [e2] at e
  injection e with e3 e4
  subst e3 e4
  have hfl : is.any (fun i => i.requiresGrad) = true → (latest (bs.map (·.dt))).isFloat = true := fun hany => by
    obtain ⟨i, him, hrg⟩ := List.any_eq_true.1 hany
    obtain ⟨k, hk⟩ := List.getElem?_of_mem him
    have hkl := getElem?_lt hk
    obtain ⟨hl1, hg1⟩ := List.forall₂_iff_get.1 his
    obtain ⟨hl2, hg2⟩ := List.forall₂_iff_get.1 hbs
    have a1 := hg1 k (by omega) hkl
    have a2 := hg2 k (by omega) (by omega)
    obtain ⟨j, hj, e5, _, _⟩ := a2
    simp only [List.get_eq_getElem] at a1 hj e5
    rw [a1] at hj
    have hij : is[k] = i := by rw [List.getElem?_eq_getElem hkl] at hk; exact Option.some.inj hk
    rw [hij] at hj a1
    obtain rfl := Option.some.inj hj
    refine latest_isFloat (t := i.dtype) ?_ (hI.float _ i (ht _ (List.getElem_mem _)) a1 hrg)
    rw [e5]
    exact List.mem_map.2 ⟨_, List.getElem_mem _, rfl⟩
  refine hI.built bt (vol_lt_of_bytes hsz) (fun g hg => ?_) (fun g hg => ?_) <;> split at hg
  · next hc => exact hfl hc
  · simp at hg
  · next hc =>
    obtain rfl := Option.some.inj hg
    refine ⟨rfl, by simp, ht, ⟨?_, ?_⟩, fun k j hk => by simp at hk⟩
    · obtain ⟨dd, hx, _⟩ := bt.obj
      exact ⟨_, hx, rfl⟩
    · refine catAt_segments (hfl hc) hd ts bs 0 ?_ (by rw [bt.shape, Nat.zero_add]) fun idx hb => ?_
      · refine hbs.imp fun t b ⟨i, hi, q1, q2, q3⟩ => ⟨i, bt.ext.ts _ _ hi, q1, q2, q3.of_extends bt.ext⟩
      · have h0 : idx.modify d (· + 0) = idx := List.modify_id _ _
        rw [h0, bt.val hb]
  · simp at hg

/-! ### All calls -/

omit [Field F] [FOps F] [Exact F] in
theorem some'_inv {x : M F Nat} {t : Nat} (e : some' x h = .ok (some t) h') : x h = .ok t h' := by
  obtain ⟨a, h1, e1, e2⟩ := bind_inv e
  injection e2 with e3 e4
  injection e3 with e3
  rw [e1, e3, e4]

omit [Field F] [FOps F] [Exact F] in
theorem some'_none {x : M F Nat} (e : some' x h = .ok none h') : False := by
  obtain ⟨a, h1, e1, e2⟩ := bind_inv e
  injection e2 with e3 e4
  simp at e3

omit [Field F] [FOps F] [Exact F] in
theorem none'_inv {α : Type} {x : M F α} {o : Option Nat} (e : none' x h = .ok o h') : o = none ∧ ∃ a, x h = .ok a h' := by
  obtain ⟨a, h1, e1, e2⟩ := bind_inv e
  injection e2 with e3 e4
  exact ⟨e3.symm, a, by rw [e1, e4]⟩

theorem Inv.made_const (hI : Inv h V) {t x : Nat} {dt : DType} {s : List Nat} {f : List Nat → Val F} {c : M F Nat} (hs : Small s dt)
    (hc : ∃ h', c h = .ok t h' ∧ Built h h' t dt s f none) (e : c h = .ok x h') : Next h' V x := by
  obtain ⟨h1, e1, bt⟩ := hc
  rw [e1] at e
  injection e with e2 e3
  subst e2 e3
  exact (hI.const bt (vol_lt_of_bytes hs)).next

theorem getD_some' {α : Type} {o : Option α} (d : α) (h : ∃ a, o = some a) : o = some (o.getD d) := by
  obtain ⟨a, rfl⟩ := h; rfl

omit [FOps F] [Exact F] [Field F] in
theorem init_entries {tree : InitTree F} {dt : DType} {sizes : List Nat} (hu : Uniform dt sizes tree) :
    ∃ f : List Nat → Val F, ∀ idx, InBox sizes idx → entry idx tree = some (f idx) := by
  rcases initEval_cases tree (uniform_proper hu) with ⟨x, dt', _, hx⟩ | ⟨_, hn⟩
  · obtain ⟨rfl, _⟩ := uniform_shape hx.uniform hu
    refine ⟨fun idx => (x.data[rank x.shape idx]?).getD (.i 0), fun idx hb => ?_⟩
    have hlt : rank x.shape idx < x.data.length := by rw [hx.len]; exact rank_lt hb
    rw [hx.entries idx hb]; simp [hlt]
  · exact absurd hu (hn dt sizes)

theorem Inv.returns (hI : Inv h V) {c : Call F} {x : Nat} (hf : Spec.Fits h c) (ha : ∀ a ∈ args c, V a)
    (e : c.run h = .ok (some x) h') : Next h' V x := by
  cases c with
  | scalar dt v =>
    obtain ⟨h1, e1, b1, _⟩ := createScalar_ok (F := F) hf h
    exact hI.made_const (s := []) (by unfold Spec.Small; cases dt <;> decide) ⟨h1, e1, b1⟩ (some'_inv e)
  | empty => exact absurd hf id
  | init tree =>
    obtain ⟨dt, s, h1, h2, h3⟩ := hf
    obtain ⟨g, hg⟩ := init_entries h1
    obtain ⟨h4, e1, b1, _⟩ := ofInit_ok h1 h2 h3 h g hg
    rw [show Call.run (.init tree) h = _ from e1] at e
    injection e with e2 e3
    injection e2 with e2
    subst e2 e3
    exact (hI.const b1 (vol_lt_of_bytes h3)).next
  | ones s dt =>
    obtain ⟨h1, t, e1, b1⟩ := fillNew_ok (F := F) (nt := .i8) (v := .i 1) (by rw [hasType_i]; decide) (convert_one .i8 dt (Or.inl rfl)) hf h
    exact hI.made_const hf ⟨h1, e1, b1⟩ (some'_inv e)
  | zeros s dt =>
    obtain ⟨h1, e1, b1, _⟩ := zeros_ok hf h
    exact hI.made_const hf ⟨h1, e1, b1⟩ (some'_inv e)
  | onesLike t =>
    obtain ⟨i, f, hi, hr⟩ := hI.reads t (ha t (by simp [args]))
    have e := some'_inv e
    unfold Tensor.onesLike at e
    rw [M.bind_ok (getT_ok hi)] at e
    obtain ⟨h1, t, e1, b1⟩ := fillNew_ok (F := F) (nt := .i8) (v := .i 1) (by rw [hasType_i]; decide)
      (convert_one .i8 i.dtype (Or.inl rfl)) (hf i hi) h
    exact hI.made_const (hf i hi) ⟨h1, e1, b1⟩ e
  | zerosLike t =>
    obtain ⟨i, f, hi, hr⟩ := hI.reads t (ha t (by simp [args]))
    have e := some'_inv e
    unfold Tensor.zerosLike at e
    rw [M.bind_ok (getT_ok hi)] at e
    obtain ⟨h1, e1, b1, _⟩ := zeros_ok (hf i hi) h
    exact hI.made_const (hf i hi) ⟨h1, e1, b1⟩ e
  | fullInt s n dt =>
    obtain ⟨w, hw⟩ : ∃ w, convert .i64 dt (.i n : Val F) = some w := by cases dt <;> exact ⟨_, rfl⟩
    obtain ⟨h1, t, e1, b1⟩ := fillNew_ok (F := F) (nt := .i64) (v := .i n) (by rw [hasType_i]; exact ⟨rfl, hf.2⟩) hw hf.1 h
    exact hI.made_const hf.1 ⟨h1, e1, b1⟩ (some'_inv e)
  | fullReal s y dt =>
    obtain ⟨h1, t, e1, b1⟩ := fillNew_ok (F := F) (nt := .f64) (v := .f y) (hasType_f.2 rfl) (convert_exact hf.2 _) hf.1 h
    exact hI.made_const hf.1 ⟨h1, e1, b1⟩ (some'_inv e)
  | eye n m dt =>
    obtain ⟨h1, e1, b1⟩ := eye_ok (F := F) hf h (convert_one (F := F) .i32 dt (Or.inr rfl))
    exact hI.made_const hf ⟨h1, e1, b1⟩ (some'_inv e)
  | fromBlob data s dt =>
    obtain ⟨h1, e1, b1⟩ := fromBlob_ok hf.1 h hf.2.1 hf.2.2 (fun idx => (data[rank s idx]?).getD (.i 0)) (fun idx hb =>
      getD_some' _ ⟨_, List.getElem?_eq_getElem (Nat.lt_of_lt_of_le (rank_lt hb) hf.2.1)⟩)
    exact hI.made_const hf.1 ⟨h1, e1, b1⟩ (some'_inv e)
  | randn rnd s dt =>
    obtain ⟨rfl, hs⟩ := hf
    obtain ⟨h1, e1, b1⟩ := randn_ok hs rnd h
    exact hI.made_const hs ⟨h1, e1, b1⟩ (some'_inv e)
  | randnLike => exact absurd hf id
  | slice t s => exact (hI.slice (ha t (by simp [args])) hf (some'_inv e)).next
  | transpose t a b => exact (hI.transpose (ha t (by simp [args])) hf (some'_inv e)).next
  | reshape t s => exact hI.reshape (ha t (by simp [args])) hf (some'_inv e)
  | reshapeAs t u => exact hI.reshapeAs (ha t (by simp [args])) (ha u (by simp [args])) hf (some'_inv e)
  | detach t => exact (hI.detach (ha t (by simp [args])) (some'_inv e)).next
  | clone t => exact (hI.clone (ha t (by simp [args])) hf (some'_inv e)).1.next
  | contiguous t => exact (hI.clone (ha t (by simp [args])) hf (some'_inv e)).1.next
  | toType t dt => exact (hI.toType (ha t (by simp [args])) hf.1 hf.2 (some'_inv e)).next
  | add l r =>
    obtain ⟨s, h1, h2⟩ := hf
    exact (hI.arith (op := .add) (ha l (by simp [args])) (ha r (by simp [args])) h1 h2 (some'_inv e)).next
  | sub l r =>
    obtain ⟨s, h1, h2⟩ := hf
    exact (hI.arith (op := .sub) (ha l (by simp [args])) (ha r (by simp [args])) h1 h2 (some'_inv e)).next
  | mul l r =>
    obtain ⟨s, h1, h2⟩ := hf
    exact (hI.arith (op := .mul) (ha l (by simp [args])) (ha r (by simp [args])) h1 h2 (some'_inv e)).next
  | div l r =>
    obtain ⟨s, h1, h2⟩ := hf
    exact (hI.arith (op := .div) (ha l (by simp [args])) (ha r (by simp [args])) h1 h2 (some'_inv e)).next
  | pos t =>
    have e := some'_inv e
    injection e with e2 e3
    subst e2 e3
    exact hI.keep (ha t (by simp [args]))
  | neg t =>
    have ht := ha t (by simp [args])
    have e := some'_inv e
    unfold negT at e
    obtain ⟨h1, e1, b1, _⟩ := createScalar_ok (F := F) (dt := .i32) (v := .i 0) (by rw [hasType_i]; decide) h
    rw [M.bind_ok e1] at e
    have hI1 := hI.const b1 (by decide)
    refine (hI1.arith (op := .sub) (s := shapeOf h t) (.inr rfl) (.inl ht) ?_ hf e).next.trans fun y => .inl
    rw [b1.shape, (hI.same_ext b1.ext ht).shape]
    exact (broadcasts_nil _).comm
  | cmp op l r =>
    obtain ⟨s, h1, h2⟩ := hf
    obtain ⟨li, fl, hli, hlr⟩ := hI.reads l (ha l (by simp [args]))
    obtain ⟨ri, fr, hri, hrr⟩ := hI.reads r (ha r (by simp [args]))
    rw [shapeOf_eq hli, shapeOf_eq hri] at h1
    obtain ⟨h3, e1, b1⟩ := cmp_ok (op := op) ⟨li, hli, rfl, rfl, hlr⟩ ⟨ri, hri, rfl, rfl, hrr⟩ h1.1 h1.2 (small_of_f64 h2 .i8)
    exact hI.made_const (small_of_f64 h2 .i8) ⟨h3, e1, b1⟩ (some'_inv e)
  | sum t => exact (hI.sum (ha t (by simp [args])) hf (some'_inv e)).next
  | mean t => exact (hI.mean (ha t (by simp [args])) hf (some'_inv e)).next
  | abs t => exact (hI.abs (ha t (by simp [args])) hf (some'_inv e)).next
  | max t => exact (hI.extreme (.inl rfl) (ha t (by simp [args])) hf (some'_inv e)).next
  | min t => exact (hI.extreme (.inr rfl) (ha t (by simp [args])) hf (some'_inv e)).next
  | cat ts d => exact (hI.cat (fun a h => ha a h) hf (some'_inv e)).next
  | setRequiresGrad t b => exact absurd (none'_inv e).1 (by simp)
  | setRetainGrad t b => exact absurd (none'_inv e).1 (by simp)
  | _ => exact absurd hf id

/-! ### Programs -/

omit [Exact F] in
theorem inv_empty : Inv (Heap.empty : Heap F) fun _ => False :=
  ⟨fun _ h => h.elim, fun _ _ h => h.elim, fun _ _ h => h.elim, fun _ _ h => h.elim, fun _ _ h => h.elim, fun _ _ _ h => h.elim,
    fun _ _ h => h.elim, fun _ _ _ h => h.elim, fun _ _ _ h => h.elim⟩

end INNC
