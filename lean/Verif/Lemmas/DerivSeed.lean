import Verif.Lemmas.DerivVisit
/-
The start and the end of back-propagation.
-/
namespace INNC
open Spec Tensor
variable {F : Type} [Field F] [FOps F]

/-- The gradients before back-propagation: 1 for the root, unless it is a view. -/
theorem initial_grads {h : Heap F} {t : Nat} (hp : Prepared h t) : ∃ A : Nat → List Nat → F,
    (∀ o, (¬ Needs h t o ∨ IsView h o) → ∀ idx, A o idx = 0) ∧ (Needs h t t → ¬ IsView h t → ∀ idx, A t idx = 1) ∧
    ∀ o, Needs h t o → ¬ IsView h o → o ≠ t → (gradStore h o = none → ∀ idx, A o idx = 0) ∧
      (Interior h o → ∀ idx, A o idx = 0) ∧
      ∀ d i, gradStore h o = some d → h.ts[o]? = some i → GradCells h d i.dtype i.view (A o) := by
  have key : ∀ o, ∃ a : List Nat → F, ((¬ Needs h t o ∨ IsView h o) → ∀ idx, a idx = 0) ∧ (Needs h t t → o = t → ¬ IsView h t → ∀ idx, a idx = 1) ∧
      (Needs h t o → ¬ IsView h o → o ≠ t → (gradStore h o = none → ∀ idx, a idx = 0) ∧ (Interior h o → ∀ idx, a idx = 0) ∧
      ∀ d i, gradStore h o = some d → h.ts[o]? = some i → GradCells h d i.dtype i.view a) := by
    intro o
    by_cases hn : ¬ Needs h t o ∨ IsView h o
    · refine ⟨fun _ => 0, fun _ _ => rfl, fun h1 h2 h3 => ?_, fun h1 h2 _ => absurd hn (by simp [h1, h2])⟩
      subst h2
      rcases hn with hn | hn
      · exact absurd h1 hn
      · exact absurd hn h3
    · have h1 : Needs h t o := by_contra fun hc => hn (Or.inl hc)
      have h2 : ¬ IsView h o := fun hc => hn (Or.inr hc)
      by_cases ho : o = t
      · exact ⟨fun _ => 1, fun hc => absurd hc hn, fun _ _ _ _ => rfl, fun _ _ hc => absurd ho hc⟩
      · obtain ⟨_, i, hi, _⟩ := id h1
        cases hgs : gradStore h o with
        | none => exact ⟨fun _ => 0, fun hc => absurd hc hn, fun _ hc => absurd hc ho, fun _ _ _ => ⟨fun _ _ => rfl, fun _ _ => rfl,
            fun d i hd => by simp at hd⟩⟩
        | some d =>
          obtain ⟨a, ha, hz⟩ := hp.cells o i d h1 h2 ho hi hgs
          refine ⟨a, fun hc => absurd hc hn, fun _ hc => absurd hc ho, fun _ _ _ => ⟨fun hc => by simp at hc, hz, fun d' i' hd hi' => ?_⟩⟩
          injection hd with hd
          rw [hi] at hi'; injection hi' with hi'
          rw [← hd, ← hi']; exact ha
  choose A hA using key
  exact ⟨A, fun o => (hA o).1, fun hn => (hA t).2.1 hn rfl, fun o => (hA o).2.2⟩

theorem gradStore_some {h : Heap F} {x d : Nat} (hd : gradStore h x = some d) : ∃ i g j, h.ts[x]? = some i ∧ i.grad = some g ∧
    h.ts[g]? = some j ∧ j.data = d := by
  unfold gradStore at hd
  simp only [Option.bind_eq_some_iff, Option.map_eq_some_iff] at hd
  obtain ⟨i, hi, g, hg, j, hj, rfl⟩ := hd
  exact ⟨i, g, j, hi, hg, hj, rfl⟩

theorem read_lt {h : Heap F} {t d : Nat} {u : Nat → List Nat → DualNumber F} (hg : Graph h) (hl : Tangent h t u) (ht : t < h.ts.length)
    (hr : ReadStore h t d) : d < h.st.length := by
  rcases hr with ⟨x, i, hf, hi, rfl⟩ | ⟨x, g, k, i, hf, hop, hk, hi, rfl⟩
  · obtain ⟨f, hf, _⟩ := hl.value x i hf hi
    exact hf.data_lt
  · have hc := hl.op x g hf hop fun _ ⟨_, g', h1, h2, _⟩ => by rw [hop] at h1; injection h1 with h1; subst h1; rw [hk] at h2; cases h2
    have har := hg.arity x g hop
    rw [hk] at hc har
    obtain ⟨a, ha⟩ := length_one har
    rw [ha] at hc
    obtain ⟨i', f, hi', _, _, hf, _⟩ := hc
    rw [hi] at hi'; injection hi' with hi'; subst hi'
    exact hf.data_lt

variable [Exact F]

/-- The state after the counting passes and the seed. -/
theorem seed_ok {h h1 : Heap F} {t : Nat} {n v : Nat → Nat} {u0 : Nat → List Nat → DualNumber F} (hg : Graph h) (hp : Prepared h t)
    (hl : Tangent h t u0) (hs : Stamped h h1 n v) {it : Impl} (hit : h.ts[t]? = some it) (hr : it.requiresGrad = true)
    (hgf : it.gradFn.isSome = true) (hone : vol it.view.sizes = 1) {A : Nat → List Nat → F}
    (hA1 : ∀ o, (¬ Needs h t o ∨ IsView h o) → ∀ idx, A o idx = 0) (hA2 : Needs h t t → ¬ IsView h t → ∀ idx, A t idx = 1)
    (hA3 : ∀ o, Needs h t o → ¬ IsView h o → o ≠ t → (gradStore h o = none → ∀ idx, A o idx = 0) ∧
      (Interior h o → ∀ idx, A o idx = 0) ∧
      ∀ d i, gradStore h o = some d → h.ts[o]? = some i → GradCells h d i.dtype i.view (A o)) :
    ∃ D H, seed t h1 = .ok () H ∧ GInv h t [] D A H := by
  have htn : Needs h t t := ⟨.root, it, hit, hr⟩
  have htl := getElem?_lt hit
  have hit1 := hs.at_ t it hit
  obtain ⟨H1, w, vv, e1, hb, hvv⟩ := onesLike_ok (F := F) hit1 (hp.bytes t it .root hit)
  obtain ⟨d, hwo, hdl⟩ := hb.obj
  have hwl := hb.fresh.1
  have hit2 := hb.ext.ts t _ hit1
  obtain ⟨g, hgg⟩ := Option.isSome_iff_exists.1 hgf
  let g1 : GradFn := { g with nOutway := n t, backVersion := v t }
  let i3 : Impl := { it with grad := some w, gradFn := some g1 }
  let V := H1.gver + 1
  let i4 : Impl := { it with grad := some w, gradFn := some { g1 with backVersion := V } }
  let H4 : Heap F := { H1 with ts := H1.ts.set t i4, gver := V }
  have htl1 := getElem?_lt hit2
  have hrun : seed t h1 = .ok () H4 := by
    unfold seed
    rw [M.bind_ok e1, M.bind_ok (getT_ok hit2)]
    rw [M.bind_ok (x := setT t _) (a := ()) (h' := { H1 with ts := H1.ts.set t i3 }) (by
      unfold setT; simp only [i3, g1, hgg, Option.map_some])]
    rw [M.bind_ok (x := bumpVersion) (a := V) (h' := { H1 with ts := H1.ts.set t i3, gver := V }) rfl]
    have hti : ({ H1 with ts := H1.ts.set t i3, gver := V } : Heap F).ts[t]? = some i3 := List.getElem?_set_self htl1
    rw [M.bind_ok (x := getGradFn t) (a := g1) (h' := { H1 with ts := H1.ts.set t i3, gver := V }) (by
      unfold getGradFn
      rw [M.bind_ok (getT_ok hti)]
      rfl)]
    rw [setGF_ok hti]
    simp only [H4, i4, i3, List.set_set]
  have hH4t : H4.ts[t]? = some i4 := List.getElem?_set_self htl1
  have hH4 : ∀ (x : Nat) (i : Impl), x ≠ t → h.ts[x]? = some i → H4.ts[x]? = some { i with gradFn := i.gradFn.map fun g => { g with nOutway := n x, backVersion := v x } } := by
    intro x i hx hi
    exact (List.getElem?_set_ne (Ne.symm hx)).trans (hb.ext.ts x _ (hs.at_ x i hi))
  have hH4w : ∀ (x : Nat) (i : Impl), x ≠ t → H1.ts[x]? = some i → H4.ts[x]? = some i := fun x i hx hi =>
    (List.getElem?_set_ne (Ne.symm hx)).trans hi
  have hst4 : ∀ (e : Nat) (s : Storage F), h.st[e]? = some s → H4.st[e]? = some s := fun e s he =>
    hb.ext.st e s (by rw [hs.st]; exact he)
  have hdl' : h.st.length ≤ d := by rw [← hs.st]; exact hdl
  have hwt : w ≠ t := by have := hs.len; omega
  have hwi : H4.ts[w]? = some ⟨it.dtype, Layout.contig it.view.sizes, d, none, false, false, none⟩ := hH4w w _ hwt hwo
  let D : Nat → Option Nat := fun o => if o = t then some d else gradStore h o
  have hDt : D t = some d := if_pos rfl
  have hDo : ∀ o, o ≠ t → D o = gradStore h o := fun o ho => if_neg ho
  have hown : ∀ x, Needs h t x → owner h x = t → x = t := fun x hx ho => by
    have h1 := owner_le hg x
    have h2 := Spec.From.le hg hx.1
    omega
  have hvol : vol it.view.sizes < 9223372036854775808 := by omega
  have hpos0 : ¬ IsView h t → ∀ idx, InBox it.view.sizes idx → position (Layout.contig it.view.sizes) idx = position it.view idx := fun htv idx hi => by
    have hdense := hp.dense t it htn htv hit
    have h1 := hdense.inside idx hi
    rw [contig_position hvol hi]
    have := rank_lt hi
    omega
  have hcellT : ¬ IsView h t → GradCells H4 d it.dtype it.view (A t) ∧ ∃ s c, H4.st[d]? = some s ∧ s.blob = some c := fun htv => by
    obtain ⟨iw, hiw, hw1, hw2, hrd⟩ := hb.denotes
    rw [hwo] at hiw; injection hiw with hiw; subst hiw
    obtain ⟨s, c, q1, q2, q3, q4, q5⟩ := hrd.cells
    refine ⟨⟨s, q1, q2, Or.inr ⟨c, q3, q4, fun idx hi => ?_⟩⟩, s, c, q1, q3⟩
    obtain ⟨p, k1, k2⟩ := q5 idx hi
    have k1 : position (Layout.contig it.view.sizes) idx = p := k1
    rw [hpos0 htv idx hi] at k1
    rw [k1, Int.toNat_natCast, k2, hA2 htn htv idx]
    have hty := hrd.typed idx hi
    have hfl := hp.float t it htn hit
    cases vv with
    | f x => rw [show x = 1 from hvv]
    | i m =>
      have hty := hty.1
      exfalso
      generalize it.dtype = dt at hty hfl
      revert hty hfl
      cases dt <;> decide
  have hgs_lt : ∀ o e, Needs h t o → ¬ IsView h o → o ≠ t → gradStore h o = some e → e < h.st.length := fun o e h1 h2 h3 h4 => by
    obtain ⟨_, io, hio, _⟩ := id h1
    obtain ⟨s, hs, _⟩ := (hA3 o h1 h2 h3).2.2 e io h4 hio
    exact getElem?_lt hs
  refine ⟨D, H4, hrun, ⟨fun x i hi => ?_, fun e s _ hs => hst4 e s hs, fun x hn _ _ hD => ?_, fun x e hn _ hxv hD => ?_,
    fun o i e hn hv _ hi hD => ?_, fun o o' e hn hn' hv hv' _ _ hD hD' => ?_, fun o e hn hv _ hD => ?_, fun o ho idx => ?_,
    fun hv _ idx _ => hA2 htn hv idx, by simp, fun e he => read_lt hg hl htl he, fun a hn _ hc => ?_⟩⟩
  · by_cases hx : x = t
    · subst hx
      rw [hit] at hi; injection hi with hi; subst hi
      exact ⟨i4, hH4t, by simp [skel, i4, g1, hgg]⟩
    · refine ⟨_, hH4 x i hx hi, ?_⟩
      cases hc : i.gradFn <;> simp [skel, hc]
  · have hxo : owner h x ≠ t := fun hc => by rw [hc, hDt] at hD; simp at hD
    rw [hDo _ hxo] at hD
    have hgx := (owner_needs hg hp hn).2.1
    rw [hD] at hgx
    have hxv : ¬ IsView h x := fun hv => by
      obtain ⟨b, _, _, _, _, hu, _⟩ := hv.base hg
      have := (hp.view x b hn hv hu).2.1
      rw [← hgx] at this; simp at this
    have hxt : x ≠ t := fun hc => by rw [owner_self hxv] at hxo; exact hxo hc
    refine ⟨(owner_self hxv).symm, ?_, (hA3 x hn hxv hxt).1 hgx.symm⟩
    obtain ⟨_, i, hi, _⟩ := id hn
    rw [gradAt_some (hH4 x i hxt hi)]
    cases hgr : i.grad with
    | none => rfl
    | some g =>
      obtain ⟨j, hj, _⟩ := hp.grad x i g hn hxt hi hgr
      have : gradStore h x = some j.data := by unfold gradStore; rw [hi]; simp [hgr, hj]
      rw [← hgx] at this; simp at this
  · by_cases hxo : owner h x = t
    · have hxt := hown x hn hxo
      subst hxt
      rw [hxo, hDt] at hD; injection hD with hD; subst hD
      obtain ⟨iw, hiw, _, _, hrd⟩ := hb.denotes
      rw [hwo] at hiw; injection hiw with hiw; subst hiw
      exact ⟨i4, w, _, hH4t, rfl, hwi, rfl, rfl, hrd.strides, hrd.offset, hpos0 (hxo ▸ owner_not_view hg x), rfl, rfl⟩
    · rw [hDo _ hxo, (owner_needs hg hp hn).2.1] at hD
      have hxt : x ≠ t := fun hc => by subst hc; exact hxo (owner_self (hxv rfl))
      obtain ⟨i, g, j, hi, hgr, hj, hjd⟩ := gradStore_some hD
      obtain ⟨j', hj', k1, k2, k3⟩ := hp.grad x i g hn hxt hi hgr
      rw [hj] at hj'; injection hj' with hj'; subst hj'
      obtain ⟨f, hf, _⟩ := hl.value x i hn.1 hi
      have hjs : ∃ j', H4.ts[g]? = some j' ∧ j'.dtype = j.dtype ∧ j'.view = j.view ∧ j'.requiresGrad = j.requiresGrad ∧ j'.data = j.data := by
        by_cases hgt : g = t
        · subst hgt
          rw [hit] at hj; injection hj with hj; subst hj
          exact ⟨i4, hH4t, rfl, rfl, rfl, rfl⟩
        · exact ⟨_, hH4 g j hgt hj, rfl, rfl, rfl, rfl⟩
      obtain ⟨j', hj', m1, m2, m3, m4⟩ := hjs
      refine ⟨_, g, j', hH4 x i hxt hi, hgr, hj', m1.trans k1, by rw [m2, k2], ?_, ?_, fun idx _ => by rw [m2, k2], m3.trans k3, m4.trans hjd⟩
      · rw [m2, k2]; exact hf.strides
      · rw [m2, k2]; exact hf.offset
  · by_cases ho : o = t
    · subst ho
      rw [hDt] at hD; injection hD with hD; subst hD
      rw [hit] at hi; injection hi with hi; subst hi
      exact (hcellT hv).1
    · rw [hDo _ ho] at hD
      obtain ⟨s, h1, h2⟩ := (hA3 o hn hv ho).2.2 e i hD hi
      exact ⟨s, hst4 e s h1, h2⟩
  · by_cases ho : o = t <;> by_cases ho' : o' = t
    · rw [ho, ho']
    · rw [ho, hDt] at hD; injection hD with hD
      rw [hDo _ ho'] at hD'
      have := hgs_lt o' e hn' hv' ho' hD'
      omega
    · rw [ho', hDt] at hD'; injection hD' with hD'
      rw [hDo _ ho] at hD
      have := hgs_lt o e hn hv ho hD
      omega
    · rw [hDo _ ho] at hD; rw [hDo _ ho'] at hD'
      exact hp.apart o o' e hn hn' hv hv' ho ho' hD hD'
  · by_cases ho : o = t
    · rw [ho, hDt] at hD; injection hD with hD
      intro hc
      have := read_lt hg hl htl hc
      omega
    · rw [hDo _ ho] at hD
      exact hp.aside o e hn hv ho hD
  · refine hA1 o ?_ idx
    rcases ho with ho | ho | ho
    · exact Or.inl ho
    · exact Or.inr ho
    · simp at ho
  · rcases hc with ⟨rfl, htv⟩ | ⟨y, hy, _⟩
    · obtain ⟨s, c, h1, h2⟩ := (hcellT htv).2
      rw [owner_self htv]
      exact ⟨d, s, c, hDt, h1, h2⟩
    · simp at hy

omit [FOps F] [Exact F] in
theorem sum_support {f : Nat → F} {l ls : List Nat} (hl : l.Nodup) (hls : ls.Nodup) (hsub : ∀ x ∈ ls, x ∈ l)
    (hz : ∀ x ∈ l, x ∉ ls → f x = 0) : (l.map f).sum = (ls.map f).sum := by
  have h1 : (l.map f).sum = (l.map fun k => if k ∈ ls then f k else 0).sum := by
    congr 1
    refine List.map_congr_left fun k hk => ?_
    split
    · rfl
    · next hc => exact hz k hk hc
  rw [h1, ← sum_filter (fun k => k ∈ ls) f l]
  refine (List.Perm.map f ?_).sum_eq
  refine (List.perm_ext_iff_of_nodup (hl.filter _) hls).2 fun x => ?_
  simp only [List.mem_filter, decide_eq_true_eq]
  exact ⟨fun hx => hx.2, fun hx => ⟨hsub x hx, hx⟩⟩

/-- The state after back-propagation. -/
theorem backward_ginv {h : Heap F} {t : Nat} {u0 : Nat → List Nat → DualNumber F} {it : Impl} (hg : Graph h) (hU : Unused h t)
    (hp : Prepared h t) (hl : Tangent h t u0) (hit : h.ts[t]? = some it) (hr : it.requiresGrad = true)
    (hgf : it.gradFn.isSome = true) (hone : numel it.view.sizes = 1) :
    ∃ (H : Heap F) (l : List Nat) (D : Nat → Option Nat) (A : Nat → List Nat → F), backward t h = .ok () H ∧ Schedule h t l ∧
      GInv h t l D A H := by
  obtain ⟨h1, n, v, _, hst, l, _, _, hsch, hbw, _⟩ := backward_order hg hit hr hgf hone
  have hs := hsch hU
  have htl := getElem?_lt hit
  have hbytes := hp.bytes t it .root hit
  have hvol : vol it.view.sizes = 1 := by
    rw [← numel_eq_vol (by have := vol_lt_of_bytes hbytes; omega)]; exact hone
  have htn : Needs h t t := ⟨.root, it, hit, hr⟩
  obtain ⟨A, hA1, hA2, hA3⟩ := initial_grads hp
  obtain ⟨D, H0, e0, hG0⟩ := seed_ok hg hp hl hst hit hr hgf hvol hA1 hA2 hA3
  have hneed : ∀ x ∈ l, Needs h t x := fun x hx => by
    obtain ⟨h1, h2⟩ := (hs.all x).1 hx
    by_cases hxt : x = t
    · subst hxt; exact htn
    · obtain ⟨i, g, hi, hgi⟩ := h2.obj
      exact ⟨h1, i, hi, (hU x g h1 hxt (by rw [opOf_some hi, hgi])).2 i hi⟩
  obtain ⟨D', A', H, e1, hG, _⟩ := visits_ok hg hp hl htl hs hneed l [] D A H0 (by simp) hG0
  exact ⟨H, l, D', A', by rw [hbw, M.bind_ok e0, e1], hs, hG⟩

open Classical in
/-- Back-propagation adds the transposed derivative to the gradients of the leaves, or nothing if it is started at a view,
with means inside the computation taken as constants, and the derivatives of those means. -/
theorem backward_tangent {h : Heap F} {t : Nat} {u0 : Nat → List Nat → DualNumber F} {it : Impl} (hg : Graph h) (hU : Unused h t)
    (hp : Prepared h t) (hl : Tangent h t u0) (hit : h.ts[t]? = some it) (hr : it.requiresGrad = true)
    (hgf : it.gradFn.isSome = true) (hone : numel it.view.sizes = 1) :
    ∃ (H : Heap F) (G0 G1 : Nat → List Nat → F), backward t h = .ok () H ∧ (∀ x, Leaf h t x → GradOrZero h x (G0 x) ∧ GradIs H x (G1 x)) ∧
      ∀ u, Tangent h t u → ∀ ls ms : List Nat, ls.Nodup → (∀ x, x ∈ ls ↔ Leaf h t x) → ms.Nodup →
        (∀ m, m ∈ ms ↔ From h t m ∧ ∃ a, InnerMean h t m a) →
        (ls.map fun x => boxSum (shapeOf h x) fun idx => (G1 x idx - G0 x idx) * (u x idx).snd).sum =
          (if IsView h t then 0 else boxSum (shapeOf h t) fun idx => (u t idx).snd) + (ms.map (meanSlope h u)).sum := by
  obtain ⟨h1, n, v, _, hst, l, _, _, hsch, hbw, _⟩ := backward_order hg hit hr hgf hone
  have hs := hsch hU
  have htl := getElem?_lt hit
  have hbytes := hp.bytes t it .root hit
  have hvol : vol it.view.sizes = 1 := by
    rw [← numel_eq_vol (by have := vol_lt_of_bytes hbytes; omega)]; exact hone
  have htn : Needs h t t := ⟨.root, it, hit, hr⟩
  have hti : Interior h t := by unfold Interior; rw [opOf_some hit]; exact hgf
  obtain ⟨A, hA1, hA2, hA3⟩ := initial_grads hp
  obtain ⟨D, H0, e0, hG0⟩ := seed_ok hg hp hl hst hit hr hgf hvol hA1 hA2 hA3
  have hneed : ∀ x ∈ l, Needs h t x := fun x hx => by
    obtain ⟨h1, h2⟩ := (hs.all x).1 hx
    by_cases hxt : x = t
    · subst hxt; exact htn
    · obtain ⟨i, g, hi, hgi⟩ := h2.obj
      exact ⟨h1, i, hi, (hU x g h1 hxt (by rw [opOf_some hi, hgi])).2 i hi⟩
  obtain ⟨D', A', H, e1, hG, hpair⟩ := visits_ok hg hp hl htl hs hneed l [] D A H0 (by simp) hG0
  have hleaf : ∀ x, Leaf h t x → x ∉ l ∧ ¬ IsView h x ∧ x ≠ t := fun x hx => by
    refine ⟨fun hc => hx.2 ((hs.all x).1 hc).2, fun ⟨g, hg, _⟩ => hx.2 (by unfold Interior; rw [hg]; rfl), fun hc => hx.2 (hc ▸ hti)⟩
  refine ⟨H, A, A', by rw [hbw, M.bind_ok e0, e1], fun x hx => ?_, fun u hlu ls ms hnd hmem hmd hms => ?_⟩
  · obtain ⟨hxl, hxv, hxt⟩ := hleaf x hx
    obtain ⟨hn, _⟩ := id hx
    obtain ⟨hf, i, hi, _⟩ := id hn
    constructor
    · obtain ⟨b1, b2, b3⟩ := hA3 x hn hxv hxt
      cases hgs : gradStore h x with
      | none =>
        refine Or.inr ⟨⟨i, hi, fun g j s hgr hj _ => ?_⟩, fun idx _ => b1 hgs idx⟩
        have : gradStore h x = some j.data := by unfold gradStore; rw [hi]; simp [hgr, hj]
        rw [hgs] at this; simp at this
      | some d =>
        obtain ⟨i', g, j, hi', hgr, hj, hjd⟩ := gradStore_some hgs
        rw [hi] at hi'; injection hi' with hi'; subst hi'
        obtain ⟨j', hj', k1, k2, k3⟩ := hp.grad x i g hn hxt hi hgr
        rw [hj] at hj'; injection hj' with hj'; subst hj'
        obtain ⟨f, hf', _⟩ := hl.value x i hf hi
        obtain ⟨s, q1, q2, hc⟩ := b3 d i hgs hi
        rcases hc with ⟨q3, _, q4⟩ | ⟨c, q3, q4, q5⟩
        · refine Or.inr ⟨⟨i, hi, fun g' j' s' hgr' hj' hs' => ?_⟩, fun idx hb => q4 idx (by rwa [shapeOf_some hi] at hb)⟩
          rw [hgr] at hgr'; injection hgr' with hgr'; subst hgr'
          rw [hj] at hj'; injection hj' with hj'; subst hj'
          rw [hjd, q1] at hs'; injection hs' with hs'; subst hs'
          exact q3
        · refine Or.inl ⟨i, g, fun idx => .f (A x idx), hi, hgr, ⟨j, hj, k1, by rw [k2], ⟨?_, ?_, ⟨s, c, by rw [hjd]; exact q1,
            by rw [k1]; exact q2, q3, q4, fun idx hb => ?_⟩, fun idx _ => ?_⟩⟩, fun idx _ => rfl⟩
          · rw [k2]; exact hf'.strides
          · rw [k2]; exact hf'.offset
          · rw [k2] at hb ⊢
            have := (hp.dense x i hn hxv hi).inside idx hb
            exact ⟨(position i.view idx).toNat, by omega, q5 idx hb⟩
          · rw [k1]; exact (hp.float x i hn hi : (Val.f _ : Val F).HasType _)
    · have hal : Alloc D' H (owner h x) := by
        refine hG.started x hn hxl ?_
        rcases hf with _ | ⟨hf, hu⟩
        · exact absurd rfl hxt
        · exact Or.inr ⟨_, (hs.all _).2 ⟨hf, hu.interior⟩, hu⟩
      obtain ⟨i', g, j, f, e1, e2, e3, e4, e5, _, _, e6, _, e7⟩ := hG.gradReads hg hp hl hn hxl (fun hc => absurd hc hxt) hi hal
      obtain ⟨i'', f1, f2, f3, _⟩ := hG.obj hi
      rw [e1] at f1; injection f1 with f1; subst f1
      exact ⟨i', g, f, e1, e2, ⟨j, e3, e4.trans f2.symm, by rw [e5, f3], e6⟩, fun idx hb => e7 hxv idx (by rwa [f3] at hb)⟩
  · have hsub : ∀ x ∈ ls, x ∈ List.range h.ts.length := fun x hx => by
      have := Spec.From.le hg ((hmem x).1 hx).1.1
      exact List.mem_range.2 (by omega)
    have key := hpair u hlu
    have hend : pairing h u A' = (ls.map fun x => boxSum (shapeOf h x) fun idx => A' x idx * (u x idx).snd).sum := by
      refine sum_support List.nodup_range hnd hsub fun x hx hxl => boxSum_zero fun idx _ => ?_
      rw [hG.zero x ?_ idx, zero_mul]
      by_cases hn : Needs h t x
      · by_cases hxi : Interior h x
        · exact Or.inr (Or.inr ((hs.all x).2 ⟨hn.1, hxi⟩))
        · exact absurd ((hmem x).2 ⟨hn, hxi⟩) hxl
      · exact Or.inl hn
    have htls : t ∉ ls := fun hc => (hleaf t ((hmem t).1 hc)).2.2 rfl
    have hbeg : pairing h u A = (if IsView h t then 0 else boxSum (shapeOf h t) fun idx => (u t idx).snd) +
        (ls.map fun x => boxSum (shapeOf h x) fun idx => A x idx * (u x idx).snd).sum := by
      unfold pairing
      rw [sum_support List.nodup_range (ls := t :: ls) (List.nodup_cons.2 ⟨htls, hnd⟩) (fun x hx => ?_) fun x hx hxl =>
        boxSum_zero fun idx _ => ?_, List.map_cons, List.sum_cons]
      · congr 1
        split
        · next hv => exact boxSum_zero fun idx _ => by rw [hA1 t (Or.inr hv) idx, zero_mul]
        · next hv => exact boxSum_congr fun idx _ => by rw [hA2 htn hv idx, one_mul]
      · rcases List.mem_cons.1 hx with rfl | hx
        · exact List.mem_range.2 htl
        · exact hsub x hx
      · have hxt : x ≠ t := fun hc => hxl (by simp [hc])
        have hxls : x ∉ ls := fun hc => hxl (by simp [hc])
        suffices A x idx = 0 by rw [this, zero_mul]
        by_cases hn : Needs h t x
        · by_cases hv : IsView h x
          · exact hA1 x (Or.inr hv) idx
          · refine (hA3 x hn hv hxt).2.1 ?_ idx
            by_contra hxi
            exact hxls ((hmem x).2 ⟨hn, hxi⟩)
        · exact hA1 x (Or.inl hn) idx
    rw [hend, hbeg] at key
    have hsplit : ∀ x, (boxSum (shapeOf h x) fun idx => A' x idx * (u x idx).snd) =
        (boxSum (shapeOf h x) fun idx => (A' x idx - A x idx) * (u x idx).snd) +
          boxSum (shapeOf h x) fun idx => A x idx * (u x idx).snd := fun x => by
      rw [← boxSum_add]
      exact boxSum_congr fun idx _ => by ring
    rw [List.map_congr_left fun x _ => hsplit x, List.sum_map_add] at key
    have hthr : (l.map (through h t u)).sum = (ms.map (meanSlope h u)).sum := by
      rw [sum_support hs.once hmd (fun m hm => ?_) fun m _ hm => ?_]
      · refine congrArg List.sum (List.map_congr_left fun m hm => if_pos ((hms m).1 hm).2)
      · obtain ⟨hf, a, _, g, hg, _⟩ := (hms m).1 hm
        exact (hs.all m).2 ⟨hf, by unfold Interior; rw [hg]; rfl⟩
      · next hml =>
        by_cases hc : ∃ a, InnerMean h t m a
        · exact absurd ((hms m).2 ⟨((hs.all m).1 hml).1, hc⟩) hm
        · exact if_neg hc
    rw [hthr] at key
    refine add_right_cancel (key.trans ?_)
    ring

omit [Exact F] in
theorem segments_map {R S : Type} (w : R → S) {h : Heap F} {u : Nat → List Nat → R} {x d : Nat} : ∀ (ins : List Nat) (k : Nat),
    Segments h u x d k ins → Segments h (fun y j => w (u y j)) x d k ins
  | [], _, hs => hs
  | _ :: ins, _, ⟨n, h1, h2, h3⟩ => ⟨n, h1, fun idx hi => congrArg w (h2 idx hi), segments_map w ins _ h3⟩

omit [Exact F] in
/-- The rules of differentiation hold in the dual numbers. -/
theorem Spec.Computed.follow {h : Heap F} {t x : Nat} {u : Nat → List Nat → DualNumber F} {k : BackKind} {ins : List Nat}
    (hc : Computed h t u x k ins) : Follow h t u x k ins := by
  unfold Computed at hc
  split at hc
  · exact ⟨hc.1, fun idx hi => by rw [hc.2 idx hi, TrivSqZeroExt.snd_add]⟩
  · exact ⟨hc.1, fun idx hi => by rw [hc.2 idx hi, TrivSqZeroExt.snd_sub]⟩
  · refine ⟨hc.1, fun idx hi => ?_⟩
    rw [hc.2 idx hi]
    simp only [TrivSqZeroExt.snd_mul, smul_eq_mul, MulOpposite.smul_eq_mul_unop, MulOpposite.unop_op]
    ring
  · obtain ⟨h1, h2, h3, h4, h5⟩ := hc
    refine ⟨h1, h2, h3, h4, fun idx hi => ⟨(h5 idx hi).1, ?_⟩⟩
    have hs := congrArg TrivSqZeroExt.snd (h5 idx hi).2
    simp only [TrivSqZeroExt.snd_mul, smul_eq_mul, MulOpposite.smul_eq_mul_unop, MulOpposite.unop_op] at hs
    rw [← hs, eq_div_iff (h5 idx hi).1]
    ring
  · exact ⟨hc.1, by rw [hc.2, snd_boxSum]⟩
  · obtain ⟨h1, h2, h3, h4, h5⟩ := hc
    refine ⟨h1, h2, h3, h4, ?_⟩
    have hs := congrArg TrivSqZeroExt.snd h5
    rw [snd_boxSum] at hs
    simp only [TrivSqZeroExt.snd_mul, TrivSqZeroExt.fst_natCast, TrivSqZeroExt.snd_natCast, smul_eq_mul, smul_zero, add_zero] at hs
    rw [← hs, eq_div_iff h4, mul_comm]
  · exact ⟨hc.1, fun idx hi => by rw [hc.2 idx hi]⟩
  · obtain ⟨i, j, h1, h2, h3⟩ := hc
    exact ⟨i, j, h1, h2, fun idx hi => by
      obtain ⟨k, q1, q2, q3⟩ := h3 idx hi
      exact ⟨k, q1, q2, congrArg _ q3⟩⟩
  · exact ⟨hc.1, segments_map _ _ _ hc.2⟩
  · obtain ⟨i, f, h1, h2, h3, h4, _, h5, h6⟩ := hc
    refine ⟨i, f, h1, h2, h3, h4, h5, fun j hj => ?_⟩
    rw [h6 j hj, snd_boxSum]
    refine boxSum_congr fun k _ => ?_
    split
    · rw [TrivSqZeroExt.snd_smul, smul_eq_mul]
    · rfl
  · exact hc.elim

omit [Exact F] in
theorem Spec.Detached.tangent {h : Heap F} {t : Nat} {u : Nat → List Nat → DualNumber F} (hl : Detached h t u) : Tangent h t u :=
  ⟨hl.value, hl.const, fun x g hx hg hm => (hl.op x g hx hg hm).follow, hl.mean⟩

theorem Spec.Lift.inner {h : Heap F} {t : Nat} {u : Nat → List Nat → DualNumber F} (hl : Lift h t u) {m a : Nat} (hf : From h t m) :
    ¬ InnerMean h t m a := fun ⟨hm, g, hg, hk, hi⟩ => by
  have := hl.op m g hf hg
  rw [hk, hi] at this
  exact hm this.1

theorem Spec.Lift.detached {h : Heap F} {t : Nat} {u : Nat → List Nat → DualNumber F} (hl : Lift h t u) : Detached h t u :=
  ⟨hl.value, hl.const, fun x g hx hg _ => hl.op x g hx hg, fun _ _ hf hm => absurd hm (hl.inner hf)⟩

open Classical in
/-- Back-propagation adds the transposed derivative to the gradients of the leaves, or nothing if it is started at a view. -/
theorem backward_deriv {h : Heap F} {t : Nat} {u0 : Nat → List Nat → DualNumber F} {it : Impl} (hg : Graph h) (hU : Unused h t)
    (hp : Prepared h t) (hl : Lift h t u0) (hit : h.ts[t]? = some it) (hr : it.requiresGrad = true)
    (hgf : it.gradFn.isSome = true) (hone : numel it.view.sizes = 1) :
    ∃ (H : Heap F) (G0 G1 : Nat → List Nat → F), backward t h = .ok () H ∧ (∀ x, Leaf h t x → GradOrZero h x (G0 x) ∧ GradIs H x (G1 x)) ∧
      ∀ u, Lift h t u → ∀ ls : List Nat, ls.Nodup → (∀ x, x ∈ ls ↔ Leaf h t x) →
        (ls.map fun x => boxSum (shapeOf h x) fun idx => (G1 x idx - G0 x idx) * (u x idx).snd).sum =
          if IsView h t then 0 else boxSum (shapeOf h t) fun idx => (u t idx).snd := by
  obtain ⟨H, G0, G1, h1, h2, h3⟩ := backward_tangent hg hU hp hl.detached.tangent hit hr hgf hone
  refine ⟨H, G0, G1, h1, h2, fun u hu ls hnd hmem => ?_⟩
  have := h3 u hu.detached.tangent ls [] hnd hmem List.nodup_nil fun m => ⟨fun hm => by simp at hm, fun ⟨hf, _, hm⟩ => absurd hm (hl.inner hf)⟩
  simpa using this

end INNC
