import Verif.Lemmas.FeedCalls
/-
Functions that make views keep the gradients and the graph in good order.
-/
namespace INNC
open Spec Tensor
variable {F : Type}

theorem Seat.sub {h : Heap F} {u v : Layout} {dt : DType} {d : Nat} (hs : Seat h u dt d) (hl : v.strides.length = v.sizes.length)
    (ho : v.offset < 18446744073709551616) (hσ : ∀ idx, InBox v.sizes idx → ∃ idx', InBox u.sizes idx' ∧ position v idx = position u idx') :
    Seat h v dt d := by
  obtain ⟨s, h1, h2, h3, h4, h5⟩ := hs.cells
  refine ⟨hl, ho, s, h1, h2, h3, fun idx hb => ?_, h5⟩
  obtain ⟨idx', hb', e⟩ := hσ idx hb
  rw [e]; exact h4 idx' hb'

theorem seat_idle {h : Heap F} {v : Layout} {dt : DType} {d : Nat} (hd : Dense v) (hm : Modest v.sizes dt)
    (hs : h.st[d]? = some ⟨dt, wrapU (dt.size * numel v.sizes), none⟩) : Seat h v dt d := by
  have hvol := hm.vol
  have e : wrapU (dt.size * numel v.sizes) = dt.size * vol v.sizes := by
    rw [numel_eq_vol (by omega)]
    unfold Modest at hm
    rw [Nat.mul_comm] at hm
    unfold wrapU
    have : ((dt.size : Int) * (vol v.sizes : Int)) = ((dt.size * vol v.sizes : Nat) : Int) := by simp
    rw [this]
    omega
  have hcap : (⟨dt, wrapU (dt.size * numel v.sizes), none⟩ : Storage F).cap = vol v.sizes := by
    unfold Storage.cap
    simp only [e]
    exact Nat.mul_div_cancel_left _ dt.size_pos
  refine ⟨hd.strides, hd.offset, _, hs, rfl, by rw [hcap]; exact hm, fun idx hb => ?_, fun c hc => by cases hc⟩
  obtain ⟨h1, h2⟩ := hd.inside idx hb
  exact ⟨(position v idx).toNat, by omega, by rw [hcap]; omega⟩

theorem ordered_viewMade {h h' : Heap F} {base r d : Nat} {b : Impl} {v : Layout} (vm : ViewMade h h' base r b b.dtype v d)
    (ho : Ordered h) (hb : h.ts[base]? = some b) (hvr : Var h' r)
    (hσ : ∀ idx, InBox v.sizes idx → ∃ idx', InBox b.view.sizes idx' ∧ position v idx = position b.view idx')
    (hroom : Roomy h base) : Ordered h' := by
  have hr : Retains h h' := vm.pres.retains
  have hid : Idles h h' := fun e s hs hbl => ⟨s, vm.pres.st e s hs, rfl, rfl, fun c hc => by { rw [hbl] at hc; cases hc }⟩
  obtain ⟨j, hj, j1, j2, j3, j4, _, j5, j6⟩ := vm.obj
  have hrid := vm.id
  have oldT : ∀ (x : Nat) (i' : Impl), x < h.ts.length → h'.ts[x]? = some i' → ∃ i, h.ts[x]? = some i ∧ i'.dtype = i.dtype ∧ i'.view = i.view ∧
      i'.requiresGrad = i.requiresGrad ∧ i'.gradFn = i.gradFn ∧ (x ≠ base → i' = i) := fun x i' hx hi' => by
    by_cases hxb : x = base
    · subst hxb
      refine ⟨b, hb, ?_⟩
      cases hq : b.requiresGrad with
      | false =>
        rw [(vm.same hq).ts x b hb] at hi'
        obtain rfl := Option.some.inj hi'
        exact ⟨rfl, rfl, hq, rfl, fun _ => rfl⟩
      | true =>
        obtain ⟨b', _, g, _, _, _, e1, e2, _⟩ := vm.shared hq
        rw [hi'] at e1
        obtain rfl := Option.some.inj e1
        rw [e2]
        exact ⟨rfl, rfl, hq, rfl, fun hc => absurd rfl hc⟩
    · have hx' := List.getElem?_eq_getElem hx
      rw [vm.other x _ hxb hx'] at hi'
      obtain rfl := Option.some.inj hi'
      exact ⟨_, hx', rfl, rfl, rfl, rfl, fun _ => rfl⟩
  have tm : vol j.view.sizes ≠ 0 → Tame j.view.sizes j.view.strides := by
    obtain ⟨j', e, _, ht⟩ := hvr
    rw [hj] at e
    obtain rfl := Option.some.inj e
    exact ht
  have hjs : j.view.strides.length = j.view.sizes.length ∧ j.view.offset < 18446744073709551616 := by
    obtain ⟨j', e, hs, _⟩ := hvr
    rw [hj] at e
    obtain rfl := Option.some.inj e
    exact ⟨hs.strides, hs.offset⟩
  have grads : b.requiresGrad = true → (∀ g i', h'.ts[base]? = some i' → i'.grad = some g → Slot h' i' g) ∧ ∀ g, j.grad = some g → Slot h' j g := fun hq => by
    obtain ⟨b', j', g, gi, g', gj, e1, e2, e3, e4, e5, e6, e7, e8, e9, e10, e11, _⟩ := vm.shared hq
    rw [hj] at e6
    obtain rfl := Option.some.inj e6
    have hslot : Slot h' b' g := by
      cases hg : b.grad with
      | some g0 =>
        have := e4 g0 hg
        subst this
        exact (ho.seated base g b hb hg).keep (by rw [e2]) (by rw [e2]) hr hid
      | none =>
        obtain ⟨q1, q2, q3, q4, q5, _⟩ := e5 hg
        rcases hroom b hb hq with hc | ⟨hd, hm⟩
        · rw [hg] at hc; cases hc
        · have hs := seat_idle hd hm q5
          obtain ⟨b2, hb2, _, ht⟩ := ho.reqs base b hb hq
          rw [hb] at hb2
          obtain rfl := Option.some.inj hb2
          exact ⟨gi, e3, by rw [q1, e2], by rw [q2, e2], by rw [q1, q2]; exact hs, by rw [e2]; exact hs, by rw [q2]; exact ht⟩
    have hseat : Seat h' b.view b.dtype gi.data := by
      obtain ⟨gi', f1, f2, f3, f4, f5, f6⟩ := hslot
      rw [e3] at f1
      obtain rfl := Option.some.inj f1
      rw [e2] at f5
      exact f5
    have hsub : Seat h' v b.dtype gi.data := hseat.sub (by rw [← j2]; exact hjs.1) (by rw [← j2]; exact hjs.2) hσ
    refine ⟨fun k i' hi' hk => ?_, fun k hk => ?_⟩
    · rw [e1] at hi'
      obtain rfl := Option.some.inj hi'
      rw [e2] at hk
      obtain rfl := Option.some.inj hk
      exact hslot
    · rw [e7] at hk
      obtain rfl := Option.some.inj hk
      exact ⟨gj, e8, by rw [e11, j1], by rw [e10, j2], by rw [e9, e10, e11]; exact hsub, by rw [j1, j2, e9]; exact hsub, by rw [e10, ← j2]; exact tm⟩
  refine ⟨fun x g i' hi' hg => ?_, fun x i' hi' hq => ?_, fun x f hx => ?_, fun x i' hi' hq => ?_⟩
  · rcases vm.only x i' hi' with hx | rfl | ⟨hx, _⟩
    · obtain ⟨i, hi, q1, q2, q3, q4, q5⟩ := oldT x i' hx hi'
      by_cases hxb : x = base
      · subst hxb
        rw [hb] at hi
        obtain rfl := Option.some.inj hi
        cases hq : b.requiresGrad with
        | true => exact (grads hq).1 g i' hi' hg
        | false =>
          rw [(vm.same hq).ts x b hb] at hi'
          obtain rfl := Option.some.inj hi'
          exact (ho.seated x g b hb hg).keep rfl rfl hr hid
      · obtain rfl := q5 hxb
        exact (ho.seated x g i' hi hg).keep rfl rfl hr hid
    · rw [hj] at hi'
      obtain rfl := Option.some.inj hi'
      cases hq : b.requiresGrad with
      | true => exact (grads hq).2 g hg
      | false => rw [j6 hq] at hg; cases hg
    · rw [hx] at hg; cases hg
  · rcases vm.only x i' hi' with hx | rfl | ⟨_, _, hx⟩
    · obtain ⟨i, hi, q1, q2, q3, q4, q5⟩ := oldT x i' hx hi'
      rw [q1]; exact ho.flags x i hi (q3 ▸ hq)
    · rw [hj] at hi'
      obtain rfl := Option.some.inj hi'
      rw [j1]; exact ho.flags base b hb (j4 ▸ hq)
    · rw [hx] at hq; cases hq
  · cases hi' : h'.ts[x]? with
    | none => unfold opOf at hx; rw [hi'] at hx; cases hx
    | some i' =>
      rw [opOf_some hi'] at hx
      rcases vm.only x i' hi' with hlt | rfl | ⟨_, hn, _⟩
      · obtain ⟨i, hi, q1, q2, q3, q4, q5⟩ := oldT x i' hlt hi'
        exact (ho.nodes x f (by rw [opOf_some hi, ← q4]; exact hx)).retains hr
      · rw [hj] at hi'
        obtain rfl := Option.some.inj hi'
        rw [j5] at hx
        split at hx
        · cases hx; exact node_simple trivial
        · cases hx
      · rw [hn] at hx; cases hx
  · rcases vm.only x i' hi' with hx | rfl | ⟨_, _, hx⟩
    · obtain ⟨i, hi, q1, q2, q3, q4, q5⟩ := oldT x i' hx hi'
      exact (ho.reqs x i hi (q3 ▸ hq)).retains hr
    · exact hvr
    · rw [hx] at hq; cases hq

/-- The computation ends with the graph in good order. -/
def Stays {α : Type} (o : Out (Heap F) α) : Prop :=
  match o with
  | .ok _ h' => Ordered h'
  | .throw _ h' => Ordered h'
  | .ub _ => True

variable [FOps F] {h : Heap F}

theorem stays_viewOf (hval : Valid h) (ho : Ordered h) {base : Nat} {b : Impl} (hb : h.ts[base]? = some b) (hs : Sits h b) (hroom : Roomy h base)
    {v : Layout} (hl : v.strides.length = v.sizes.length) (hof : v.offset < 18446744073709551616)
    (hσ : ∀ idx, InBox v.sizes idx → ∃ idx', InBox b.view.sizes idx' ∧ position v idx = position b.view idx')
    (ht : vol v.sizes ≠ 0 → (Tame v.sizes v.strides ∨ (∀ n ∈ v.sizes, n ≤ 4611686018427387904) ∧ ∀ st ∈ v.strides, IsI64 st)) :
    Stays (Tensor.makeView b.dtype v b.data base h) := by
  have hm := mem_viewOf hval hb hs hl hof hσ ht
  obtain ⟨h', e, vm⟩ := makeView_ok hb (fun _ g hg => hval.grad base g b hb hg) b.dtype v b.data
  rw [e] at hm ⊢
  exact ordered_viewMade vm ho hb hm.2 hσ hroom

theorem stays_transpose (hval : Valid h) (ho : Ordered h) {t a b : Nat} (hv : Var h t) (hroom : Roomy h t) : Stays (Tensor.transpose t a b h) := by
  obtain ⟨i, hi, hs, ht⟩ := hv
  by_cases hok : a < i.view.sizes.length ∧ b < i.view.sizes.length ∧ a ≠ b
  · obtain ⟨ha, hb, hab⟩ := hok
    have hl := hs.strides
    unfold Tensor.transpose
    rw [M.bind_ok (getT_ok hi), transposeLayout_ok hl ha hb hab, M.bind_ok (M.lift_ok _ _)]
    refine stays_viewOf hval ho hi hs hroom (by simp only [length_swapped]; exact hl) hs.offset (fun idx hbx => ?_) fun h0 => .inl ?_
    · have hin := inBox_swapped ha hb hbx
      refine ⟨swapped idx a b, hin, ?_⟩
      have hlen := hbx.length
      simp only [length_swapped] at hlen
      unfold position
      simp only
      rw [dot_swapped hab (by omega) (by omega) (by omega)]
    · refine tame_iff.2 fun k n st hn hst => ?_
      simp only at hn hst
      rw [getElem?_swapped ha hb] at hn
      rw [getElem?_swapped (by omega) (by omega)] at hst
      exact tame_iff.1 (ht (vol_swapped ha hb h0)) _ n st hn hst
  · rw [transpose_throw hi (by omega)]
    exact ho

theorem stays_slice (hval : Valid h) (ho : Ordered h) {t : Nat} {s : Str} (hv : Var h t) (hroom : Roomy h t) : Stays (Tensor.slice t s h) := by
  obtain ⟨i, hi, hs, ht⟩ := hv
  have key : Yields (sliceLayout i.view s) fun v => v.strides.length = v.sizes.length ∧
      v.offset < 18446744073709551616 ∧ (0 ∈ i.view.sizes → 0 ∈ v.sizes) ∧
      ∃ ds, sliceGo ds i.view.sizes i.view.strides i.view.offset = .ok (v.sizes, v.strides, v.offset) := by
    unfold sliceLayout
    refine yields_bind (yields_expect _) fun _ _ => ?_
    refine yields_bind (yields_and (yields_sliceGo _ _ _ _ hs.strides hs.offset)) fun r hr => ?_
    obtain ⟨ns, sts, off⟩ := r
    exact yields_pure ⟨hr.1.1, hr.1.2.1, hr.1.2.2, _, hr.2⟩
  unfold Tensor.slice
  rw [M.bind_ok (getT_ok hi), M.bind_def]
  cases hc : sliceLayout i.view s with
  | throw e => exact ho
  | ub u => trivial
  | ok v =>
    rw [hc] at key
    obtain ⟨hl, hof, hz, ds, hgo⟩ := key
    show Stays (Tensor.makeView i.dtype v i.data t h)
    by_cases h0 : vol i.view.sizes = 0
    · have hz' : vol v.sizes = 0 := vol_eq_zero.2 (hz (vol_eq_zero.1 h0))
      refine stays_viewOf hval ho hi hs hroom hl hof (fun idx hb => ?_) fun hc => absurd hz' hc
      have := hb.vol_pos
      omega
    · obtain ⟨f, hf⟩ := hs.reads
      obtain ⟨D, e, _, htame, σ, hσ⟩ := sliceGo_inv _ _ _ _ _ _ _ hs.strides (ht h0) hs.offset hgo
      refine stays_viewOf hval ho hi hs hroom hl hof (fun idx hb => ?_) fun _ => .inl htame
      have := wrapped_offset hf hσ idx hb
      rw [← e] at this
      exact ⟨σ idx, this⟩

theorem stays_reshapeClone (hval : Valid h) (ho : Ordered h) {t : Nat} {i : Impl} (hi : h.ts[t]? = some i) (hs : Sits h i) {s' : List Nat}
    (hm : Modest i.view.sizes i.dtype) (hv : vol s' = vol i.view.sizes) : Stays ((do
      let m ← Tensor.clone t
      let mi ← getT m
      Tensor.makeView i.dtype (Layout.contig s') mi.data m : M F Nat) h) := by
  have hvol := hm.vol
  have h1 := valid_clone (F := F) t h
  have h2 := mem_clone hi hs hm
  have h3 := adds_clone t h
  have h4 := Trk.clone (h0 := h) ⟨ho.flags, Same.refl h⟩ hi
  unfold Adds at h3
  rw [M.bind_def]
  cases hc : Tensor.clone t h with
  | ok m H =>
    rw [hc] at h1 h2 h3 h4
    have hval1 : Valid H := VK.valid h1 hval
    obtain ⟨hr, hfine⟩ := h2
    have hvar := hfine.var hm
    have ho1 : Ordered H := ho.nk hr h3 h4.1.1 (fun _ _ _ h => h.2.elim) fun x hx => hx ▸ hvar
    obtain ⟨mi, hmi, e1, e2, hms⟩ := hfine
    simp only
    rw [M.bind_ok (getT_ok hmi), ← e1]
    have hcs := (dense_contig (s := s') (by omega))
    refine stays_viewOf hval1 ho1 hmi hms (fun j hj _ => .inr ?_) hcs.strides hcs.offset (fun idx hb => ?_) fun h0 => .inl (tame_contig (by omega) h0)
    · rw [hmi] at hj
      obtain rfl := Option.some.inj hj
      rw [e1, e2]
      exact ⟨dense_contig (by omega), hm⟩
    · have := (subView_contig hv (by omega)).pos idx hb
      rw [e2]
      exact ⟨_, this⟩
  | throw e H =>
    rw [hc] at h2 h3 h4
    exact ho.nk h2 h3 h4.1 (fun _ _ _ h => h.elim) fun _ h => h.elim
  | ub u => trivial

theorem stays_reshapeTail (hval : Valid h) (ho : Ordered h) {t : Nat} {b i : Impl} (hb : h.ts[t]? = some b) (hb1 : b.dtype = i.dtype)
    (hb2 : b.view = i.view) (hb3 : b.data = i.data) (hs : Sits h i) (hroom : Roomy h t)
    (ht : vol i.view.sizes ≠ 0 → Tame i.view.sizes i.view.strides) {s' : List Nat} (hm : Modest i.view.sizes i.dtype)
    (hv : vol s' = vol i.view.sizes) (hns : i.view.sizes = [] ↔ s' = []) : Stays (reshapeTail t s' i h) := by
  have hvol := hm.vol
  have hsb := hs.flags hb1 hb2 hb3
  have hclone := stays_reshapeClone hval ho hb hsb (by rw [hb1, hb2]; exact hm) (s' := s') (by rw [hb2]; exact hv)
  rw [hb1] at hclone
  by_cases h0 : vol i.view.sizes = 0
  · have hz' : vol s' = 0 := hv.trans h0
    have hne : s' ≠ [] := fun hc => by rw [hc] at hz'; simp [vol] at hz'
    have hne' : i.view.sizes ≠ [] := fun hc => by rw [hc] at h0; simp [vol] at h0
    unfold reshapeTail
    rw [if_neg (by have := hs.strides; omega), M.bind_def]
    cases hiso : isometry i.view.sizes i.view.strides with
    | throw e => exact ho
    | ub u => trivial
    | ok iso =>
      cases iso with
      | false => exact hclone
      | true =>
        show Stays (((do
          let strides ← if s'.length ≠ 0 then do
            let last ← M.lift (vecAt i.view.strides (i.view.strides.length - 1))
            pure (scaledStrides last s')
          else pure i.view.strides
          Tensor.makeView i.dtype ⟨s', strides, i.view.offset⟩ i.data t) : M F Nat) h)
        rw [if_pos (by simpa using hne)]
        have hlt : i.view.strides.length - 1 < i.view.strides.length := by
          have := List.length_pos_iff.2 hne'
          have := hs.strides
          omega
        have hlast : i.view.strides[i.view.strides.length - 1]? = some i.view.strides[i.view.strides.length - 1] := List.getElem?_eq_getElem hlt
        have e : vecAt i.view.strides (i.view.strides.length - 1) = .ok i.view.strides[i.view.strides.length - 1] := by
          unfold vecAt; rw [hlast]
        rw [e]
        show Stays (Tensor.makeView i.dtype ⟨s', scaledStrides i.view.strides[i.view.strides.length - 1] s', i.view.offset⟩ i.data t h)
        rw [← hb1, ← hb3]
        refine stays_viewOf (v := ⟨s', scaledStrides i.view.strides[i.view.strides.length - 1] s', i.view.offset⟩) hval ho hb hsb hroom
          (length_scaledStrides _ _) hs.offset (fun idx hbx => ?_) fun hc => absurd hz' hc
        have := InBox.vol_pos hbx
        simp only at this
        omega
  · obtain ⟨f, hf⟩ := hs.reads
    rcases reshapeTail_view (t := t) hf (ht h0) hv hns h with ⟨v, c, _, hvs, e, sv, h64⟩ | ⟨_, e⟩
    · rw [e, ← hb1, ← hb3]
      refine stays_viewOf hval ho hb hsb hroom sv.len sv.off (fun idx hbx => ⟨_, by rw [hb2]; exact sv.pos idx hbx⟩) fun h1 => .inr ⟨fun n hn => ?_, h64⟩
      have := le_vol h1 hn
      rw [hvs] at this
      omega
    · rw [e]; exact hclone

theorem stays_reshapeSizes (hval : Valid h) (ho : Ordered h) {t : Nat} (hv : Var h t) (hroom : Roomy h t) {i : Impl} (hi : h.ts[t]? = some i)
    {s' : List Nat} (hm : Modest i.view.sizes i.dtype) (hs' : vol s' < 4611686018427387904)
    (hns : i.requiresGrad = true → (i.view.sizes = [] ↔ s' = [])) : Stays (Tensor.reshapeSizes t s' h) := by
  obtain ⟨i', hi', hs, ht⟩ := hv
  rw [hi] at hi'
  obtain rfl := Option.some.inj hi'
  have hvol := hm.vol
  rw [reshapeSizes_eq, M.bind_ok (getT_ok hi), numel_eq_vol (by omega), numel_eq_vol (by omega)]
  by_cases hv : vol s' = vol i.view.sizes
  · rw [M.bind_ok (a := ()) (h' := h) (by rw [decide_eq_true hv]; rfl)]
    by_cases h1 : vol s' = 1
    · rw [if_pos h1]
      obtain ⟨f, hf⟩ := hs.reads
      have sv := subView_one hf hv (by omega)
      have hview := stays_viewOf hval ho hi hs hroom sv.len sv.off (fun idx hbx => ⟨_, sv.pos idx hbx⟩) fun h2 => .inr ⟨fun n hn => by
        have := le_vol h2 hn
        simp only at this
        omega, fun st hst => by rw [List.eq_of_mem_replicate hst]; constructor <;> decide⟩
      obtain ⟨h', hmk, vm⟩ := makeView_ok hi (fun _ g hg => hval.grad t g i hi hg) i.dtype ⟨s', List.replicate s'.length 1, i.view.offset⟩ i.data
      have hvalid : Valid h' := by
        have := valid_makeView (dt := i.dtype) (v := ⟨s', List.replicate s'.length 1, i.view.offset⟩) (d := i.data) (base := t) ⟨t, i, hi, rfl⟩
        unfold KeepsAt at this
        rw [hmk] at this
        exact VK.valid this hval
      rw [hmk] at hview
      rw [M.bind_ok hmk]
      cases hg : i.requiresGrad with
      | false => exact hview
      | true =>
        have k := vm.pres.retains
        obtain ⟨b, hb, b1, b2, b3⟩ := k.ts t i hi
        refine stays_reshapeTail hvalid hview hb b1 b2 b3 (hs.retains k) (fun j hj _ => .inl ?_) ht hm hv (hns hg)
        obtain ⟨b', _, g, _, _, _, e1, e2, _⟩ := vm.shared hg
        rw [hj] at e1
        obtain rfl := Option.some.inj e1
        rw [e2]; rfl
    · rw [if_neg h1]
      refine (stays_reshapeTail hval ho hi rfl rfl rfl hs hroom ht hm hv ⟨fun hc => ?_, fun hc => ?_⟩ : Stays (reshapeTail t s' i h))
      · rw [hc] at hv; exact absurd hv h1
      · rw [hc] at h1; exact absurd rfl h1
  · rw [M.bind_throw (e := .runtime) (h' := h) (by rw [decide_eq_false hv]; rfl)]
    exact ho

theorem stays_reshape (hval : Valid h) (ho : Ordered h) {t : Nat} (hv : Var h t) (hroom : Roomy h t) {i : Impl} (hi : h.ts[t]? = some i)
    {sizes : List Int} (hm : Modest i.view.sizes i.dtype) (h1 : ∀ z ∈ sizes, -1 ≤ z) (h2 : Modest ((sizes.filter (0 ≤ ·)).map Int.toNat) .i8)
    (h3 : i.requiresGrad = true → (i.view.sizes = [] ↔ sizes = [])) : Stays (Tensor.reshape t sizes h) := by
  have hvol := hm.vol
  unfold Tensor.reshape
  rw [M.bind_ok (getT_ok hi), numel_eq_vol (by omega), M.bind_def]
  have key := yields_regularize hvol h1 h2
  cases hc : regularizeSize sizes (vol i.view.sizes) with
  | throw e => exact ho
  | ub u => trivial
  | ok s' =>
    rw [hc] at key
    exact stays_reshapeSizes hval ho hv hroom hi hm key.1 fun hg => (h3 hg).trans key.2.symm

theorem stays_reshapeAs (hval : Valid h) (ho : Ordered h) {t u : Nat} (hv : Var h t) (hroom : Roomy h t) (hu : Var h u) {i : Impl}
    (hi : h.ts[t]? = some i) (hm : Modest i.view.sizes i.dtype) (h2 : Modest (shapeOf h u) .i8)
    (h3 : i.requiresGrad = true → (i.view.sizes = [] ↔ shapeOf h u = [])) : Stays (Tensor.reshapeAs t u h) := by
  obtain ⟨j, hj, _⟩ := hu
  rw [shapeOf_at hj] at h2 h3
  unfold Tensor.reshapeAs
  rw [M.bind_ok (getT_ok hj)]
  exact stays_reshapeSizes hval ho hv hroom hi hm h2.vol h3

end INNC
