import Verif.Lemmas.MemNew
import Verif.Lemmas.Regularize
import Verif.Lemmas.Runs
/-
Memory safety of the functions that make views, and of all calls of a careful program.
-/
namespace INNC
open Spec Tensor
variable {F : Type}

/-! ### Views of tensors in good order -/

theorem Sits.view {h : Heap F} {i j : Impl} (hs : Sits h i) (h1 : j.dtype = i.dtype) (h3 : j.data = i.data)
    (hl : j.view.strides.length = j.view.sizes.length) (ho : j.view.offset < 18446744073709551616)
    (hσ : ∀ idx, InBox j.view.sizes idx → ∃ idx', InBox i.view.sizes idx' ∧ position j.view idx = position i.view idx') : Sits h j := by
  obtain ⟨s, c, g1, g2, g3, g4, g5⟩ := hs.cells
  refine ⟨⟨hl, ho, s, c, by rw [h3]; exact g1, by rw [h1]; exact g2, g3, by rw [h1]; exact g4, fun idx hb => ?_⟩, fun p hp => ?_⟩
  · obtain ⟨idx', hb', e⟩ := hσ idx hb
    rw [e]; exact g5 idx' hb'
  · have key := hs.full p
    unfold Spot Ready at *
    rw [h1, h3] at *
    exact key hp

theorem inBox_single {s : List Nat} (h0 : vol s ≠ 0) {k n j : Nat} (hn : s[k]? = some n) (hj : j < n) :
    InBox s ((List.replicate s.length 0).set k j) := by
  refine inBox_iff.2 ⟨by simp, fun a m x hm hx => ?_⟩
  by_cases hk : k = a
  · subst hk
    have := getElem?_lt hm
    rw [List.getElem?_set_self (by simpa using this)] at hx
    rw [hn] at hm
    cases hm; cases hx; exact hj
  · rw [List.getElem?_set_ne hk, List.getElem?_replicate] at hx
    split at hx
    · cases hx
      refine Nat.pos_of_ne_zero fun hc => h0 (vol_eq_zero.2 ?_)
      rw [← hc]; exact List.mem_of_getElem? hm
    · cases hx

/-- Address computations on elements that lie in a storage do not overflow. -/
theorem tame_of {h : Heap F} {i : Impl} (hs : Sites h i) (h0 : vol i.view.sizes ≠ 0) (hn : ∀ n ∈ i.view.sizes, n ≤ 4611686018427387904)
    (hst : ∀ st ∈ i.view.strides, IsI64 st) : Tame i.view.sizes i.view.strides := by
  refine tame_iff.2 fun k n st hk hks => ⟨hn n (List.mem_of_getElem? hk), hst st (List.mem_of_getElem? hks), ?_⟩
  have hnpos : 0 < n := Nat.pos_of_ne_zero fun hc => h0 (vol_eq_zero.2 (by rw [← hc]; exact List.mem_of_getElem? hk))
  obtain ⟨s, c, _, _, _, h4, h5⟩ := hs.cells
  have hc := Nat.le_mul_of_pos_right c.length i.dtype.size_pos
  obtain ⟨p, e1, l1⟩ := h5 _ (inBox_single h0 hk hnpos)
  obtain ⟨q, e2, l2⟩ := h5 _ (inBox_single h0 hk (j := n - 1) (by omega))
  have hlen : k < i.view.sizes.length := getElem?_lt hk
  have hz : (List.replicate i.view.sizes.length 0)[k]? = some 0 := by rw [List.getElem?_replicate, if_pos hlen]
  unfold position at e1 e2
  rw [dot_set_right _ _ _ _ _ _ hks hz] at e1 e2
  rw [dot_replicate_zero] at e1 e2
  simp only [Nat.cast_zero, Int.sub_zero, Int.mul_zero, Int.zero_add] at e1 e2
  have hq : st * ((n - 1 : Nat) : Int) = q - i.view.offset := by omega
  have hp : (p : Int) = i.view.offset := by omega
  have habs : (st * ((n - 1 : Nat) : Int)).natAbs = st.natAbs * (n - 1) := by rw [Int.natAbs_mul, Int.natAbs_natCast]
  rw [← habs, hq]; omega

section
variable [FOps F] {h : Heap F}

theorem mem_makeView (hval : Valid h) {base : Nat} {b : Impl} (hb : h.ts[base]? = some b) (dt : DType) (v : Layout) (d : Nat) :
    Mem h (Tensor.makeView dt v d base h) fun r h' => ∃ j, h'.ts[r]? = some j ∧ j.dtype = dt ∧ j.view = v ∧ j.data = d := by
  obtain ⟨h', e, vm⟩ := makeView_ok hb (fun _ g hg => hval.grad base g b hb hg) dt v d
  rw [e]
  obtain ⟨j, hj, e1, e2, e3, _⟩ := vm.obj
  exact ⟨vm.pres.retains, j, hj, e1, e2, e3⟩

/-- A view of the elements of a variable is a variable. -/
theorem mem_viewOf (hval : Valid h) {base : Nat} {b i : Impl} (hb : h.ts[base]? = some b) (hs : Sits h i) {v : Layout}
    (hl : v.strides.length = v.sizes.length) (ho : v.offset < 18446744073709551616)
    (hσ : ∀ idx, InBox v.sizes idx → ∃ idx', InBox i.view.sizes idx' ∧ position v idx = position i.view idx')
    (ht : vol v.sizes ≠ 0 → (Tame v.sizes v.strides ∨ (∀ n ∈ v.sizes, n ≤ 4611686018427387904) ∧ ∀ st ∈ v.strides, IsI64 st)) :
    Mem h (Tensor.makeView i.dtype v i.data base h) fun r h' => Var h' r := by
  refine mem_mono (mem_makeView hval hb i.dtype v i.data) fun r h' k ⟨j, hj, e1, e2, e3⟩ => ?_
  have hsj : Sits h' j := (hs.retains k).view e1 e3 (by rw [e2]; exact hl) (by rw [e2]; exact ho) (by rw [e2]; exact hσ)
  refine ⟨j, hj, hsj, fun h0 => ?_⟩
  rcases ht (by rw [e2] at h0; exact h0) with h1 | ⟨h1, h2⟩
  · rw [e2]; exact h1
  · exact tame_of hsj.toSites h0 (by rw [e2]; exact h1) (by rw [e2]; exact h2)

theorem mem_detach {t : Nat} (hv : Var h t) : Mem h (Tensor.detach t h) fun r h' => Var h' r := by
  obtain ⟨i, hi, hs, ht⟩ := hv
  unfold Tensor.detach
  rw [M.bind_ok (getT_ok hi)]
  refine ⟨(Retains.mk (fun u k hk => ⟨k, getElem?_append_some hk _, rfl, rfl, rfl⟩) (Retains.refl h).st), ⟨i.dtype, i.view, i.data, none, false, false, none⟩, ?_, ?_, ht⟩
  · simp
  · exact Sits.flags (i := i) (hs.retains (Retains.mk (fun u k hk => ⟨k, getElem?_append_some hk _, rfl, rfl, rfl⟩) (Retains.refl h).st)) rfl rfl rfl

theorem vol_swapped {s : List Nat} {a b : Nat} (ha : a < s.length) (hb : b < s.length) (h0 : vol (swapped s a b) ≠ 0) : vol s ≠ 0 := by
  intro hc
  refine h0 (vol_eq_zero.2 ?_)
  obtain ⟨k, hk, e⟩ := List.getElem_of_mem (vol_eq_zero.1 hc)
  have hk' : s[k]? = some 0 := by rw [List.getElem?_eq_getElem hk, e]
  refine List.mem_of_getElem? (i := if k = a then b else if k = b then a else k) ?_
  rw [getElem?_swapped ha hb, ← hk']
  congr 1
  split_ifs <;> omega

theorem mem_transpose (hval : Valid h) {t a b : Nat} (hv : Var h t) : Mem h (Tensor.transpose t a b h) fun r h' => Var h' r := by
  obtain ⟨i, hi, hs, ht⟩ := hv
  by_cases hok : a < i.view.sizes.length ∧ b < i.view.sizes.length ∧ a ≠ b
  · obtain ⟨ha, hb, hab⟩ := hok
    have hl := hs.strides
    unfold Tensor.transpose
    rw [M.bind_ok (getT_ok hi), transposeLayout_ok hl ha hb hab, M.bind_ok (M.lift_ok _ _)]
    refine mem_viewOf hval hi hs (by simp only [length_swapped]; exact hl) hs.offset (fun idx hbx => ?_) fun h0 => .inl ?_
    · have hin := inBox_swapped ha hb hbx
      refine ⟨swapped idx a b, hin, ?_⟩
      have hlen := hbx.length
      simp only [length_swapped] at hlen
      unfold position
      simp only
      rw [dot_swapped hab (by omega) (by omega) (by omega)]
    · refine tame_iff.2 fun k n st hn hst => ?_
      simp only at hn hst
      rw [getElem?_swapped ha hb] at hn
      rw [getElem?_swapped (by omega) (by omega)] at hst
      exact tame_iff.1 (ht (vol_swapped ha hb h0)) _ n st hn hst
  · rw [transpose_throw hi (by omega)]
    exact .refl h

/-! ### Slices -/

theorem yields_ite {α : Type} {c : Prop} [Decidable c] {a b : Res α} {P : α → Prop} (ha : Yields a P) (hb : Yields b P) :
    Yields (if c then a else b) P := by
  by_cases h : c
  · rw [if_pos h]; exact ha
  · rw [if_neg h]; exact hb

theorem yields_stoll (s : Str) : Yields (stoll s) fun _ => True := by
  unfold stoll
  exact yields_ite trivial (yields_ite trivial trivial)

theorem yields_expect (b : Bool) : Yields (runExpect b) fun _ => b = true := by
  cases b
  · trivial
  · rfl

theorem yields_sMul (a b : Int) : Yields (sMul a b) fun _ => True := by
  unfold sMul
  split
  · trivial
  · exact .inl rfl

theorem yields_sSub (a b : Int) : Yields (sSub a b) fun _ => True := by
  unfold sSub
  split
  · trivial
  · exact .inl rfl

theorem yields_sAbs (a : Int) : Yields (sAbs a) fun _ => True := by
  unfold sAbs
  split
  · trivial
  · exact .inl rfl

theorem yields_pure {α : Type} {a : α} {P : α → Prop} (h : P a) : Yields (pure a : Res α) P := h

theorem yields_sliceIndex (p : Str) (n : Nat) (st : Int) : Yields (sliceIndex p n st) fun _ => n ≠ 0 := by
  unfold sliceIndex
  refine yields_bind (yields_stoll p) fun k _ => ?_
  refine yields_bind (yields_expect _) fun _ hb => ?_
  refine yields_mono (yields_sMul _ _) fun _ _ hn => ?_
  subst hn
  have h0 : wrapS ((0 : Nat) : Int) = 0 := by decide
  simp only [decide_eq_true_eq, h0] at hb
  omega

theorem yields_sliceRange (p0 p1 p2 : Str) (n : Nat) (st : Int) : Yields (sliceRange p0 p1 p2 n st) fun r => n = 0 → r.1 = 0 := by
  unfold sliceRange
  split
  · exact yields_pure fun _ => rfl
  · next hn =>
    refine yields_mono (P := fun _ => True) ?_ fun _ _ h0 => absurd h0 hn
    refine yields_bind (P := fun _ => True) ?_ fun step _ => ?_
    · unfold sliceStep
      split
      · exact yields_bind (yields_stoll _) fun _ _ => yields_bind (yields_expect _) fun _ _ => yields_pure trivial
      · exact yields_pure trivial
    refine yields_bind (P := fun _ => True) ?_ fun beg _ => ?_
    · unfold sliceBeg
      split
      · refine yields_bind (yields_stoll _) fun _ _ => ?_
        repeat' first | exact yields_pure trivial | refine yields_ite ?_ ?_
      · exact yields_pure trivial
    cases beg with
    | none => exact yields_pure trivial
    | some beg =>
      refine yields_bind (P := fun _ => True) ?_ fun e _ => ?_
      · unfold sliceEnd
        split
        · refine yields_bind (yields_stoll _) fun _ _ => ?_
          repeat' first | exact yields_pure trivial | refine yields_ite ?_ ?_
        · exact yields_pure trivial
      cases e with
      | none => exact yields_pure trivial
      | some e =>
        dsimp only
        split
        · exact yields_pure trivial
        · exact yields_bind (yields_sSub _ _) fun _ _ => yields_bind (yields_sAbs _) fun _ _ => yields_bind (yields_sAbs _) fun _ _ =>
            yields_bind (yields_sMul _ _) fun _ _ => yields_bind (yields_sMul _ _) fun _ _ => yields_pure trivial

theorem yields_sliceGo : ∀ (sizes : List Nat) (strides : List Int) (ds : List Str) (off : Nat), strides.length = sizes.length →
    off < 18446744073709551616 → Yields (sliceGo ds sizes strides off) fun r => r.2.1.length = r.1.length ∧ r.2.2 < 18446744073709551616 ∧
      (0 ∈ sizes → 0 ∈ r.1)
  | [], strides, ds, off, hl, ho => by
    rw [sliceGo]
    exact ⟨rfl, ho, by simp⟩
  | n :: ns, [], ds, off, hl, ho => by simp at hl
  | n :: ns, st :: sts, ds, off, hl, ho => by
    have hl' : sts.length = ns.length := by simpa using hl
    have ih := fun ds off ho => yields_sliceGo ns sts ds off hl' ho
    have hw : ∀ z : Int, wrapU z < 18446744073709551616 := fun z => by unfold wrapU; omega
    unfold sliceGo
    dsimp only
    split
    · refine yields_bind (yields_sliceIndex _ _ _) fun d hn => ?_
      refine yields_mono (ih _ _ (hw _)) fun r ⟨h1, h2, h3⟩ => ⟨h1, h2, fun h0 => h3 ?_⟩
      rcases List.mem_cons.1 h0 with rfl | h0
      · exact absurd rfl hn
      · exact h0
    · refine yields_bind (yields_sliceRange _ _ _ _ _) fun r hr => ?_
      obtain ⟨n', st', d⟩ := r
      refine yields_bind (ih _ _ (hw _)) fun r ⟨h1, h2, h3⟩ => ?_
      obtain ⟨ns', sts', off'⟩ := r
      refine yields_pure ⟨by simpa using h1, h2, fun h0 => ?_⟩
      rcases List.mem_cons.1 h0 with h0 | h0
      · have : n' = 0 := hr h0.symm
        simp [this]
      · exact List.mem_cons_of_mem _ (h3 h0)

theorem yields_and {α : Type} {r : Res α} {P : α → Prop} (hr : Yields r P) : Yields r fun a => P a ∧ r = .ok a := by
  cases r with
  | ok a => exact ⟨hr, rfl⟩
  | throw e => exact hr
  | ub u => exact hr

theorem mem_slice (hval : Valid h) {t : Nat} {s : Str} (hv : Var h t) : Mem h (Tensor.slice t s h) fun r h' => Var h' r := by
  obtain ⟨i, hi, hs, ht⟩ := hv
  unfold Tensor.slice
  rw [M.bind_ok (getT_ok hi)]
  refine mem_bind (mem_lift (Q := fun v h' => h' = h ∧ sliceLayout i.view s = .ok v ∧ v.strides.length = v.sizes.length ∧
    v.offset < 18446744073709551616 ∧ (0 ∈ i.view.sizes → 0 ∈ v.sizes) ∧
    ∃ ds, sliceGo ds i.view.sizes i.view.strides i.view.offset = .ok (v.sizes, v.strides, v.offset)) ?_) fun v h' k hq => ?_
  · refine yields_mono (yields_and (P := fun v => v.strides.length = v.sizes.length ∧
      v.offset < 18446744073709551616 ∧ (0 ∈ i.view.sizes → 0 ∈ v.sizes) ∧
      ∃ ds, sliceGo ds i.view.sizes i.view.strides i.view.offset = .ok (v.sizes, v.strides, v.offset)) ?_) fun v hv => ⟨rfl, hv.2, hv.1⟩
    unfold sliceLayout
    refine yields_bind (yields_expect _) fun _ _ => ?_
    refine yields_bind (yields_and (yields_sliceGo _ _ _ _ hs.strides hs.offset)) fun r hr => ?_
    obtain ⟨ns, sts, off⟩ := r
    exact yields_pure ⟨hr.1.1, hr.1.2.1, hr.1.2.2, _, hr.2⟩
  · obtain ⟨rfl, _, hl, ho, hz, ds, hgo⟩ := hq
    by_cases h0 : vol i.view.sizes = 0
    · have hz' : vol v.sizes = 0 := vol_eq_zero.2 (hz (vol_eq_zero.1 h0))
      refine mem_viewOf hval hi hs hl ho (fun idx hb => ?_) fun hc => absurd hz' hc
      have := hb.vol_pos
      omega
    · obtain ⟨f, hf⟩ := hs.reads
      obtain ⟨D, e, _, htame, σ, hσ⟩ := sliceGo_inv _ _ _ _ _ _ _ hs.strides (ht h0) hs.offset hgo
      refine mem_viewOf hval hi hs hl ho (fun idx hb => ?_) fun _ => .inl htame
      have := wrapped_offset hf hσ idx hb
      rw [← e] at this
      exact ⟨σ idx, this⟩

/-! ### Reshaping -/

omit [FOps F] in
theorem length_scaledStrides (last : Int) : ∀ s : List Nat, (scaledStrides last s).length = s.length
  | [] => rfl
  | [_] => rfl
  | a :: b :: s => by
    have ih := length_scaledStrides last (b :: s)
    unfold scaledStrides
    cases hc : scaledStrides last (b :: s) with
    | nil => rw [hc] at ih; simp at ih
    | cons x xs => rw [hc] at ih; simp at ih ⊢; omega

theorem yields_isometry : ∀ (sizes : List Nat) (strides : List Int), Yields (isometry sizes strides) fun _ => True
  | [], _ => yields_pure trivial
  | [_], _ => yields_pure trivial
  | _ :: _ :: _, [] => yields_pure trivial
  | _ :: _ :: _, [_] => yields_pure trivial
  | _ :: s :: ss, _ :: st1 :: sts => by
    unfold isometry
    exact yields_bind (yields_sMul _ _) fun _ _ => yields_bind (yields_isometry (s :: ss) (st1 :: sts)) fun _ _ => yields_pure trivial

theorem mem_reshapeClone (hval : Valid h) {t : Nat} {i : Impl} (hi : h.ts[t]? = some i) (hs : Sits h i) {s' : List Nat}
    (hm : Modest i.view.sizes i.dtype) (hv : vol s' = vol i.view.sizes) : Mem h ((do
      let m ← Tensor.clone t
      let mi ← getT m
      Tensor.makeView i.dtype (Layout.contig s') mi.data m : M F Nat) h) fun r h' => Var h' r := by
  have hvol := hm.vol
  have hval' : ∀ a h', Tensor.clone t h = .ok a h' → Valid h' := fun a h' e => by
    have := valid_clone (F := F) t h
    rw [e] at this
    exact VK.valid this hval
  have hmem : Mem h (Tensor.clone t h) fun r h' => Fine i.dtype i.view.sizes r h' ∧ Valid h' := by
    have h1 := mem_clone hi hs hm
    revert hval' h1
    cases Tensor.clone t h with
    | ok a h' => exact fun hval' h1 => ⟨h1.1, h1.2, hval' a h' rfl⟩
    | throw e h' => exact fun _ h1 => h1
    | ub u => exact fun _ h1 => h1
  refine mem_bind hmem fun m h1 k1 ⟨⟨mi, hmi, e1, e2, hms⟩, hval1⟩ => ?_
  rw [M.bind_ok (getT_ok hmi), ← e1]
  have hcs := (dense_contig (s := s') (by omega))
  refine mem_viewOf hval1 hmi hms hcs.strides hcs.offset (fun idx hb => ?_) fun h0 => .inl (tame_contig (by omega) h0)
  have := (subView_contig hv (by omega)).pos idx hb
  rw [e2]
  exact ⟨_, this⟩

/-- `i` is the tensor as it was when the function began. -/
theorem mem_reshapeTail (hval : Valid h) {t : Nat} {b i : Impl} (hb : h.ts[t]? = some b) (hb1 : b.dtype = i.dtype) (hb2 : b.view = i.view)
    (hb3 : b.data = i.data) (hs : Sits h i) (ht : vol i.view.sizes ≠ 0 → Tame i.view.sizes i.view.strides) {s' : List Nat}
    (hm : Modest i.view.sizes i.dtype) (hv : vol s' = vol i.view.sizes) (hns : i.view.sizes = [] ↔ s' = []) :
    Mem h (reshapeTail t s' i h) fun r h' => Var h' r := by
  have hvol := hm.vol
  have hclone := mem_reshapeClone hval hb (hs.flags hb1 hb2 hb3) (by rw [hb1, hb2]; exact hm) (s' := s') (by rw [hb2]; exact hv)
  rw [hb1] at hclone
  by_cases h0 : vol i.view.sizes = 0
  · have hz' : vol s' = 0 := hv.trans h0
    have hne : s' ≠ [] := fun hc => by rw [hc] at hz'; simp [vol] at hz'
    have hne' : i.view.sizes ≠ [] := fun hc => by rw [hc] at h0; simp [vol] at h0
    unfold reshapeTail
    rw [if_neg (by have := hs.strides; omega)]
    refine mem_bind (mem_lift (Q := fun _ h' => h' = h) (yields_mono (yields_isometry _ _) fun _ _ => rfl)) fun iso h1 k1 e => ?_
    subst e
    cases iso with
    | false => exact hclone
    | true =>
      simp only [if_true]
      rw [if_pos (by simpa using hne)]
      have hlt : i.view.strides.length - 1 < i.view.strides.length := by
        have := List.length_pos_iff.2 hne'
        have := hs.strides
        omega
      have hlast : i.view.strides[i.view.strides.length - 1]? = some i.view.strides[i.view.strides.length - 1] := List.getElem?_eq_getElem hlt
      have e : vecAt i.view.strides (i.view.strides.length - 1) = .ok i.view.strides[i.view.strides.length - 1] := by
        unfold vecAt; rw [hlast]
      rw [e, M.bind_ok (M.lift_ok _ _)]
      refine mem_viewOf (v := ⟨s', scaledStrides i.view.strides[i.view.strides.length - 1] s', i.view.offset⟩) hval hb hs
        (length_scaledStrides _ _) hs.offset (fun idx hbx => ?_) fun hc => absurd hz' hc
      have := InBox.vol_pos hbx
      simp only at this
      omega
  · obtain ⟨f, hf⟩ := hs.reads
    rcases reshapeTail_view (t := t) hf (ht h0) hv hns h with ⟨v, c, _, hvs, e, sv, h64⟩ | ⟨_, e⟩
    · rw [e]
      refine mem_viewOf hval hb hs sv.len sv.off (fun idx hbx => ⟨_, sv.pos idx hbx⟩) fun h1 => .inr ⟨fun n hn => ?_, h64⟩
      have := le_vol h1 hn
      rw [hvs] at this
      omega
    · rw [e]; exact hclone

omit [FOps F] in
theorem mem_step {α : Type} {h' : Heap F} {o : Out (Heap F) α} {Q : α → Heap F → Prop} (hk : Retains h h') (ho : Mem h' o Q) : Mem h o Q := by
  cases o with
  | ok a h2 => exact ⟨hk.trans ho.1, ho.2⟩
  | throw e h2 => exact hk.trans ho
  | ub u => exact ho

theorem mem_reshapeSizes (hval : Valid h) {t : Nat} (hv : Var h t) {i : Impl} (hi : h.ts[t]? = some i) {s' : List Nat}
    (hm : Modest i.view.sizes i.dtype) (hs' : vol s' < 4611686018427387904) (hns : i.requiresGrad = true → (i.view.sizes = [] ↔ s' = [])) :
    Mem h (Tensor.reshapeSizes t s' h) fun r h' => Var h' r := by
  obtain ⟨i', hi', hs, ht⟩ := hv
  rw [hi] at hi'
  obtain rfl := Option.some.inj hi'
  have hvol := hm.vol
  rw [reshapeSizes_eq, M.bind_ok (getT_ok hi), numel_eq_vol (by omega), numel_eq_vol (by omega)]
  by_cases hv : vol s' = vol i.view.sizes
  · rw [M.bind_ok (a := ()) (h' := h) (by rw [decide_eq_true hv]; rfl)]
    by_cases h1 : vol s' = 1
    · rw [if_pos h1]
      obtain ⟨f, hf⟩ := hs.reads
      have sv := subView_one hf hv (by omega)
      have hview := mem_viewOf hval hi hs sv.len sv.off (fun idx hbx => ⟨_, sv.pos idx hbx⟩) fun h2 => .inr ⟨fun n hn => by
        have := le_vol h2 hn
        simp only at this
        omega, fun st hst => by rw [List.eq_of_mem_replicate hst]; constructor <;> decide⟩
      have hvalid : ∀ r h', Tensor.makeView i.dtype ⟨s', List.replicate s'.length 1, i.view.offset⟩ i.data t h = .ok r h' → Valid h' := fun r h' e => by
        have := valid_makeView (dt := i.dtype) (v := ⟨s', List.replicate s'.length 1, i.view.offset⟩) (d := i.data) (base := t) ⟨t, i, hi, rfl⟩
        unfold KeepsAt at this
        rw [e] at this
        exact VK.valid this hval
      cases hmk : Tensor.makeView i.dtype ⟨s', List.replicate s'.length 1, i.view.offset⟩ i.data t h with
      | throw e h' => rw [M.bind_throw hmk]; rw [hmk] at hview; exact hview
      | ub u => rw [M.bind_ub hmk]; rw [hmk] at hview; exact hview
      | ok r h' =>
        rw [M.bind_ok hmk]
        rw [hmk] at hview
        obtain ⟨k, hr⟩ := hview
        refine mem_step k ?_
        cases hg : i.requiresGrad with
        | false => exact mem_pure hr
        | true =>
          obtain ⟨b, hb, b1, b2, b3⟩ := k.ts t i hi
          exact mem_reshapeTail (hvalid r h' hmk) hb b1 b2 b3 (hs.retains k) ht hm hv (hns hg)
    · rw [if_neg h1]
      refine (mem_reshapeTail hval hi rfl rfl rfl hs ht hm hv ⟨fun hc => ?_, fun hc => ?_⟩ : Mem h (reshapeTail t s' i h) _)
      · rw [hc] at hv; exact absurd hv h1
      · rw [hc] at h1; exact absurd rfl h1
  · rw [M.bind_throw (e := .runtime) (h' := h) (by rw [decide_eq_false hv]; rfl)]
    exact .refl h

/-! ### Sizes -/

theorem minusOnes : ∀ (l : List Int), (∀ z ∈ l, -1 ≤ z) → (∃ s : List Nat, l = s.map fun n : Nat => (n : Int)) ∨
    (∃ a b : List Nat, l = (a.map fun n : Nat => (n : Int)) ++ -1 :: b.map fun n : Nat => (n : Int)) ∨ ∃ a b c, l = a ++ -1 :: (b ++ -1 :: c)
  | [], _ => .inl ⟨[], rfl⟩
  | z :: l, h => by
    have ih := minusOnes l fun w hw => h w (by simp [hw])
    have hz := h z (by simp)
    by_cases h1 : z = -1
    · subst h1
      rcases ih with ⟨s, rfl⟩ | ⟨a, b, rfl⟩ | ⟨a, b, c, rfl⟩
      · exact .inr (.inl ⟨[], s, rfl⟩)
      · exact .inr (.inr ⟨[], _, _, rfl⟩)
      · exact .inr (.inr ⟨-1 :: a, b, c, rfl⟩)
    · have hz' : z = ((z.toNat : Nat) : Int) := by omega
      rcases ih with ⟨s, rfl⟩ | ⟨a, b, rfl⟩ | ⟨a, b, c, rfl⟩
      · exact .inl ⟨z.toNat :: s, by simp [← hz']⟩
      · exact .inr (.inl ⟨z.toNat :: a, b, by simp [← hz']⟩)
      · exact .inr (.inr ⟨z :: a, b, c, rfl⟩)

omit [FOps F] in
theorem vol_wrapU {s : List Nat} (hv : vol s < 4611686018427387904) : vol ((s.map fun n : Nat => (n : Int)).map wrapU) = vol s := by
  by_cases h0 : vol s = 0
  · rw [h0]
    refine vol_eq_zero.2 ?_
    have := vol_eq_zero.1 h0
    rw [List.map_map]
    exact List.mem_map.2 ⟨0, this, rfl⟩
  · rw [map_wrapU_nat fun n hn => by have := le_vol h0 hn; omega]

theorem filter_known (s : List Nat) : (((s.map fun n : Nat => (n : Int)).filter (0 ≤ ·)).map Int.toNat) = s := by
  rw [List.filter_eq_self.2 (by simp), List.map_map]
  conv => rhs; rw [← List.map_id s]
  exact List.map_congr_left fun n _ => by simp

theorem filter_infer (a b : List Nat) :
    ((((a.map fun n : Nat => (n : Int)) ++ -1 :: b.map fun n : Nat => (n : Int)).filter (0 ≤ ·)).map Int.toNat) = a ++ b := by
  rw [List.filter_append, List.filter_cons, List.map_append]
  simp only [show decide ((0 : Int) ≤ -1) = false from by decide, Bool.false_eq_true, if_false]
  rw [filter_known, filter_known]

theorem yields_regularize {l : List Int} {n : Nat} (hn : n < 4611686018427387904) (hl : ∀ z ∈ l, -1 ≤ z)
    (hm : Modest ((l.filter (0 ≤ ·)).map Int.toNat) .i8) :
    Yields (regularizeSize l n) fun s' => vol s' < 4611686018427387904 ∧ (s' = [] ↔ l = []) := by
  have hv := hm.vol
  rcases minusOnes l hl with ⟨s, rfl⟩ | ⟨a, b, rfl⟩ | ⟨a, b, c, rfl⟩
  · rw [filter_known] at hv
    unfold regularizeSize
    by_cases h0 : s = []
    · subst h0
      rw [if_pos (by simp)]
      exact yields_bind (yields_expect _) fun _ _ => yields_pure ⟨by decide, by simp⟩
    · rw [if_neg (by simpa using h0), findMinusOne_none]
      exact yields_pure ⟨by rw [vol_wrapU hv]; exact hv, by simp⟩
  · rw [filter_infer] at hv
    by_cases h0 : vol (a ++ b) = 0
    · unfold regularizeSize
      rw [if_neg (by simp), findMinusOne_one]
      show Yields (if prodExcept _ _ _ _ = 0 then _ else _) _
      rw [prodExcept_infer, h0, if_pos (by decide)]
      exact .inr (.inl rfl)
    · by_cases hd : vol (a ++ b) ∣ n
      · obtain ⟨m, rfl⟩ := hd
        have hmn := Nat.le_mul_of_pos_left m (Nat.pos_of_ne_zero h0)
        rw [regularizeSize_infer (m := m) (fun k hk => by have := le_vol h0 hk; omega) (Nat.pos_of_ne_zero h0) (by omega)
          (Nat.mul_comm _ _) (by omega)]
        refine ⟨?_, by simp⟩
        have : vol (a ++ m :: b) = vol (a ++ b) * m := by
          rw [vol_append, vol_append]
          show vol a * (m * vol b) = _
          rw [Nat.mul_comm m, Nat.mul_assoc]
        omega
      · rw [regularizeSize_indivisible (Nat.pos_of_ne_zero h0) (by omega) hd]
        trivial
  · rw [regularizeSize_two]
    trivial

theorem mem_reshape (hval : Valid h) {t : Nat} (hv : Var h t) {i : Impl} (hi : h.ts[t]? = some i) {sizes : List Int}
    (hm : Modest i.view.sizes i.dtype) (h1 : ∀ z ∈ sizes, -1 ≤ z) (h2 : Modest ((sizes.filter (0 ≤ ·)).map Int.toNat) .i8)
    (h3 : i.requiresGrad = true → (i.view.sizes = [] ↔ sizes = [])) : Mem h (Tensor.reshape t sizes h) fun r h' => Var h' r := by
  have hvol := hm.vol
  unfold Tensor.reshape
  rw [M.bind_ok (getT_ok hi), numel_eq_vol (by omega)]
  refine mem_bind (mem_lift (Q := fun s' h' => h' = h ∧ vol s' < 4611686018427387904 ∧ (s' = [] ↔ sizes = []))
    (yields_mono (yields_regularize hvol h1 h2) fun s' hs' => ⟨rfl, hs'⟩)) fun s' h' k ⟨e, e1, e2⟩ => ?_
  subst e
  exact mem_reshapeSizes hval hv hi hm e1 fun hg => (h3 hg).trans e2.symm

theorem mem_reshapeAs (hval : Valid h) {t u : Nat} (hv : Var h t) (hu : Var h u) {i : Impl} (hi : h.ts[t]? = some i)
    (hm : Modest i.view.sizes i.dtype) (h2 : Modest (shapeOf h u) .i8)
    (h3 : i.requiresGrad = true → (i.view.sizes = [] ↔ shapeOf h u = [])) : Mem h (Tensor.reshapeAs t u h) fun r h' => Var h' r := by
  obtain ⟨j, hj, _⟩ := hu
  rw [shapeOf_at hj] at h2 h3
  unfold Tensor.reshapeAs
  rw [M.bind_ok (getT_ok hj)]
  exact mem_reshapeSizes hval hv hi hm h2.vol h3

/-! ### Calls -/

theorem mem_some {x : M F Nat} (hx : Mem h (x h) fun t h' => Var h' t) : Mem h (some' x h) fun o h' => ∀ t, o = some t → Var h' t :=
  mem_bind hx fun t h' _ ht => mem_pure fun u hu => by obtain rfl := Option.some.inj hu; exact ht

theorem mem_none {α : Type} {x : M F α} {Q : α → Heap F → Prop} (hx : Mem h (x h) Q) : Mem h (none' x h) fun o h' => ∀ t, o = some t → Var h' t :=
  mem_bind hx fun t h' _ _ => mem_pure fun u hu => by cases hu

theorem mem_fine {x : M F Nat} {dt : DType} {s : List Nat} (hx : Mem h (x h) fun t h' => Fine dt s t h') (hm : Modest s dt) :
    Mem h (some' x h) fun o h' => ∀ t, o = some t → Var h' t := mem_some (mem_mono hx fun _ _ _ hf => hf.var hm)

/-- Calls of a careful program: no undefined behaviour but what element values cause, and everything stays in good order. -/
theorem mem_call (hval : Valid h) {c : Call F} (ha : Allowed h c) (hv : ∀ a ∈ args c, Var h a) :
    Mem h (c.run h) fun o h' => ∀ t, o = some t → Var h' t := by
  have one : ∀ {t : Nat}, t ∈ args c → ∃ i, h.ts[t]? = some i ∧ Var h t ∧ Sits h i := fun {t} ht => by
    have hv' := hv t ht
    obtain ⟨i, hi, hs, _⟩ := hv'
    exact ⟨i, hi, hv t ht, hs⟩
  cases c with
  | scalar dt v => exact mem_fine (mem_createScalar ha) (modest_scalar dt)
  | empty => exact ha.elim
  | init tree => exact mem_init ha
  | ones s dt => exact mem_fine (mem_fillNew (hasType_small (F := F) (by omega) rfl) ha) ha
  | zeros s dt => exact mem_fine (mem_zeros ha) ha
  | onesLike t =>
    obtain ⟨i, hi, _⟩ := one (t := t) (by simp [args])
    refine mem_fine (dt := i.dtype) (s := i.view.sizes) ?_ (ha i hi)
    unfold Tensor.onesLike
    rw [M.bind_ok (getT_ok hi)]
    exact mem_fillNew (hasType_small (F := F) (by omega) rfl) (ha i hi)
  | zerosLike t =>
    obtain ⟨i, hi, _⟩ := one (t := t) (by simp [args])
    refine mem_fine (dt := i.dtype) (s := i.view.sizes) ?_ (ha i hi)
    unfold Tensor.zerosLike
    rw [M.bind_ok (getT_ok hi)]
    exact mem_zeros (ha i hi)
  | fullInt s n dt => exact mem_fine (mem_fillNew ((hasType_i (F := F)).2 ⟨rfl, ha.2⟩) ha.1) ha.1
  | fullReal s x dt => exact mem_fine (mem_fillNew (hasType_f.2 rfl) ha) ha
  | eye n m dt => exact mem_fine (mem_eye ha) ha
  | fromBlob data s dt => exact mem_fine (mem_fromBlob ha.1 ha.2.1 ha.2.2) ha.1
  | randn rnd s dt => exact mem_some (mem_mono (mem_randn ha) fun _ _ _ hf => hf.2.var hf.1)
  | randnLike rnd t =>
    obtain ⟨i, hi, _⟩ := one (t := t) (by simp [args])
    unfold Call.run
    dsimp only
    rw [M.bind_ok (getT_ok hi)]
    exact mem_some (mem_mono (mem_randn (ha i hi)) fun _ _ _ hf => hf.2.var hf.1)
  | slice t s => exact mem_some (mem_slice hval (hv t (by simp [args])))
  | transpose t a b => exact mem_some (mem_transpose hval (hv t (by simp [args])))
  | reshape t sizes =>
    obtain ⟨i, hi, hvt, _⟩ := one (t := t) (by simp [args])
    obtain ⟨a1, a2, a3, a4⟩ := ha i hi
    exact mem_some (mem_reshape hval hvt hi a1 a2 a3 a4)
  | reshapeAs t u =>
    obtain ⟨i, hi, hvt, _⟩ := one (t := t) (by simp [args])
    obtain ⟨a1, a2, a3⟩ := ha i hi
    exact mem_some (mem_reshapeAs hval hvt (hv u (by simp [args])) hi a1 a2 a3)
  | detach t => exact mem_some (mem_detach (hv t (by simp [args])))
  | clone t =>
    obtain ⟨i, hi, _, hs⟩ := one (t := t) (by simp [args])
    exact mem_fine (mem_clone hi hs (ha i hi)) (ha i hi)
  | contiguous t =>
    obtain ⟨i, hi, _, hs⟩ := one (t := t) (by simp [args])
    exact mem_fine (mem_clone hi hs (ha i hi)) (ha i hi)
  | toType t dt => exact mem_some (mem_toType (hv t (by simp [args])) ha)
  | add l r => exact mem_some (mem_applyBinary (.inl ⟨rfl, fills_add⟩) (hv l (by simp [args])) (hv r (by simp [args])) ha)
  | sub l r => exact mem_some (mem_applyBinary (.inr ⟨rfl, fills_sub⟩) (hv l (by simp [args])) (hv r (by simp [args])) ha)
  | mul l r => exact mem_some (mem_applyBinary (.inl ⟨rfl, fills_mul⟩) (hv l (by simp [args])) (hv r (by simp [args])) ha)
  | div l r => exact mem_some (mem_applyBinary (.inr ⟨rfl, fills_div⟩) (hv l (by simp [args])) (hv r (by simp [args])) ha)
  | pos t => exact mem_some (mem_pure (hv t (by simp [args])))
  | neg t => exact mem_some (mem_neg (hv t (by simp [args])) ha)
  | cmp op l r => exact mem_some (mem_cmp (hv l (by simp [args])) (hv r (by simp [args])) ha)
  | sum t => exact mem_some (mem_sum (hv t (by simp [args])))
  | mean t => exact mem_some (mem_mean (hv t (by simp [args])))
  | abs t =>
    obtain ⟨i, hi, hvt, _⟩ := one (t := t) (by simp [args])
    exact mem_some (mem_abs hi hvt (ha i hi).1 (ha i hi).2)
  | max t =>
    obtain ⟨i, hi, hvt, _⟩ := one (t := t) (by simp [args])
    exact mem_some (mem_extreme hi hvt (ha i hi).1 (ha i hi).2)
  | min t =>
    obtain ⟨i, hi, hvt, _⟩ := one (t := t) (by simp [args])
    exact mem_some (mem_extreme hi hvt (ha i hi).1 (ha i hi).2)
  | cat ts d => exact mem_some (mem_cat ha.1 (fun t ht => hv t ht) ha.2)
  | addAssign t r => exact mem_none (mem_addAssign (hv t (by simp [args])) (hv r (by simp [args])))
  | setRequiresGrad t b => exact mem_none (mem_setRequiresGrad (hv t (by simp [args])))
  | setRetainGrad t b => exact mem_none (mem_setRetainGrad (hv t (by simp [args])))
  | zeroGrad t => exact mem_none (mem_zeroGrad hval (hv t (by simp [args])))
  | release => exact ha.elim
  | backward => exact ha.elim
  | grad => exact ha.elim
  | all t => exact mem_none (mem_all (hv t (by simp [args])))
  | toString t => exact mem_none (mem_toString (hv t (by simp [args])))
  | stride t => exact mem_none (mem_stride (hv t (by simp [args])))
  | query t =>
    obtain ⟨i, hi, _⟩ := one (t := t) (by simp [args])
    exact mem_none (mem_getT hi)

theorem Spec.Careful.history {vs : List Nat} (hc : Careful h vs) : History h := by
  induction hc with
  | start => exact .start
  | returned _ _ _ e ih => exact .returned ih e
  | threw _ _ _ e ih => exact .threw ih e

theorem careful_vars {vs : List Nat} (hc : Careful h vs) : ∀ t ∈ vs, Var h t := by
  induction hc with
  | start => simp
  | @returned h h' vs c o hc ha hin e ih =>
    have := mem_call (valid_history hc.history) ha fun a ha => ih a (hin a ha)
    rw [e] at this
    intro t ht
    rcases List.mem_append.1 ht with ht | ht
    · exact this.2 t (by simpa using ht)
    · exact (ih t ht).retains this.1
  | @threw h h' vs c ex hc ha hin e ih =>
    have := mem_call (valid_history hc.history) ha fun a ha => ih a (hin a ha)
    rw [e] at this
    exact fun t ht => (ih t ht).retains this

omit [FOps F] in
theorem var_sound {t : Nat} : Var h t ↔ Sound h t := by
  constructor
  · rintro ⟨i, hi, hs, ht⟩
    obtain ⟨s, c, h1, h2, h3, h4, h5⟩ := hs.cells
    refine ⟨i, s, c, hi, h1, h2, h3, h4, fun p hp => ?_, h5, hs.strides, hs.offset, ht⟩
    obtain ⟨s', c', v, g1, _, g3, g4, g5⟩ := hs.full p ⟨s, c, h1, h2, h3, hp⟩
    rw [h1] at g1
    obtain rfl := Option.some.inj g1
    rw [h3] at g3
    obtain rfl := Option.some.inj g3
    exact ⟨v, g4, g5⟩
  · rintro ⟨i, s, c, hi, h1, h2, h3, h4, h5, h6, h7, h8, h9⟩
    refine ⟨i, hi, ⟨⟨h7, h8, s, c, h1, h2, h3, h4, h6⟩, fun p hp => ?_⟩, h9⟩
    obtain ⟨s', c', g1, _, g3, g4⟩ := hp
    rw [h1] at g1
    obtain rfl := Option.some.inj g1
    rw [h3] at g3
    obtain rfl := Option.some.inj g3
    obtain ⟨v, e, hv⟩ := h5 p g4
    exact ⟨s, c, v, h1, h2, h3, e, hv⟩

theorem chain_sound {h' : Heap F} {t t' : Nat} (hc : Chain h t h' t') (hh : History h) (hs : Var h t) : History h' ∧ Var h' t' := by
  induction hc with
  | start => exact ⟨hh, hs⟩
  | @step h1 h2 u r c _ hv ha e ih =>
    have := mem_call (valid_history ih.1) ha fun a hin => by
      have hau : a = u := by cases c <;> simp_all [MakesView, args]
      rw [hau]; exact ih.2
    rw [e] at this
    exact ⟨ih.1.returned e, this.2 r rfl⟩

/-! ### States of careful programs -/

/-- The state after a list of calls. -/
def heapAfter (cs : List (Call F)) : Heap F := (runs cs Heap.empty).getD Heap.empty

theorem runs_append : ∀ (cs : List (Call F)) (c : Call F) {h h1 : Heap F}, runs cs h = some h1 → runs (cs ++ [c]) h = runs [c] h1
  | [], c, h, h1, e => by simp [runs] at e; subst e; rfl
  | d :: cs, c, h, h1, e => by
    simp only [List.cons_append, runs] at e ⊢
    cases hr : d.run h with
    | ok r h2 => rw [hr] at e; exact runs_append cs c e
    | throw r h2 => rw [hr] at e; exact runs_append cs c e
    | ub u => rw [hr] at e; simp at e

/-- What a call returned. -/
def returnedBy {α β : Type} : Out α β → Option β
  | .ok b _ => some b
  | _ => none

theorem careful_next {cs : List (Call F)} {c : Call F} {vs : List Nat} {o : Option Nat} (hc : Careful (heapAfter cs) vs) (hr : (runs cs Heap.empty).isSome)
    (ha : Allowed (heapAfter cs) c) (hin : ∀ a ∈ args c, a ∈ vs) (ho : returnedBy (c.run (heapAfter cs)) = some o) :
    Careful (heapAfter (cs ++ [c])) (o.toList ++ vs) := by
  obtain ⟨h1, e⟩ := Option.isSome_iff_exists.1 hr
  have e1 : heapAfter cs = h1 := by unfold heapAfter; rw [e]; rfl
  cases hrun : c.run (heapAfter cs) with
  | ok o' h2 =>
    have e2 : heapAfter (cs ++ [c]) = h2 := by
      unfold heapAfter
      rw [runs_append cs c e, ← e1]
      simp [runs, hrun]
    rw [hrun] at ho
    obtain rfl := Option.some.inj ho
    rw [e2]
    exact .returned hc ha hin hrun
  | throw x h2 => rw [hrun] at ho; cases ho
  | ub u => rw [hrun] at ho; cases ho

end
end INNC
