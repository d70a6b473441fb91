import Verif.Lemmas.OutcomeUnary
import Verif.Lemmas.Outcome
import Verif.Lemmas.ViewOps
import Verif.Lemmas.MemNew
import Verif.Spec.Laws
/-
Undefined conversions, views of views, views of results.
-/
namespace INNC
open Spec
variable {F : Type} [FOps F]

theorem Holding.alloc (h : Heap F) (dt : DType) (s : List Nat) : Holding (h.alloc dt s) h.st.length dt (vol s) :=
  ⟨_, _, alloc_getS h dt s, rfl, rfl, by simp⟩

theorem toType_undefined {h : Heap F} {t : Nat} {i : Impl} {dt : DType} {f : List Nat → Val F} (hi : h.ts[t]? = some i)
    (hr : Reads h i f) (hne : dt ≠ i.dtype) (hgrad : ¬ (i.requiresGrad = true ∧ isInteger dt = true))
    (hsz : vol i.view.sizes * dt.size < 9223372036854775808)
    (hx : ∃ idx, InBox i.view.sizes idx ∧ convert i.dtype dt (f idx) = none) : Tensor.toType t dt h = .ub .floatToInt := by
  obtain ⟨x, hxb, hxx⟩ := hx
  unfold Tensor.toType
  rw [M.bind_ok (getT_ok hi)]
  rw [if_neg (by simp [isInt_eq]; simpa using hgrad), if_neg hne]
  rw [M.bind_ok (create_ok hsz h), M.bind_ok (getT_ok (alloc_getT h _ _))]
  have hw := slots_alloc (dt := dt) hsz h
  have hne' : i.data ≠ h.st.length := by have := hr.data_lt; omega
  have hpos : ∀ y, InBox i.view.sizes y → wrapU ((newImpl dt i.view.sizes h.st.length).view.pos y) < vol i.view.sizes := by
    intro y hy
    obtain ⟨s, c, h1, _, h2, _, h3⟩ := hw.cells
    obtain ⟨p, hp, hlt⟩ := h3 y hy
    have h1' : (h.alloc dt i.view.sizes).st[h.st.length]? = some s := h1
    rw [alloc_getS] at h1'
    obtain rfl := Option.some.inj h1'
    obtain rfl := Option.some.inj h2
    rw [(hw.wrap hy).1, hp]
    simpa using hlt
  have key : ∃ u, copyLoop dt i.dtype (newImpl dt i.view.sizes h.st.length) i (h.alloc dt i.view.sizes) = .ub u ∧ u = .floatToInt := by
    unfold copyLoop
    rw [forEach_eq]
    have hbody : ∀ y, InBox i.view.sizes y → ∀ H : Heap F, Reads H i f ∧ Holding H h.st.length dt (vol i.view.sizes) →
        (convert i.dtype dt (f y) ≠ none ∧ ∃ H', (do
          let x ← load i.dtype i (← M.lift (cntFromIndex i.view y))
          let x ← M.lift (cConv i.dtype dt x)
          store dt (newImpl dt i.view.sizes h.st.length) (← M.lift (cntFromIndex (newImpl dt i.view.sizes h.st.length).view y)) x : M F Unit) H =
            .ok () H' ∧ Reads H' i f ∧ Holding H' h.st.length dt (vol i.view.sizes)) ∨ ∃ u, (do
          let x ← load i.dtype i (← M.lift (cntFromIndex i.view y))
          let x ← M.lift (cConv i.dtype dt x)
          store dt (newImpl dt i.view.sizes h.st.length) (← M.lift (cntFromIndex (newImpl dt i.view.sizes h.st.length).view y)) x : M F Unit) H =
            .ub u ∧ u = .floatToInt := by
      intro y hy H hH
      obtain ⟨hH1, hH2⟩ := hH
      rw [← bind_assoc, M.bind_ok (hH1.load_index hy), cConv_eq (hr.typed y hy)]
      cases he : convert i.dtype dt (f y) with
      | none => exact .inr ⟨_, rfl, rfl⟩
      | some z =>
        refine .inl ⟨by simp, ?_⟩
        simp only [ofOption]
        rw [M.bind_ok (M.lift_ok _ _), hw.index hy, M.bind_ok (M.lift_ok _ _)]
        rcases store_holding (p := wrapU ((newImpl dt i.view.sizes h.st.length).view.pos y)) (v := z)
          (i := newImpl dt i.view.sizes h.st.length) hH2 with ⟨hlt, c, hc, e⟩ | ⟨hlt, e⟩
        · exact ⟨_, e, hH1.setCells_ne hne' c, hH2.set _ hc⟩
        · have := hpos y hy
          omega
    refine runAll_undef (Inv := fun H => Reads H i f ∧ Holding H h.st.length dt (vol i.view.sizes)) ?_ ⟨x, mem_rowMajor.2 hxb, ?_⟩ _
      ⟨hr.of_extends (extends_alloc h dt i.view.sizes), Holding.alloc h dt i.view.sizes⟩
    · intro y hy H hH
      exact (hbody y (mem_rowMajor.1 hy) H hH).imp (fun hc => hc.2) id
    · intro H hH
      rcases hbody x hxb H hH with ⟨h1, _⟩ | hu
      · exact absurd hxx h1
      · exact hu
  obtain ⟨u, e, rfl⟩ := key
  exact M.bind_ub e

/-! ### Views of views -/

omit [FOps F] in
/-- A view of a view is a view. -/
theorem view_trans {x : M F Nat} {K : Nat → M F Nat} {h : Heap F} {t : Nat} {dt : DType} {s s' : List Nat} {f : List Nat → Val F}
    {σ τ : List Nat → List Nat} (h1 : ReturnsView (x h) h t dt s f σ)
    (h2 : ∀ r h', x h = .ok r h' → Denotes h' r dt s (fun idx => f (σ idx)) → Viewable h' r →
      ReturnsView (K r h') h' r dt s' (fun idx => f (σ idx)) τ) :
    ReturnsView ((x >>= K) h) h t dt s' f (fun idx => σ (τ idx)) := by
  obtain ⟨r, h', e, hd, hp, hs, hpr, hle, hv', hk⟩ := h1
  obtain ⟨r', h'', e', hd', hp', hs', hpr', hle', hv'', hk'⟩ := h2 r h' e hd hv'
  have hlt : r < h'.ts.length := by
    obtain ⟨_, _, _, e, _⟩ := hs
    exact getElem?_lt e
  refine ⟨r', h'', by rw [M.bind_ok e]; exact e', hd', fun idx hbx => ?_, ?_, hpr.trans hpr',
    Nat.le_trans hle (Nat.le_trans (Nat.le_of_lt hlt) hle'), hv'', fun u hu => hk' u (hk u hu)⟩
  · obtain ⟨i1, j1, a1, a2, a3, a4, a5, a6⟩ := hp' idx hbx
    obtain ⟨i2, j2, b1, b2, b3, b4, b5, b6⟩ := hp (τ idx) (by
      obtain ⟨x, hx, _, hsz, _⟩ := hd
      obtain ⟨y, hy, _, hyv, _⟩ := hpr'.ts _ _ hx
      rw [hy] at a2
      obtain rfl := Option.some.inj a2
      rw [hyv, hsz] at a5
      exact a5)
    obtain ⟨y, hy, _, hyv, hyd⟩ := hpr'.ts _ _ b1
    obtain ⟨z, hz, _, hzv, hzd⟩ := hpr'.ts _ _ b2
    rw [hy] at a2
    obtain rfl := Option.some.inj a2
    exact ⟨i1, z, a1, hz, by rw [a3, hyd, b3, hzd], a4, by rw [hzv]; exact b5, by rw [a6, hyv, b6, hzv]⟩
  · obtain ⟨i1, j1, a1, a2, a3⟩ := hs
    obtain ⟨i2, j2, b1, b2, b3⟩ := hs'
    obtain ⟨y, hy, _, hyv, hyd⟩ := hpr'.ts _ _ a2
    obtain ⟨z, hz, _, hzv, hzd⟩ := hpr'.ts _ _ a1
    rw [hy] at b1
    obtain rfl := Option.some.inj b1
    exact ⟨z, j2, hz, b2, by rw [hzd, a3, ← hyd, b3]⟩

/-! ### The size of a slice -/

theorem pyLen_le {n : Nat} {a b c : Option Int} (hc : c ≠ some 0) : pyLen n a b c ≤ n := by
  have hk : c.getD 1 ≠ 0 := by cases c <;> simp_all
  unfold pyLen pyCount
  generalize c.getD 1 = k at hk
  have aux : ∀ x k : Int, 0 < k → x ≤ n → ((x + k - 1) / k).toNat ≤ n := by
    intro x k hk hx
    have : (x + k - 1) / k < n + 1 := by
      apply Int.ediv_lt_of_lt_mul hk
      nlinarith
    omega
  split
  · rename_i h
    refine aux _ k h ?_
    unfold pyStart pyStop
    cases a <;> cases b <;> simp only [if_pos h] <;> omega
  · rename_i h
    refine aux _ (-k) (by omega) ?_
    unfold pyStart pyStop
    cases a <;> cases b <;> simp only [if_neg h] <;> omega

theorem pyLen_upto {n m : Nat} (h : m ≤ n) : pyLen n none (some (m : Int)) none = m := by
  have : ¬ ((m : Int) < 0) := by omega
  simp only [pyLen, pyCount, pyStart, pyStop, fromEnd, Option.getD_none, Int.zero_lt_one, if_true, this, if_false]
  omega

theorem pyLen_from {n m : Nat} (h : m ≤ n) : pyLen n (some (m : Int)) none none = n - m := by
  have : ¬ ((m : Int) < 0) := by omega
  simp only [pyLen, pyCount, pyStart, pyStop, fromEnd, Option.getD_none, Int.zero_lt_one, if_true, this, if_false]
  omega

theorem pyAt_upto (n j : Nat) : pyAt n none none j = j := by
  simp only [pyAt, pyStart, Option.getD_none, Int.zero_lt_one, if_true]
  omega

theorem pyAt_from {n m : Nat} (h : m ≤ n) (j : Nat) : pyAt n (some (m : Int)) none j = m + j := by
  have : ¬ ((m : Int) < 0) := by omega
  simp only [pyAt, pyStart, fromEnd, Option.getD_none, Int.zero_lt_one, if_true, this, if_false]
  omega

theorem inBox_split : ∀ {pre post : List Nat} {n : Nat} {idx : List Nat}, InBox (pre ++ n :: post) idx →
    ∃ u j v, idx = u ++ j :: v ∧ u.length = pre.length ∧ j < n
  | [], _, _, j :: v, h => ⟨[], j, v, rfl, rfl, h.1⟩
  | _ :: pre, post, n, i :: idx, h => by
    obtain ⟨u, j, v, rfl, hl, hj⟩ := inBox_split (pre := pre) (post := post) (n := n) h.2
    exact ⟨i :: u, j, v, rfl, by simp [hl], hj⟩
  | [], _, _, [], h => by cases h
  | _ :: _, _, _, [], h => by cases h

theorem vol_selShape : ∀ {specs : List AxisSpec} {s : List Nat}, 0 ∉ s → Selects specs s → vol (selShape specs s) ≤ vol s
  | [], s, _, _ => by cases s <;> exact Nat.le_refl _
  | _ :: _, [], _, h => by cases h
  | .index k :: ss, n :: ns, h0, hs => by
    simp only [List.mem_cons, not_or] at h0
    have := vol_selShape h0.2 hs.2
    show vol (selShape ss ns) ≤ n * vol ns
    exact Nat.le_trans this (Nat.le_mul_of_pos_left _ (by omega))
  | .range a b c :: ss, n :: ns, h0, hs => by
    simp only [List.mem_cons, not_or] at h0
    exact Nat.mul_le_mul (pyLen_le hs.1) (vol_selShape h0.2 hs.2)

theorem vol_set : ∀ {s : List Nat} {i n : Nat} (x : Nat), s[i]? = some n → vol (s.set i x) * n = vol s * x
  | [], _, _, _, h => by cases h
  | a :: s, 0, n, x, h => by
    obtain rfl : a = n := by simpa using h
    show x * vol s * a = a * vol s * x
    ring
  | a :: s, i + 1, n, x, h => by
    have := vol_set x (s := s) (i := i) (n := n) (by simpa using h)
    show a * vol (s.set i x) * n = a * vol s * x
    rw [Nat.mul_assoc, this, Nat.mul_assoc]

theorem vol_swap {s : List Nat} {a b : Nat} (h0 : 0 ∉ s) (ha : a < s.length) (hb : b < s.length) (hab : a ≠ b) :
    vol (swapped s a b) = vol s := by
  have ea := List.getElem?_eq_getElem ha
  have eb := List.getElem?_eq_getElem hb
  rw [swapped_of ea eb]
  have h1 := vol_set s[b] ea
  have h2 := vol_set (s := s.set a s[b]) (i := b) (n := s[b]) s[a] (by rw [List.getElem?_set_ne hab]; exact eb)
  have hne : s[b] ≠ 0 := fun hc => h0 (hc ▸ List.getElem_mem hb)
  exact Nat.eq_of_mul_eq_mul_right (Nat.pos_of_ne_zero hne) (h2.trans h1)

theorem viewable_contig {h : Heap F} {t : Nat} {j : Impl} {s : List Nat} (hj : h.ts[t]? = some j) (hg : j.grad = none)
    (hv : j.view = Layout.contig s) (h0 : 0 ∉ s) (hs : vol s < 4611686018427387904) : Viewable h t :=
  ⟨j, hj, by rw [hv]; exact tame_contig hs (fun hc => h0 (vol_eq_zero.1 hc)), fun g e => by rw [hg] at e; cases e⟩

/-! ### Element-wise operations on views -/

theorem maxShape_self (s : List Nat) : maxShape s s = s := by
  unfold maxShape
  simp

/-- An operation that combines the elements of two tensors of the same shape by `e`, into a new contiguous tensor of type `dt`. -/
def Pointwise (P : Nat → Nat → M F Nat) (dl dr dt : DType) (e : Val F → Val F → Option (Val F)) : Prop :=
  ∀ (H : Heap F) x y sh fx fy g, Denotes H x dl sh fx → Denotes H y dr sh fy → vol sh * dt.size < 9223372036854775808 →
    (∀ idx, InBox sh idx → e (fx idx) (fy idx) = some (g idx)) →
    ∃ t H', P x y H = .ok t H' ∧ Denotes H' t dt sh g ∧ Extends H H' ∧
      ∃ j, H'.ts[t]? = some j ∧ j.grad = none ∧ j.view = Layout.contig sh

theorem pointwise_arith (op : AOp) (dl dr : DType) : Pointwise (F := F) (arithT op) dl dr (later dl dr) (elemBinary op dl dr) := by
  intro H x y sh fx fy g hx hy hsz hg
  obtain ⟨h', e, d, ex, _, j⟩ := arith_all (op := op) (g := g) hx hy (by rw [maxShape_self]; exact hsz) (by
    rw [maxShape_self]
    intro idx hb
    unfold Meets
    rw [project_self hb]
    exact ⟨⟨hb, hb⟩, hg idx hb⟩)
  rw [maxShape_self] at d j
  exact ⟨_, h', e, d, ex, j⟩

theorem pointwise_cmp (op : COp) (dl dr : DType) : Pointwise (F := F) (Tensor.cmp op) dl dr .i8
    (fun x y => some (.i (if elemCompare op dl dr x y then 1 else 0))) := by
  intro H x y sh fx fy g hx hy hsz hg
  obtain ⟨h', e, b⟩ := cmp_all (op := op) hx hy (by rw [maxShape_self]; simpa [DType.size] using hsz) (by
    rw [maxShape_self]
    intro idx hb
    unfold Meets
    rw [project_self hb]
    exact ⟨hb, hb⟩)
  have d := b.denotes
  obtain ⟨w, hw, _⟩ := b.obj
  rw [maxShape_self] at d hw
  refine ⟨_, h', e, d.congr fun idx hb => ?_, b.ext, _, hw, rfl, rfl⟩
  rw [project_self hb]
  exact Option.some.inj (hg idx hb)

theorem pointwise_view {P : Nat → Nat → M F Nat} {dl dr dt : DType} {e : Val F → Val F → Option (Val F)} (hP : Pointwise P dl dr dt e)
    {K : Nat → M F Nat} {Q : List Int → Prop} {s s' : List Nat} {σ : List Nat → List Nat}
    (hK : ∀ (H : Heap F) x dx fx, Denotes H x dx s fx → Viewable H x → (∀ i, H.ts[x]? = some i → Q i.view.strides) →
      ReturnsView (K x H) H x dx s' fx σ)
    {h : Heap F} {l r : Nat} {fl fr g : List Nat → Val F} (hl : Denotes h l dl s fl) (hr : Denotes h r dr s fr)
    (hvl : Viewable h l) (hvr : Viewable h r) (hql : ∀ i, h.ts[l]? = some i → Q i.view.strides)
    (hqr : ∀ i, h.ts[r]? = some i → Q i.view.strides) (hqs : Q (rmStrides s)) (h0 : 0 ∉ s) (hm : Modest s dt)
    (hm' : Modest s' dt) (hg : ∀ idx, InBox s idx → e (fl idx) (fr idx) = some (g idx)) :
    ∃ t h1 u h2, (do K (← P l r) : M F Nat) h = .ok t h1 ∧
      (do
        let a ← K l
        let b ← K r
        P a b : M F Nat) h = .ok u h2 ∧
      Denotes h1 t dt s' (fun idx => g (σ idx)) ∧ Denotes h2 u dt s' (fun idx => g (σ idx)) := by
  obtain ⟨c, k1, e1, d1, ex1, j, hj, hjg, hjv⟩ := hP h l r s fl fr g hl hr hm.bytes hg
  have hvc := viewable_contig hj hjg hjv h0 hm.vol
  obtain ⟨t, k2, e2, d2, _⟩ := hK k1 c dt g d1 hvc (fun i hi => by
    rw [hj] at hi
    obtain rfl := Option.some.inj hi
    rw [hjv]
    show Q (contigStrides s)
    rw [contigStrides_eq_rm h0 (by have := hm.vol; omega)]
    exact hqs)
  obtain ⟨a, m1, f1, da, pa, _, pr1, _, _, vk⟩ := hK h l dl fl hl hvl hql
  obtain ⟨b, m2, f2, db, _, _, pr2, _, _, _⟩ := hK m1 r dr fr (preserves_denotes pr1 hr) (vk r hvr) (fun i hi => by
    obtain ⟨i0, hi0, _⟩ := id hr
    obtain ⟨i1, hi1, _, hv, _⟩ := pr1.ts _ _ hi0
    rw [hi] at hi1
    obtain rfl := Option.some.inj hi1
    rw [hv]
    exact hqr _ hi0)
  have hin : ∀ idx, InBox s' idx → InBox s (σ idx) := by
    intro idx hb
    obtain ⟨_, y, _, hy, _, _, hin, _⟩ := pa idx hb
    obtain ⟨i0, hi0, _, hs0, _⟩ := id hl
    obtain ⟨i1, hi1, _, hv, _⟩ := pr1.ts _ _ hi0
    rw [hy] at hi1
    obtain rfl := Option.some.inj hi1
    rw [hv, hs0] at hin
    exact hin
  obtain ⟨u, m3, f3, du, _⟩ := hP m2 a b s' _ _ (fun idx => g (σ idx)) (preserves_denotes pr2 da) db hm'.bytes
    (fun idx hb => hg (σ idx) (hin idx hb))
  refine ⟨t, k2, u, m3, ?_, ?_, d2, du⟩
  · rw [M.bind_ok e1]; exact e2
  · rw [M.bind_ok f1, M.bind_ok f2]; exact f3

end INNC
