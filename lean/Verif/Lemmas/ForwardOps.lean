import Verif.Lemmas.Forward
import Verif.Lemmas.BinaryStop
import Verif.Lemmas.Abs
import Verif.Lemmas.Extreme
import Verif.Lemmas.Cat
import Verif.Lemmas.Init
import Verif.Lemmas.ViewOps
import Verif.Lemmas.Regularize
/-
Each call that computes keeps the invariant.
-/
namespace INNC
open Spec Tensor
variable {F : Type} [Field F] [FOps F] [Exact F]

/-! ### Elements without rounding -/

omit [Field F] [FOps F] [Exact F] in
theorem isInteger_false {t : DType} (h : t.isFloat = true) : isInteger t = false := by
  cases t <;> first | rfl | (exfalso; revert h; decide)

theorem asFloat_exact (s t : DType) (v : Val F) : asFloat s t v = real v := by
  cases v with
  | i n => exact Exact.ofInt t n
  | f x =>
    show (if s = t then x else FOps.cvt t x) = x
    split
    · rfl
    · exact Exact.cvt t x

theorem fop_exact (op : AOp) (t : DType) (x y : F) : fop op t x y = exactOp op x y := by
  cases op
  · exact Exact.add t x y
  · exact Exact.sub t x y
  · exact Exact.mul t x y
  · exact Exact.div t x y

theorem elemArith_exact (op : AOp) {s t : DType} (h : s.isFloat = true ∨ t.isFloat = true) (x y : Val F) :
    elemArith op s t x y = some (.f (exactOp op (real x) (real y))) := by
  unfold elemArith
  rw [if_neg, asFloat_exact, asFloat_exact, fop_exact]
  rintro ⟨h1, h2⟩
  rcases h with h | h
  · rw [isInteger_false h] at h1; exact absurd h1 (by decide)
  · rw [isInteger_false h] at h2; exact absurd h2 (by decide)

theorem elemBinary_exact (op : AOp) {s t : DType} (h : s.isFloat = true ∨ t.isFloat = true) (x y : Val F) :
    elemBinary op s t x y = some (.f (exactOp op (real x) (real y))) := by
  unfold elemBinary
  split
  · next hc =>
    rw [elemArith_exact op h.symm]
    rcases hc.1 with rfl | rfl
    · simp [exactOp, add_comm]
    · simp [exactOp, mul_comm]
  · exact elemArith_exact op h x y

theorem convert_exact {s t : DType} (ht : t.isFloat = true) (v : Val F) : convert s t v = some (.f (real v)) := by
  unfold convert
  rw [if_neg (by rw [isInteger_false ht]; decide)]
  cases v with
  | i n => simp only [Exact.ofInt]; rfl
  | f x => simp only [Exact.cvt, ite_self]; rfl

theorem foldlM_exact {t : DType} (ht : t.isFloat = true) : ∀ (xs : List (Val F)) (a : F),
    xs.foldlM (elemArith .add .f64 t) (.f a) = some (.f (a + (xs.map real).sum))
  | [], a => by simp
  | x :: xs, a => by
    rw [List.foldlM_cons, elemArith_exact .add (Or.inr ht)]
    show xs.foldlM _ _ = _
    rw [foldlM_exact ht xs]
    simp only [exactOp, List.map_cons, List.sum_cons, add_assoc]
    rfl

theorem zeroElem_exact {t : DType} (ht : t.isFloat = true) : (zeroElem t : Val F) = .f 0 := by
  unfold zeroElem
  rw [isInteger_false ht, Exact.zero]; rfl

theorem sumOf_exact {t : DType} (ht : t.isFloat = true) (s : List Nat) (f : List Nat → Val F) :
    sumOf t s f = some (.f (boxSum s fun idx => real (f idx))) := by
  have hacc : accType t = .f64 := by unfold accType; rw [isInteger_false ht]; rfl
  have key : total t (elems s f) = some (.f (boxSum s fun idx => real (f idx))) := by
    unfold total
    rw [hacc, zeroElem_exact rfl, foldlM_exact ht, zero_add]
    simp [elems, boxSum, List.map_map, Function.comp_def]
  cases s with
  | nil =>
    show convert t (accType t) (f []) = _
    rw [hacc, convert_exact rfl]
    simp [boxSum, rowMajor]
  | cons n s => exact key

theorem meanOf_exact {t : DType} (ht : t.isFloat = true) (s : List Nat) (f : List Nat → Val F) :
    meanOf t s f = some (.f ((boxSum s fun idx => real (f idx)) / (vol s : F))) := by
  have hacc : accType t = .f64 := by unfold accType; rw [isInteger_false ht]; rfl
  unfold meanOf
  split
  · next h0 => rw [hacc, zeroElem_exact rfl, h0]; simp
  · rw [sumOf_exact ht]
    simp only
    rw [hacc, isInteger_false ht, elemArith_exact .div (Or.inl rfl), Exact.ofInt]
    simp [exactOp, real]

theorem elemAbs_exact {t : DType} (ht : t.isFloat = true) {v : Val F} (hv : v.HasType t) :
    ∃ z, elemAbs t v = some z ∧ real z = real (elemSign t v) * real v := by
  rw [val_real hv ht]
  unfold elemAbs elemSign
  rw [isInteger_false ht]
  by_cases hn : nonneg t (.f (real v) : Val F) = true
  · refine ⟨.f (real v), by rw [if_pos hn], ?_⟩
    rw [hn]
    show real v = FOps.ofInt t 1 * real v
    rw [Exact.ofInt]; simp
  · refine ⟨.f (FOps.neg (real v)), by rw [if_neg hn], ?_⟩
    rw [if_neg hn]
    show FOps.neg (real v) = FOps.ofInt t (-1) * real v
    rw [Exact.ofInt, Exact.neg]; simp

/-! ### Results on new storages -/

variable {h h' : Heap F} {V : Nat → Prop}

omit [Exact F] in
/-- A result on a new storage. -/
theorem Inv.result (hI : Inv h V) {x d : Nat} {dt : DType} {v : Layout} {gf : Option GradFn} {f : List Nat → Val F} (he : Extends h h')
    (hx : h'.ts[x]? = some ⟨dt, v, d, none, gf.isSome, false, gf⟩) (hr : Reads h' ⟨dt, v, d, none, gf.isSome, false, gf⟩ f)
    (hd : h.st.length ≤ d) (hnew : h.ts.length ≤ x) (hfl : ∀ g, gf = some g → dt.isFloat = true ∧ Dense v)
    (hop : ∀ g, gf = some g → g.accOutway = 0 ∧ g.kind ≠ .noBack ∧ (∀ a ∈ g.inputs, V a) ∧ Primal h' x g.kind g.inputs ∧
      ∀ k i, g.kind = .knownGrad k → h'.ts[k]? = some i → h.st.length ≤ i.data) :
    Inv h' fun y => V y ∨ y = x := by
  refine hI.extend he (fun y hy => hy.imp id fun e => ?_) fun y hy => .inl hy
  subst e
  refine ⟨⟨_, f, hx, hr, rfl, fun hs => ?_, .inl hd⟩, fun g hg => ?_⟩
  · obtain ⟨g, hg⟩ := Option.isSome_iff_exists.1 hs
    exact hfl g hg
  · rw [opOf_eq hx] at hg
    obtain ⟨h1, h2, h3, h4, h5⟩ := hop g hg
    refine ⟨by rw [requiresGrad_eq hx]; show gf.isSome = true; rw [show gf = some g from hg]; rfl, h1, h2, fun a ha => ⟨.inl (h3 a ha), ?_⟩, h4, h5⟩
    obtain ⟨i, _, hi, _⟩ := hI.reads a (h3 a ha)
    have := getElem?_lt hi
    omega

/-- A contiguous result on a new storage. -/
theorem Inv.built (hI : Inv h V) {x : Nat} {dt : DType} {s : List Nat} {gf : Option GradFn} {f : List Nat → Val F}
    (bt : Built h h' x dt s f gf) (hv : vol s < 9223372036854775808) (hfl : ∀ g, gf = some g → dt.isFloat = true)
    (hop : ∀ g, gf = some g → g.accOutway = 0 ∧ g.kind ≠ .noBack ∧ (∀ a ∈ g.inputs, V a) ∧ Primal h' x g.kind g.inputs ∧
      ∀ k i, g.kind = .knownGrad k → h'.ts[k]? = some i → h.st.length ≤ i.data) :
    Inv h' fun y => V y ∨ y = x := by
  obtain ⟨d, hx, hd⟩ := bt.obj
  obtain ⟨i, hi, _, _, hr⟩ := bt.denotes
  rw [hx] at hi
  obtain rfl := Option.some.inj hi
  exact hI.result bt.ext hx hr hd bt.fresh.1 (fun g hg => ⟨hfl g hg, dense_contig hv⟩) hop

theorem Inv.const (hI : Inv h V) {x : Nat} {dt : DType} {s : List Nat} {f : List Nat → Val F}
    (bt : Built h h' x dt s f none) (hv : vol s < 9223372036854775808) : Inv h' fun y => V y ∨ y = x :=
  hI.built bt hv (fun g hg => by simp at hg) (fun g hg => by simp at hg)

theorem Built.val {x : Nat} {dt : DType} {s : List Nat} {gf : Option GradFn} {f : List Nat → Val F}
    (bt : Built h h' x dt s f gf) {idx : List Nat} (hb : InBox s idx) : valOf h' x idx = real (f idx) := by
  obtain ⟨i, hi, _, rfl, hr⟩ := bt.denotes
  exact valOf_reads hi hr hb

theorem Built.shape {x : Nat} {dt : DType} {s : List Nat} {gf : Option GradFn} {f : List Nat → Val F}
    (bt : Built h h' x dt s f gf) : shapeOf h' x = s := by
  obtain ⟨i, hi, _, rfl, hr⟩ := bt.denotes
  exact shapeOf_eq hi

theorem Inv.clone (hI : Inv h V) {t x : Nat} (ht : V t) (hs : ∀ i, h.ts[t]? = some i → Small i.view.sizes i.dtype)
    (e : Tensor.clone t h = .ok x h') : Inv h' (fun y => V y ∨ y = x) ∧ h.ts.length ≤ x := by
  obtain ⟨i, f, hi, hr⟩ := hI.reads t ht
  obtain ⟨h1, i1, hi1, e1, bt⟩ := clone_ok (F := F) ⟨i, hi, rfl, rfl, hr⟩ (hs i hi)
  rw [hi] at hi1
  obtain rfl := Option.some.inj hi1
  rw [e1] at e
  injection e with e2 e3
  subst e2 e3
  refine ⟨hI.built bt (vol_lt_of_bytes (hs i hi)) (fun g hg => ?_) (fun g hg => ?_), Nat.le_refl _⟩
  · split at hg
    · next hrg => exact hI.float t i ht hi hrg
    · simp at hg
  · split at hg
    · obtain rfl := Option.some.inj hg
      have hS := hI.same_ext bt.ext ht
      refine ⟨rfl, by simp, fun a ha => by simp at ha; rw [ha]; exact ht, ⟨?_, fun idx hb => ?_⟩, fun k j hk => by simp at hk⟩
      · rw [bt.shape, hS.shape, shapeOf_eq hi]
      · rw [bt.shape] at hb
        rw [bt.val hb, hS.val, valOf_reads hi hr hb]
    · simp at hg

theorem Inv.toType (hI : Inv h V) {t x : Nat} {dt : DType} (ht : V t) (hf : dt.isFloat = true) (hs : Small (shapeOf h t) dt)
    (e : Tensor.toType t dt h = .ok x h') : Inv h' fun y => V y ∨ y = x := by
  obtain ⟨i, f, hi, hr⟩ := hI.reads t ht
  rw [shapeOf_eq hi] at hs
  have hint : dt.isInt = false := by cases dt <;> first | rfl | (exfalso; revert hf; decide)
  by_cases hd : dt = i.dtype
  · have : Tensor.toType t dt h = .ok t h := by
      unfold Tensor.toType
      rw [M.bind_ok (getT_ok hi), if_neg (by rw [hint]; simp), if_pos hd]; rfl
    rw [this] at e
    injection e with e2 e3
    subst e2 e3
    exact hI.weaken (fun y hy => hy.elim id fun e => by rw [e]; exact ht)
      (fun y g hy hg a ha => .inl ((hI.ops y g (hy.elim id fun e => by rw [e]; exact ht) hg).2.2.1 a ha).1)
  · obtain ⟨h1, e1, bt⟩ := toType_ok (g := fun idx => .f (real (f idx))) hi hr hd
      (by rintro ⟨_, h2⟩; rw [isInteger_false hf] at h2; exact absurd h2 (by decide)) hs (fun idx _ => convert_exact hf _)
    rw [e1] at e
    injection e with e2 e3
    subst e2 e3
    refine hI.built bt (vol_lt_of_bytes hs) (fun g hg => hf) (fun g hg => ?_)
    split at hg
    · obtain rfl := Option.some.inj hg
      have hS := hI.same_ext bt.ext ht
      refine ⟨rfl, by simp, fun a ha => by simp at ha; rw [ha]; exact ht, ⟨?_, fun idx hb => ?_⟩, fun k j hk => by simp at hk⟩
      · rw [bt.shape, hS.shape, shapeOf_eq hi]
      · rw [bt.shape] at hb
        rw [bt.val hb, hS.val, valOf_reads hi hr hb]; rfl
    · simp at hg

omit [FOps F] [Exact F] [Field F] in
theorem size_le (dt : DType) : dt.size ≤ 8 := by cases dt <;> decide

omit [FOps F] [Exact F] [Field F] in
theorem small_of_f64 {s : List Nat} (hs : Small s .f64) (dt : DType) : vol s * dt.size < 9223372036854775808 :=
  Nat.lt_of_le_of_lt (Nat.mul_le_mul_left _ (size_le dt)) hs

omit [FOps F] [Exact F] [Field F] in
theorem later_isFloat {l r : DType} (h : l.isFloat = true ∨ r.isFloat = true) : (later l r).isFloat = true := by
  cases l <;> cases r <;> first | rfl | (exfalso; revert h; decide)

theorem Inv.arith (hI : Inv h V) {op : AOp} {l r x : Nat} {s : List Nat} (hl : V l) (hr : V r)
    (hb : Broadcasts (shapeOf h l) (shapeOf h r) s) (hs : Small s .f64) (e : arithT op l r h = .ok x h') :
    Inv h' fun y => V y ∨ y = x := by
  obtain ⟨li, fl, hli, hlr⟩ := hI.reads l hl
  obtain ⟨ri, fr, hri, hrr⟩ := hI.reads r hr
  rw [shapeOf_eq hli, shapeOf_eq hri] at hb
  have dl : Denotes h l li.dtype li.view.sizes fl := ⟨li, hli, rfl, rfl, hlr⟩
  have dr : Denotes h r ri.dtype ri.view.sizes fr := ⟨ri, hri, rfl, rfl, hrr⟩
  have hsz := small_of_f64 hs (later li.dtype ri.dtype)
  by_cases hbad : ∃ idx, InBox s idx ∧ elemBinary op li.dtype ri.dtype (fl (project li.view.sizes idx))
      (fr (project ri.view.sizes idx)) = none
  · rcases arith_undefined dl dr hb.1 hb.2 hsz hbad with h1 | h1 <;> rw [h1] at e <;> simp at e
  obtain ⟨g, hg⟩ : ∃ g : List Nat → Val F, ∀ idx, InBox s idx → elemBinary op li.dtype ri.dtype
      (fl (project li.view.sizes idx)) (fr (project ri.view.sizes idx)) = some (g idx) := by
    refine ⟨fun idx => (elemBinary op li.dtype ri.dtype (fl (project li.view.sizes idx)) (fr (project ri.view.sizes idx))).getD
      (.i 0), fun idx hbx => ?_⟩
    cases hz : elemBinary op li.dtype ri.dtype (fl (project li.view.sizes idx)) (fr (project ri.view.sizes idx)) with
    | none => exact absurd ⟨idx, hbx, hz⟩ hbad
    | some z => simp [hz]
  obtain ⟨h1, li', ri', j, e1, e2, e3, hd, he, hfr, hj, j1, j2, j3, j4, j5, j6⟩ := arith_ok dl dr hb.1 hb.2 hsz hg
  rw [hli] at e1
  rw [hri] at e2
  obtain rfl := Option.some.inj e1
  obtain rfl := Option.some.inj e2
  rw [e3] at e
  injection e with e4 e5
  subst e4 e5
  obtain ⟨j', hj', jd, _, jr⟩ := hd
  rw [hj] at hj'
  obtain rfl := Option.some.inj hj'
  have hgf : j.requiresGrad = j.gradFn.isSome := by
    rw [j5, j6]; cases li.requiresGrad || ri.requiresGrad <;> rfl
  have hje : j = ⟨later li.dtype ri.dtype, Layout.contig s, h.st.length, none, j.gradFn.isSome, false, j.gradFn⟩ := by
    obtain ⟨a1, a2, a3, a4, a5, a6, a7⟩ := j
    simp_all
  rw [hje] at hj jr
  have hfloat : ∀ g', j.gradFn = some g' → li.dtype.isFloat = true ∨ ri.dtype.isFloat = true := fun g' hg' => by
    rw [j6] at hg'
    split at hg'
    · next hc =>
      rcases Bool.or_eq_true_iff.1 hc with hc | hc
      · exact .inl (hI.float l li hl hli hc)
      · exact .inr (hI.float r ri hr hri hc)
    · simp at hg'
  refine hI.result he hj jr (Nat.le_refl _) (Nat.le_refl _) (fun g' hg' => ⟨later_isFloat (hfloat g' hg'), dense_contig (vol_lt_of_bytes hsz)⟩)
    (fun g' hg' => ?_)
  have hff := hfloat g' hg'
  rw [j6] at hg'
  split at hg'
  case isFalse => simp at hg'
  obtain rfl := Option.some.inj hg'
  have hSl := hI.same_ext he hl
  have hSr := hI.same_ext he hr
  have hval : ∀ idx, InBox s idx → valOf h1 h.ts.length idx = exactOp op (valOf h l (project li.view.sizes idx)) (valOf h r (project ri.view.sizes idx)) :=
    fun idx hbx => by
      have h3 := hg idx hbx
      rw [elemBinary_exact op hff] at h3
      rw [valOf_reads hj jr hbx, ← Option.some.inj h3, valOf_reads hli hlr (project_inBox_left hb.1 hbx),
        valOf_reads hri hrr (project_inBox_right hb.1 hbx)]
      rfl
  have hsx : shapeOf h1 h.ts.length = s := shapeOf_eq hj
  refine ⟨rfl, by cases op <;> simp [arithBack], fun a ha => ?_, ?_, fun k j hk => by cases op <;> simp [arithBack] at hk⟩
  · simp only [List.mem_cons, List.not_mem_nil, or_false] at ha
    rcases ha with rfl | rfl
    · exact hl
    · exact hr
  · have hbc : Broadcasts (shapeOf h1 l) (shapeOf h1 r) (shapeOf h1 h.ts.length) := by
      rw [hSl.shape, hSr.shape, hsx, shapeOf_eq hli, shapeOf_eq hri]; exact hb
    have hall : ∀ idx, InBox (shapeOf h1 h.ts.length) idx → valOf h1 h.ts.length idx =
        exactOp op (valOf h1 l (project (shapeOf h1 l) idx)) (valOf h1 r (project (shapeOf h1 r) idx)) := fun idx hbx => by
      rw [hsx] at hbx
      rw [hval idx hbx, hSl.shape, hSr.shape, hSl.val, hSr.val, shapeOf_eq hli, shapeOf_eq hri]
    cases op <;> exact ⟨hbc, hall⟩

theorem small_vol {s : List Nat} {dt : DType} (hs : Small s dt) : vol s < 9223372036854775808 := vol_lt_of_bytes hs

theorem Inv.sum (hI : Inv h V) {t x : Nat} (ht : V t) (hs : vol (shapeOf h t) < 9223372036854775808)
    (e : sumT t h = .ok x h') : Inv h' fun y => V y ∨ y = x := by
  obtain ⟨i, f, hi, hr⟩ := hI.reads t ht
  rw [shapeOf_eq hi] at hs
  have h1 := sumT_out hi hr (by omega)
  cases hv : sumOf i.dtype i.view.sizes f with
  | none => rw [hv] at h1; rw [show sumT t h = _ from h1] at e; simp at e
  | some v =>
    rw [hv] at h1
    obtain ⟨h2, e2, bt⟩ := h1
    rw [e2] at e
    injection e with e3 e4
    subst e3 e4
    refine hI.built bt (by decide) (fun g hg => ?_) (fun g hg => ?_) <;> split at hg
    · next hc => unfold accType; rw [isInteger_false (hI.float t i ht hi hc)]; rfl
    · simp at hg
    · next hc =>
      obtain rfl := Option.some.inj hg
      have hS := hI.same_ext bt.ext ht
      have hf := hI.float t i ht hi hc
      refine ⟨rfl, by simp, fun a ha => by simp at ha; rw [ha]; exact ht, ⟨bt.shape, ?_⟩, fun k j hk => by simp at hk⟩
      rw [sumOf_exact hf] at hv
      rw [bt.val (idx := []) trivial, ← Option.some.inj hv, hS.shape, hS.val, shapeOf_eq hi]
      exact boxSum_congr fun idx hb => (valOf_reads hi hr hb).symm
    · simp at hg

theorem Inv.mean (hI : Inv h V) {t x : Nat} (ht : V t) (hs : vol (shapeOf h t) < 9223372036854775808)
    (e : meanT t h = .ok x h') : Inv h' fun y => V y ∨ y = x := by
  obtain ⟨i, f, hi, hr⟩ := hI.reads t ht
  rw [shapeOf_eq hi] at hs
  have h1 := meanT_out hi hr hs
  cases hv : meanOf i.dtype i.view.sizes f with
  | none => rw [hv] at h1; rw [show meanT t h = _ from h1] at e; simp at e
  | some v =>
    rw [hv] at h1
    obtain ⟨h2, e2, bt⟩ := h1
    rw [e2] at e
    injection e with e3 e4
    subst e3 e4
    refine hI.built bt (by decide) (fun g hg => ?_) (fun g hg => ?_) <;> split at hg
    · next hc => unfold accType; rw [isInteger_false (hI.float t i ht hi hc)]; rfl
    · simp at hg
    · next hc =>
      obtain rfl := Option.some.inj hg
      have hS := hI.same_ext bt.ext ht
      have hf := hI.float t i ht hi hc
      refine ⟨rfl, by simp, fun a ha => by simp at ha; rw [ha]; exact ht, ⟨hS.req (by rw [requiresGrad_eq hi]; exact hc), bt.shape, ?_⟩, fun k j hk => by simp at hk⟩
      rw [meanOf_exact hf] at hv
      rw [bt.val (idx := []) trivial, ← Option.some.inj hv, hS.shape, hS.val, shapeOf_eq hi]
      show _ / _ = _
      congr 1
      exact boxSum_congr fun idx hb => (valOf_reads hi hr hb).symm
    · simp at hg

theorem Inv.abs (hI : Inv h V) {t x : Nat} (ht : V t)
    (hs : ∀ i, h.ts[t]? = some i → Dense i.view ∧ Small i.view.sizes i.dtype ∧ i.dtype.isFloat = true)
    (e : absT t h = .ok x h') : Inv h' fun y => V y ∨ y = x := by
  obtain ⟨i, f, hi, hr⟩ := hI.reads t ht
  obtain ⟨hd, hsm, hf⟩ := hs i hi
  have hel : ∀ idx, InBox i.view.sizes idx → elemAbs i.dtype (f idx) = some ((elemAbs i.dtype (f idx)).getD (.i 0)) := fun idx hb => by
    obtain ⟨z, hz, _⟩ := elemAbs_exact hf (hr.typed idx hb)
    rw [hz]; rfl
  cases hg : i.requiresGrad with
  | false =>
    obtain ⟨h2, e2, bt⟩ := absT_ok hi hr hd hsm hg hel
    rw [e2] at e
    injection e with e3 e4
    subst e3 e4
    obtain ⟨d, hx, hdd⟩ := bt.obj
    obtain ⟨j, hj, _, _, hjr⟩ := bt.denotes
    rw [hx] at hj
    obtain rfl := Option.some.inj hj
    exact hI.result bt.ext hx hjr hdd bt.fresh.1 (fun g hg => by simp at hg) (fun g hg => by simp at hg)
  | true =>
    obtain ⟨h2, e2, bt, hden, hfr⟩ := absT_grad_ok hi hr hd hsm hg hel
    rw [e2] at e
    injection e with e3 e4
    subst e3 e4
    obtain ⟨d, hx, hdd⟩ := bt.obj
    obtain ⟨j, hj, _, _, hjr⟩ := bt.denotes
    rw [hx] at hj
    obtain rfl := Option.some.inj hj
    obtain ⟨k, hk, k1, k2, hkr⟩ := hden
    obtain ⟨_, k', hk', hkd⟩ := hfr
    rw [hk] at hk'
    obtain rfl := Option.some.inj hk'
    have hS := hI.same_ext bt.ext ht
    refine hI.result bt.ext hx hjr hdd bt.fresh.1 (fun g hg => ⟨hf, hd⟩) (fun g hg => ?_)
    obtain rfl := Option.some.inj hg
    refine ⟨rfl, by simp, fun a ha => by simp at ha; rw [ha]; exact ht, ?_, fun k0 j0 hk0 hj0 => ?_⟩
    · refine ⟨k, _, hk, by rw [k2, hS.shape, shapeOf_eq hi], by rw [k1]; exact hf, hkr, ?_, ?_, fun j hj => ?_⟩
      · exact ⟨i, f, bt.ext.ts _ _ hi, hr.of_extends bt.ext, .inl ⟨by rw [shapeOf_eq hx], fun _ _ => rfl⟩⟩
      · rw [hS.shape, shapeOf_eq hi, shapeOf_eq hx]; exact broadcasts_self _
      · rw [shapeOf_eq hx] at hj ⊢
        rw [hS.shape, shapeOf_eq hi, hS.val, valOf_reads hx hjr hj]
        obtain ⟨z, hz, hz'⟩ := elemAbs_exact hf (hr.typed j hj)
        rw [hz]
        show real z = _
        rw [hz', boxSum_congr (g := fun idx => if idx = j then real (elemSign i.dtype (f idx)) * valOf h t idx else 0) (fun idx hb => by
          show (if project i.view.sizes idx = j then _ else _) = _
          rw [project_self hb])]
        rw [boxSum_single hj _ (fun k _ hne => if_neg hne), if_pos rfl, valOf_reads hi hr hj]
    · injection hk0 with hk0
      rw [← hk0, hk] at hj0
      obtain rfl := Option.some.inj hj0
      exact hkd

end INNC
