import Verif.Lemmas.Joins
import Verif.Spec.Toy
/-
C65: laws of `cat` and `reshape`.
-/
namespace INNC
open Spec
variable {F : Type} [FOps F]

/-! ### Reshape -/

/-- **C65**: reshaping twice gives the same type, shape and elements as reshaping once, to the last shape. -/
theorem C65_reshape_reshape {h : Heap F} {t : Nat} {dt : DType} {s s1 s2 : List Nat} {f : List Nat → Val F} (ht : Denotes h t dt s f)
    (hv : Viewable h t) (h0 : 0 ∉ s) (hm : Modest s dt) (hsm : Moderate h t) (hs1 : vol s1 = vol s) (hs2 : vol s2 = vol s)
    (hns : ((s = [] ↔ s1 = []) ∧ (s = [] ↔ s2 = [])) ∨ ∀ i, h.ts[t]? = some i → i.requiresGrad = false) :
    ∃ r h1 r' h2 g, (do Tensor.reshape (← Tensor.reshape t (request s1)) (request s2) : M F Nat) h = .ok r h1 ∧
      Tensor.reshape t (request s2) h = .ok r' h2 ∧ Denotes h1 r dt s2 g ∧ Denotes h2 r' dt s2 g ∧
      (rowMajor s2).map g = (rowMajor s).map f ∧ Preserves h h1 ∧ Preserves h h2 := by
  obtain ⟨r', h2, e2, d2, _, p2, _⟩ := reshape_viewable ht hv h0 hm hsm hs2 (hns.imp And.right id)
  obtain ⟨a, k, e, d, va, pa, _, ng⟩ := reshape_viewable ht hv h0 hm hsm hs1 (hns.imp And.left id)
  have hle : ∀ n ∈ s2, n < 18446744073709551616 := fun n hn => by
    have := mem_le_vol (fun hc => h0 (vol_eq_zero.1 (by rw [← hs2]; exact vol_eq_zero.2 hc))) hn
    have := hm.vol
    omega
  obtain ⟨i, hi, i1, i2, hr⟩ := d
  obtain ⟨i', hi', htm, hg⟩ := va
  rw [hi] at hi'
  obtain rfl := Option.some.inj hi'
  obtain ⟨r, h1, e1, rs⟩ := reshape_ok (req := request s2) hi hr htm hg
    (regularizeSize_known hle (fun hc => by rw [i2, hs1, ← hs2, hc]; rfl)) (by rw [i2, hs2, hs1])
    (by rw [i2, i1, hs1]; exact hm.bytes)
    (fun hrg => by
      rcases hns with h1 | h1
      · rw [i2]; exact h1.1.symm.trans h1.2
      · have := ng h1 i hi; rw [this] at hrg; simp at hrg)
  obtain ⟨j, hj, j1, j2, j3, _⟩ := rs.obj
  refine ⟨r, h1, r', h2, _, by rw [M.bind_ok e]; exact e1, e2,
    Denotes.congr (dt := dt) ⟨j, hj, by rw [j1, i1], j2, j3⟩ fun idx hb => ?_, d2, map_reindex hs2 f, pa.trans rs.pres, p2⟩
  rw [i2, reindex_reindex hs1 hs2 hb]

/-- **C65**: reshaping and reshaping back gives the type, shape and elements of the tensor. -/
theorem C65_reshape_back {h : Heap F} {t : Nat} {dt : DType} {s s1 : List Nat} {f : List Nat → Val F} (ht : Denotes h t dt s f)
    (hv : Viewable h t) (h0 : 0 ∉ s) (hm : Modest s dt) (hsm : Moderate h t) (hs1 : vol s1 = vol s)
    (hns : (s = [] ↔ s1 = []) ∨ ∀ i, h.ts[t]? = some i → i.requiresGrad = false) :
    ∃ r h1, (do Tensor.reshape (← Tensor.reshape t (request s1)) (request s) : M F Nat) h = .ok r h1 ∧ Denotes h1 r dt s f ∧
      Preserves h h1 := by
  obtain ⟨r, h1, _, _, g, e, _, d, _, hg, p, _⟩ := C65_reshape_reshape ht hv h0 hm hsm hs1 rfl (hns.imp (fun h => ⟨h, Iff.rfl⟩) id)
  exact ⟨r, h1, e, d.congr fun idx hb => List.map_inj_left.1 hg idx (mem_rowMajor.2 hb), p⟩

/-! ### Concatenation -/

/-- **C65**: `cat` of one tensor has its type, shape and elements. -/
theorem C65_cat_one {h : Heap F} {t d : Nat} {dt : DType} {s : List Nat} {f : List Nat → Val F} (ht : Denotes h t dt s f)
    (hd : d < s.length) (hsize : vol s * dt.size < 9223372036854775808) (haxis : s[d] < 9223372036854775808) :
    Returns (Tensor.catT [t] d h) h dt s f := by
  have hs : s.set d s[d] = s := List.set_getElem_self hd
  have hlat : later dt .i8 = dt := by cases dt <;> rfl
  obtain ⟨r, h', e, dn, ex, fr⟩ := C29_cat (sizes := s) (d := d) (blocks := [⟨dt, s[d], f⟩]) (ts := [t]) (.cons (by rw [hs]; exact ht) .nil)
    (by simp) hd (by simpa [axisTotal] using haxis) (by
      show vol (s.set d (s[d] + 0)) * (later dt .i8).size < _
      rw [Nat.add_zero, hs, hlat]
      exact hsize)
  have dn' : Denotes h' r (later dt .i8) (s.set d (s[d] + 0)) (catAt d (later dt .i8) [⟨dt, s[d], f⟩]) := dn
  rw [Nat.add_zero, hs, hlat] at dn'
  refine ⟨r, h', e, dn'.congr fun idx hb => ?_, ex, fr⟩
  have hlt : idx.getD d 0 < s[d] := axis_lt hd (by rw [hs]; exact hb)
  unfold catAt
  rw [if_pos hlt]
  unfold converted
  rw [convert_self (ht.typed hb)]
  rfl

/-- **C65**: joining some neighbours first makes no difference: `cat(xs, cat(ys), zs)` and `cat(xs, ys, zs)`, along the same axis, have
the same type, shape and elements, unless that converts elements twice with a rounding in between (`OneStep`). -/
theorem C65_cat_cat {h : Heap F} {d : Nat} {sizes : List Nat} {xs ys zs : List Nat} {bx by' bz : List (Block F)}
    (hx : List.Forall₂ (fun t b => Denotes h t b.dt (sizes.set d b.n) b.f) xs bx)
    (hy : List.Forall₂ (fun t b => Denotes h t b.dt (sizes.set d b.n) b.f) ys by')
    (hz : List.Forall₂ (fun t b => Denotes h t b.dt (sizes.set d b.n) b.f) zs bz) (hne : ys ≠ []) (hd : d < sizes.length)
    (htot : axisTotal (bx ++ by' ++ bz) < 9223372036854775808)
    (hsize : vol (sizes.set d (axisTotal (bx ++ by' ++ bz))) * 8 < 9223372036854775808)
    (h1 : OneStep by' (latest ((bx ++ by' ++ bz).map (·.dt)))) :
    ∃ r h1 r' h2 dt g, (do
        let c ← Tensor.catT ys d
        Tensor.catT (xs ++ c :: zs) d : M F Nat) h = .ok r h1 ∧ Tensor.catT (xs ++ ys ++ zs) d h = .ok r' h2 ∧
      Denotes h1 r dt (sizes.set d (axisTotal (bx ++ by' ++ bz))) g ∧ Denotes h2 r' dt (sizes.set d (axisTotal (bx ++ by' ++ bz))) g ∧
      Extends h h1 ∧ Extends h h2 := by
  have hle8 : ∀ dt : DType, dt.size ≤ 8 := by intro dt; cases dt <;> decide
  have hbytes : ∀ (n : Nat) (dt : DType), n ≤ axisTotal (bx ++ by' ++ bz) → vol (sizes.set d n) * dt.size < 9223372036854775808 := by
    intro n dt hn
    exact Nat.lt_of_le_of_lt (Nat.mul_le_mul (vol_set_mono hn) (hle8 dt)) hsize
  have etot : axisTotal (bx ++ by' ++ bz) = axisTotal bx + axisTotal by' + axisTotal bz := by
    rw [axisTotal_append, axisTotal_append]
  obtain ⟨c, k, ec, dc, xc, _⟩ := C29_cat hy hne hd (by omega) (hbytes _ _ (by omega))
  let blocks : List (Block F) := bx ++ ⟨latest (by'.map (·.dt)), axisTotal by', catAt d (latest (by'.map (·.dt))) by'⟩ :: bz
  have et : axisTotal blocks = axisTotal (bx ++ by' ++ bz) := by
    rw [etot, axisTotal_append]
    show axisTotal bx + (axisTotal by' + axisTotal bz) = _
    omega
  have el : latest (blocks.map (·.dt)) = latest ((bx ++ by' ++ bz).map (·.dt)) := by
    rw [List.map_append, latest_append, List.append_assoc, List.map_append, latest_append, List.map_append, latest_append]
    rfl
  have mono : ∀ {t : Nat} {b : Block F}, Denotes h t b.dt (sizes.set d b.n) b.f → Denotes k t b.dt (sizes.set d b.n) b.f :=
    fun hd => preserves_denotes xc.preserves hd
  obtain ⟨r, h1', e1, d1, x1, _⟩ := C29_cat (h := k) (ts := xs ++ c :: zs) (blocks := blocks)
    (List.rel_append (hx.imp fun _ _ => mono) (.cons dc (hz.imp fun _ _ => mono))) (by simp) hd (by rw [et]; exact htot)
    (hbytes _ _ (by rw [et]))
  obtain ⟨r', h2', e2, d2, x2, _⟩ := C29_cat (ts := xs ++ ys ++ zs) (List.rel_append (List.rel_append hx hy) hz) (by simp [hne]) hd htot
    (hbytes _ _ (Nat.le_refl _))
  rw [et, el] at d1
  refine ⟨r, h1', r', h2', _, _, by rw [M.bind_ok ec]; exact e1, e2, d1.congr fun idx hb => ?_, d2, xc.trans x1, x2⟩
  refine catAt_nested hd hb ?_ h1 fun b hb k hk => ?_
  · rw [List.map_append, latest_append, List.map_append, latest_append]
    generalize latest (by'.map (·.dt)) = q
    generalize latest (bx.map (·.dt)) = p
    generalize latest (bz.map (·.dt)) = r
    cases p <;> cases q <;> cases r <;> decide
  · obtain ⟨t, _, ht⟩ : ∃ t, t ∈ ys ∧ Denotes h t b.dt (sizes.set d b.n) b.f := by
      clear * - hy hb
      induction hy with
      | nil => cases hb
      | cons hd _ ih =>
        rcases List.mem_cons.1 hb with rfl | hb
        · exact ⟨_, by simp, hd⟩
        · obtain ⟨t, h1, h2⟩ := ih hb
          exact ⟨t, by simp [h1], h2⟩
    exact ht.typed hk

/-- **C65**: the part of a concatenation that belongs to a tensor is this tensor, converted to the type of the result. `s` is the slice
`a:b` of the axis, where `a` is the total size of the tensors before it and `b - a` is its own size. -/
theorem C65_cat_slice {h : Heap F} {pre post : List Nat} {n : Nat} {ts : List Nat} {bs cs : List (Block F)} {b : Block F}
    (hts : List.Forall₂ (fun t b => Denotes h t b.dt (pre ++ b.n :: post) b.f) ts (bs ++ b :: cs))
    (hn : n = axisTotal (bs ++ b :: cs)) (h0 : 0 ∉ pre ++ n :: post)
    (hm : Modest (pre ++ n :: post) (latest ((bs ++ b :: cs).map (·.dt)))) {s : List Char}
    (hs : Spells (everything pre.length ++ [.range (some (axisTotal bs : Nat)) (some ((axisTotal bs + b.n : Nat) : Int)) none]) s) :
    ∃ r h', (do Tensor.slice (← Tensor.catT ts pre.length) s : M F Nat) h = .ok r h' ∧
      Denotes h' r (latest ((bs ++ b :: cs).map (·.dt))) (pre ++ b.n :: post)
        (fun idx => converted b.dt (latest ((bs ++ b :: cs).map (·.dt))) (b.f idx)) ∧ Preserves h h' := by
  have hset : ∀ z, (pre ++ n :: post).set pre.length z = pre ++ z :: post := by intro z; simp
  have hvol := hm.vol
  have hnle : n ≤ vol (pre ++ n :: post) := mem_le_vol h0 (by simp)
  have hne : ts ≠ [] := by
    rintro rfl
    cases hb : bs ++ b :: cs with
    | nil => simp at hb
    | cons => rw [hb] at hts; cases hts
  obtain ⟨k, is, _, e1, bt, _⟩ := catT_ok (h := h) (d := pre.length) (sizes := pre ++ n :: post) (ts := ts) (bs := bs ++ b :: cs)
    (hts.imp fun _ _ hd => by rw [hset]; exact hd) hne (by simp) (by omega) (by rw [← hn, hset]; exact hm.bytes)
  rw [← hn, hset] at bt
  obtain ⟨dd, ho, _⟩ := bt.obj
  have hvw : Viewable k h.ts.length := viewable_contig ho rfl rfl h0 hvol
  have hab : axisTotal bs + b.n ≤ n := by
    rw [hn, axisTotal_append]
    show _ ≤ axisTotal bs + (b.n + axisTotal cs)
    omega
  obtain ⟨σ, ⟨r, h', e2, d2, _, _, p2, _⟩, s2⟩ := C06_range_partial (start := some (axisTotal bs : Nat))
    (stop := some ((axisTotal bs + b.n : Nat) : Int)) (step := none) bt.denotes hvw
    (by intro o ho k hk
        simp only [List.mem_cons, List.not_mem_nil, or_false] at ho
        rcases ho with rfl | rfl | rfl <;> cases hk <;> unfold IsI64 <;> omega) (by simp) hs (by intro _ _ _ _ _ hk; cases hk)
  have elen : pyLen n (some ((axisTotal bs : Nat) : Int)) (some ((axisTotal bs + b.n : Nat) : Int)) none = b.n := by
    have h1 : ¬ (((axisTotal bs : Nat) : Int) < 0) := by omega
    have h2 : ¬ (((axisTotal bs + b.n : Nat) : Int) < 0) := by omega
    simp only [pyLen, pyCount, pyStart, pyStop, fromEnd, Option.getD_none, Int.zero_lt_one, if_true, h1, h2, if_false]
    omega
  rw [elen] at d2
  simp only [pyAt_from (show axisTotal bs ≤ n by omega)] at s2
  refine ⟨r, h', by rw [M.bind_ok e1]; exact e2, d2.congr fun idx hb => ?_, bt.ext.preserves.trans p2⟩
  obtain ⟨u, j, v, rfl, hul, hj⟩ := inBox_split hb
  rw [s2 u j v hul]
  have hgd : ∀ j, (u ++ j :: v).getD pre.length 0 = j := by intro j; rw [← hul]; simp
  have hst : ∀ j x, (u ++ j :: v).set pre.length x = u ++ x :: v := by intro j x; rw [← hul]; simp
  rw [catAt_append _ _ _ _ (by simp [hul]), hgd, if_neg (by omega), hst, Nat.add_sub_cancel_left]
  unfold catAt
  rw [hgd, if_pos hj]

/-- **C65**: `cat(ts).transpose(d, e)` along the axis `d`, and `cat` of the transposed tensors along the axis `e`, have the same type,
shape and elements. -/
theorem C65_cat_transpose {h : Heap F} {d e : Nat} {sizes : List Nat} {ts : List Nat} {blocks : List (Block F)}
    (hts : List.Forall₂ (fun t b => Denotes h t b.dt (sizes.set d b.n) b.f) ts blocks) (hvw : ∀ t ∈ ts, Viewable h t) (hne : ts ≠ [])
    (hd : d < sizes.length) (he : e < sizes.length) (hde : d ≠ e) (h0 : 0 ∉ sizes.set d (axisTotal blocks))
    (hm : Modest (sizes.set d (axisTotal blocks)) (latest (blocks.map (·.dt)))) :
    ∃ r h1 r' h2 dt g, (do Tensor.transpose (← Tensor.catT ts d) d e : M F Nat) h = .ok r h1 ∧
      (do
        let us ← ts.mapM fun t => Tensor.transpose t d e
        Tensor.catT us e : M F Nat) h = .ok r' h2 ∧
      Denotes h1 r dt (swapped (sizes.set d (axisTotal blocks)) d e) g ∧ Denotes h2 r' dt (swapped (sizes.set d (axisTotal blocks)) d e) g ∧
      Preserves h h1 ∧ Preserves h h2 := by
  have hvol := hm.vol
  have htle : axisTotal blocks ≤ vol (sizes.set d (axisTotal blocks)) := mem_le_vol h0 (List.mem_set hd _)
  obtain ⟨k, is, _, e1, bt, _⟩ := catT_ok hts hne hd (by omega) hm.bytes
  obtain ⟨dd, ho, _⟩ := bt.obj
  obtain ⟨r, h1, e2, d2, _, _, p2, _⟩ := C10_transpose bt.denotes (viewable_contig ho rfl rfl h0 hvol) (a := d) (b := e) (by simpa using hd)
    (by simpa using he) hde
  have hsw : ∀ n, swapped (sizes.set d n) d e = (swapped sizes d e).set e n := by
    intro n
    refine List.ext_getElem? fun q => ?_
    rw [getElem?_swapped (by simpa using hd) (by simpa using he)]
    by_cases hq : q = e
    · subst hq
      rw [List.getElem?_set_self (by rw [length_swapped]; exact he), if_neg (fun hc => hde hc.symm), if_pos rfl,
        List.getElem?_set_self hd]
    · rw [List.getElem?_set_ne (fun hc => hq hc.symm), getElem?_swapped hd he]
      by_cases hqd : q = d
      · subst hqd
        rw [if_pos rfl, List.getElem?_set_ne hde]
      · rw [if_neg hqd, if_neg hq, List.getElem?_set_ne (fun hc => hqd hc.symm)]
  obtain ⟨us, m, e3, r3, ⟨p3, _⟩, l3⟩ := mapM_calls (K := fun t => Tensor.transpose (F := F) t d e)
    (Le := fun h h' => Preserves h h' ∧ ∀ u, Viewable h u → Viewable h' u)
    (ok := fun h t (b : Block F) => Denotes h t b.dt (sizes.set d b.n) b.f ∧ Viewable h t)
    (R := fun h u (b : Block F) => Denotes h u b.dt ((swapped sizes d e).set e b.n) (fun idx => b.f (swapped idx d e)))
    (fun h => ⟨Preserves.refl h, fun _ h => h⟩) (fun a b => ⟨a.1.trans b.1, fun u hu => b.2 u (a.2 u hu)⟩)
    (fun a b => preserves_denotes a.1 b) (fun a b => ⟨preserves_denotes a.1 b.1, a.2 _ b.2⟩)
    (fun {h a c} hok => by
      obtain ⟨r, h', e, d', _, _, p, _, _, kv⟩ := C10_transpose hok.1 hok.2 (a := d) (b := e) (by simpa using hd) (by simpa using he) hde
      rw [hsw] at d'
      exact ⟨r, h', e, d', p, kv⟩) (as := ts) (cs := blocks) (h := h) (by
      clear * - hts hvw
      induction hts with
      | nil => exact .nil
      | cons a _ ih => exact .cons ⟨a, hvw _ (by simp)⟩ (ih fun t ht => hvw t (by simp [ht])))
  have hsz : vol ((swapped sizes d e).set e (axisTotal blocks)) = vol (sizes.set d (axisTotal blocks)) := by
    rw [← hsw, vol_swap h0 (by simpa using hd) (by simpa using he) hde]
  obtain ⟨r', h2, e4, d4, x4, _⟩ := C29_cat (h := m) (d := e) (sizes := swapped sizes d e) (ts := us) (blocks := turned d e blocks)
    (by
      clear * - r3
      unfold turned
      induction r3 with
      | nil => exact .nil
      | cons a _ ih => exact .cons a ih) (fun hc => by
        rw [hc] at l3
        exact hne (List.eq_nil_of_length_eq_zero l3.symm)) (by rw [length_swapped]; exact he)
    (by rw [axisTotal_turned]; omega) (by rw [axisTotal_turned, types_turned, hsz]; exact hm.bytes)
  rw [axisTotal_turned, types_turned, ← hsw] at d4
  refine ⟨r, h1, r', h2, _, _, by rw [M.bind_ok e1]; exact e2, by rw [M.bind_ok e3]; exact e4, d2, d4.congr fun idx hb => ?_,
    bt.ext.preserves.trans p2, p3.trans x4.preserves⟩
  have hl : idx.length = sizes.length := by rw [hb.length, length_swapped]; simp
  exact (catAt_turned hde (by omega) (by omega)).symm

/-- **C65**: combining two concatenations element by element, and joining the combined parts, give the same type, shape and elements. -/
theorem C65_cat_arith (op : AOp) {h : Heap F} {d : Nat} {dl dr : DType} {sizes : List Nat} {ls rs : List Nat} {ps : List (Pair F)}
    (hl : List.Forall₂ (fun t p => Denotes h t dl (sizes.set d p.n) p.left) ls ps)
    (hr : List.Forall₂ (fun t p => Denotes h t dr (sizes.set d p.n) p.right) rs ps)
    (hp : ∀ p ∈ ps, ∀ idx, InBox (sizes.set d p.n) idx → elemBinary op dl dr (p.left idx) (p.right idx) = some (p.both idx))
    (hne : ls ≠ []) (hd : d < sizes.length) (htot : axisTotal (boths (later dl dr) ps) < 9223372036854775808)
    (hsize : vol (sizes.set d (axisTotal (boths (later dl dr) ps))) * 8 < 9223372036854775808) :
    ∃ r h1 r' h2 g, (do
        let x ← Tensor.catT ls d
        let y ← Tensor.catT rs d
        arithT op x y : M F Nat) h = .ok r h1 ∧
      (do
        let us ← (ls.zip rs).mapM fun p => arithT op p.1 p.2
        Tensor.catT us d : M F Nat) h = .ok r' h2 ∧
      Denotes h1 r (later dl dr) (sizes.set d (axisTotal (boths (later dl dr) ps))) g ∧
      Denotes h2 r' (later dl dr) (sizes.set d (axisTotal (boths (later dl dr) ps))) g ∧ Extends h h1 ∧ Extends h h2 := by
  have hle8 : ∀ dt : DType, dt.size ≤ 8 := by intro dt; cases dt <;> decide
  have hbytes : ∀ (n : Nat) (dt : DType), n ≤ axisTotal (boths (later dl dr) ps) → vol (sizes.set d n) * dt.size < 9223372036854775808 := by
    intro n dt hn
    exact Nat.lt_of_le_of_lt (Nat.mul_le_mul (vol_set_mono hn) (hle8 dt)) hsize
  have hpne : ps ≠ [] := by
    rintro rfl
    cases hl
    exact hne rfl
  have hrne : rs ≠ [] := by
    rintro rfl
    cases hr
    exact hpne rfl
  have tl : ∀ (dt : DType), axisTotal (lefts dt ps) = axisTotal (boths (later dl dr) ps) ∧
      axisTotal (rights dt ps) = axisTotal (boths (later dl dr) ps) := by
    intro dt
    clear * -
    induction ps with
    | nil => exact ⟨rfl, rfl⟩
    | cons p ps ih =>
      exact ⟨congrArg (p.n + ·) ih.1, congrArg (p.n + ·) ih.2⟩
  have ll : latest ((lefts dl ps).map (·.dt)) = dl := latest_const (by simpa [lefts] using hpne) (by simp [lefts])
  have lr : latest ((rights dr ps).map (·.dt)) = dr := latest_const (by simpa [rights] using hpne) (by simp [rights])
  have lb : latest ((boths (later dl dr) ps).map (·.dt)) = later dl dr := latest_const (by simpa [boths] using hpne) (by simp [boths])
  have fl : List.Forall₂ (fun t (b : Block F) => Denotes h t b.dt (sizes.set d b.n) b.f) ls (lefts dl ps) := by
    unfold lefts
    clear * - hl
    induction hl with
    | nil => exact .nil
    | cons a _ ih => exact .cons a ih
  have fr : List.Forall₂ (fun t (b : Block F) => Denotes h t b.dt (sizes.set d b.n) b.f) rs (rights dr ps) := by
    unfold rights
    clear * - hr
    induction hr with
    | nil => exact .nil
    | cons a _ ih => exact .cons a ih
  obtain ⟨x, k1, e1, d1, x1, _⟩ := C29_cat fl hne hd (by rw [(tl dl).1]; exact htot) (hbytes _ _ (by rw [(tl dl).1]))
  obtain ⟨y, k2, e2, d2, x2, _⟩ := C29_cat (h := k1) (fr.imp fun _ _ a => preserves_denotes x1.preserves a) hrne hd
    (by rw [(tl dr).2]; exact htot) (hbytes _ _ (by rw [(tl dr).2]))
  rw [ll, (tl dl).1] at d1
  rw [lr, (tl dr).2] at d2
  have typed : ∀ p ∈ ps, ∀ k, InBox (sizes.set d p.n) k → (p.left k).HasType dl ∧ (p.right k).HasType dr := by
    intro p hp k hk
    constructor
    · clear * - hl hp hk
      induction hl with
      | nil => cases hp
      | cons a _ ih =>
        rcases List.mem_cons.1 hp with rfl | hp
        · exact a.typed hk
        · exact ih hp
    · clear * - hr hp hk
      induction hr with
      | nil => cases hp
      | cons a _ ih =>
        rcases List.mem_cons.1 hp with rfl | hp
        · exact a.typed hk
        · exact ih hp
  have hall : List.Forall₂ (fun (q : Nat × Nat) p => (Denotes h q.1 dl (sizes.set d p.n) p.left ∧ Denotes h q.2 dr (sizes.set d p.n) p.right) ∧
      p.n ≤ axisTotal (boths (later dl dr) ps) ∧
      ∀ idx, InBox (sizes.set d p.n) idx → elemBinary op dl dr (p.left idx) (p.right idx) = some (p.both idx)) (ls.zip rs) ps := by
    have hin : ∀ p ∈ ps, p.n ≤ axisTotal (boths (later dl dr) ps) := by
      clear * -
      induction ps with
      | nil => intro p hp; cases hp
      | cons q ps ih =>
        intro p hp
        show p.n ≤ q.n + axisTotal (boths (later dl dr) ps)
        rcases List.mem_cons.1 hp with rfl | hp
        · omega
        · have := ih p hp
          omega
    generalize axisTotal (boths (later dl dr) ps) = N at hin
    clear * - hl hr hp hin
    induction hl generalizing rs with
    | nil => cases hr; exact .nil
    | cons a _ ih =>
      cases hr with
      | cons b hr => exact .cons ⟨⟨a, b⟩, hin _ (by simp), hp _ (by simp)⟩ (ih hr (fun p h => hp p (by simp [h])) (fun p h => hin p (by simp [h])))
  obtain ⟨us, m, e3, r3, x3, l3⟩ := mapM_calls (K := fun p : Nat × Nat => arithT (F := F) op p.1 p.2) (Le := Extends)
    (ok := fun h q p => (Denotes h q.1 dl (sizes.set d p.n) p.left ∧ Denotes h q.2 dr (sizes.set d p.n) p.right) ∧
      p.n ≤ axisTotal (boths (later dl dr) ps) ∧
      ∀ idx, InBox (sizes.set d p.n) idx → elemBinary op dl dr (p.left idx) (p.right idx) = some (p.both idx))
    (R := fun h u (p : Pair F) => Denotes h u (later dl dr) (sizes.set d p.n) p.both)
    (fun h => Extends.refl h) (fun a b => a.trans b) (fun a b => preserves_denotes a.preserves b)
    (fun a b => ⟨⟨preserves_denotes a.preserves b.1.1, preserves_denotes a.preserves b.1.2⟩, b.2⟩)
    (fun {h a c} hok => by
      obtain ⟨t, h', e, dn, ex, _⟩ := pointwise_arith op dl dr h a.1 a.2 _ _ _ c.both hok.1.1 hok.1.2 (hbytes _ _ hok.2.1) hok.2.2
      exact ⟨t, h', e, dn, ex⟩) hall
  have fb : List.Forall₂ (fun t (b : Block F) => Denotes m t b.dt (sizes.set d b.n) b.f) us (boths (later dl dr) ps) := by
    unfold boths
    clear * - r3
    induction r3 with
    | nil => exact .nil
    | cons a _ ih => exact .cons a ih
  have hune : us ≠ [] := by
    rintro rfl
    cases r3
    exact hpne rfl
  have typedB : ∀ p ∈ ps, ∀ k, InBox (sizes.set d p.n) k → (p.both k).HasType (later dl dr) := by
    intro p hp k hk
    clear * - r3 hp hk
    induction r3 with
    | nil => cases hp
    | cons a _ ih =>
      rcases List.mem_cons.1 hp with rfl | hp
      · exact a.typed hk
      · exact ih hp
  obtain ⟨r', h2, e4, d4, x4, _⟩ := C29_cat fb hune hd htot (hbytes _ _ (Nat.le_refl _))
  rw [lb] at d4
  obtain ⟨r, h1, e5, d5, x5, _⟩ := pointwise_arith op dl dr k2 x y _ _ _ (catAt d (later dl dr) (boths (later dl dr) ps))
    (preserves_denotes x2.preserves d1) d2 (hbytes _ _ (Nat.le_refl _)) (fun idx hb => catAt_pairs hd hb fun p hpm k hk => by
      obtain ⟨t1, t2⟩ := typed p hpm k hk
      exact ⟨t1, t2, typedB p hpm k hk, hp p hpm k hk⟩)
  exact ⟨r, h1, r', h2, _, by rw [M.bind_ok e1, M.bind_ok e2]; exact e5, by rw [M.bind_ok e3]; exact e4, d5, d4,
    (x1.trans x2).trans x5, x3.trans x4⟩

/-! ### The hypotheses hold for concrete tensors -/

theorem exHeap_moderate (t : Nat) (ht : t < 3) : Moderate exHeap t := by
  rcases t with _ | _ | _ | t
  · exact ⟨_, _, _, rfl, rfl, rfl, by decide⟩
  · exact ⟨_, _, _, rfl, rfl, rfl, by decide⟩
  · exact ⟨_, _, _, rfl, rfl, rfl, by decide⟩
  · omega

/-- The transposed 2x3 matrix, which reshape has to copy, as a vector and back. -/
example : ∃ r h1, (do Tensor.reshape (← Tensor.reshape 2 (request [6])) (request [3, 2]) : M Int Nat) exHeap = .ok r h1 ∧
    Denotes h1 r .i16 [3, 2] (fun idx => exA [idx.getD 1 0, idx.getD 0 0]) ∧ Preserves exHeap h1 :=
  C65_reshape_back exHeap_aT (exHeap_viewable 2 (by decide)) (by decide) (by unfold Modest; decide) (exHeap_moderate 2 (by decide)) (by decide)
    (.inl (by decide))
/-- The matrix as a vector and then as a 3x2 matrix. -/
example : ∃ r h1 r' h2 g, (do Tensor.reshape (← Tensor.reshape 0 (request [6])) (request [3, 2]) : M Int Nat) exHeap = .ok r h1 ∧
    Tensor.reshape 0 (request [3, 2]) exHeap = .ok r' h2 ∧ Denotes h1 r .i16 [3, 2] g ∧ Denotes h2 r' .i16 [3, 2] g ∧
    (rowMajor [3, 2]).map g = [.i 1, .i 2, .i 3, .i 4, .i 5, .i 6] := by
  obtain ⟨r, h1, r', h2, g, e1, e2, d1, d2, hg, _⟩ := C65_reshape_reshape (s1 := [6]) (s2 := [3, 2]) exHeap_a (exHeap_viewable 0 (by decide))
    (by decide) (by unfold Modest; decide) (exHeap_moderate 0 (by decide)) (by decide) (by decide) (.inl (by decide))
  exact ⟨r, h1, r', h2, g, e1, e2, d1, d2, by rw [hg]; decide⟩

example : Returns (Tensor.catT [2] 1 exHeap) exHeap .i16 [3, 2] (fun idx => exA [idx.getD 1 0, idx.getD 0 0]) :=
  C65_cat_one exHeap_aT (by decide) (by decide) (by decide)

/-- `cat(a, cat(a, a))` and `cat(a, a, a)` along the columns. -/
example : ∃ r h1 r' h2 dt g, (do
      let c ← Tensor.catT [0, 0] 1
      Tensor.catT [0, c] 1 : M Int Nat) exHeap = .ok r h1 ∧ Tensor.catT [0, 0, 0] 1 exHeap = .ok r' h2 ∧
    Denotes h1 r dt [2, 9] g ∧ Denotes h2 r' dt [2, 9] g ∧ Extends exHeap h1 ∧ Extends exHeap h2 :=
  C65_cat_cat (h := exHeap) (xs := [0]) (ys := [0, 0]) (zs := []) (sizes := [2, 3]) (d := 1) (bx := [⟨.i16, 3, exA⟩]) (by' := [⟨.i16, 3, exA⟩, ⟨.i16, 3, exA⟩]) (bz := [])
    (.cons exHeap_a .nil) (.cons exHeap_a (.cons exHeap_a .nil)) .nil (by simp) (by decide) (by decide) (by decide) (.inl rfl)

/-- A vector of `i32` twice, joined and cut again: `"3:6"` is the second one. -/
theorem exSpells_mid : Spells (everything 0 ++ [.range (some (3 : Nat)) (some ((3 + 3 : Nat) : Int)) none]) "3:6".toList :=
  .one (.range2 (p := ['3']) (q := ['6'])
    ⟨[], ['3'], [], by decide, ⟨['3'], by decide, by decide, Or.inl ⟨rfl, by decide⟩⟩, by decide, rfl⟩
    ⟨[], ['6'], [], by decide, ⟨['6'], by decide, by decide, Or.inl ⟨rfl, by decide⟩⟩, by decide, rfl⟩)
example : ∃ r h', (do Tensor.slice (← Tensor.catT [1, 1] 0) "3:6".toList : M Int Nat) exHeap = .ok r h' ∧
    Denotes h' r .i32 [3] (fun idx => converted .i32 .i32 (exB idx)) ∧ Preserves exHeap h' :=
  C65_cat_slice (pre := []) (post := []) (bs := [⟨.i32, 3, exB⟩]) (b := ⟨.i32, 3, exB⟩) (cs := []) (.cons exHeap_b (.cons exHeap_b .nil)) rfl
    (by decide) (by unfold Modest; decide) exSpells_mid

/-- The transposed matrix twice, joined along the rows, and transposed. -/
example : ∃ r h1 r' h2 dt g, (do Tensor.transpose (← Tensor.catT [2, 2] 0) 0 1 : M Int Nat) exHeap = .ok r h1 ∧
    (do
      let us ← [2, 2].mapM fun t => Tensor.transpose t 0 1
      Tensor.catT us 1 : M Int Nat) exHeap = .ok r' h2 ∧
    Denotes h1 r dt [2, 6] g ∧ Denotes h2 r' dt [2, 6] g ∧ Preserves exHeap h1 ∧ Preserves exHeap h2 := by
  let f : List Nat → Val Int := fun idx => exA [idx.getD 1 0, idx.getD 0 0]
  have hd : Denotes exHeap 2 .i16 [3, 2] f := exHeap_aT
  obtain ⟨r, h1, r', h2, dt, g, e1, e2, d1, d2, p1, p2⟩ := C65_cat_transpose (h := exHeap) (ts := [2, 2]) (d := 0) (e := 1) (sizes := [0, 2])
    (blocks := [⟨.i16, 3, f⟩, ⟨.i16, 3, f⟩]) (.cons hd (.cons hd .nil)) (fun t ht => by
      simp only [List.mem_cons, List.not_mem_nil, or_false, or_self] at ht
      subst ht
      exact exHeap_viewable 2 (by decide)) (by simp) (by decide) (by decide) (by decide) (by decide) (by unfold Modest; decide)
  exact ⟨r, h1, r', h2, dt, g, e1, e2, d1, d2, p1, p2⟩

/-- `cat(a, a) * cat(a, a)` along the columns. -/
example : ∃ r h1 r' h2 g, (do
      let x ← Tensor.catT [0, 0] 1
      let y ← Tensor.catT [0, 0] 1
      arithT .mul x y : M Int Nat) exHeap = .ok r h1 ∧
    (do
      let us ← ([0, 0].zip [0, 0]).mapM fun p => arithT .mul p.1 p.2
      Tensor.catT us 1 : M Int Nat) exHeap = .ok r' h2 ∧
    Denotes h1 r .i16 [2, 6] g ∧ Denotes h2 r' .i16 [2, 6] g ∧ Extends exHeap h1 ∧ Extends exHeap h2 :=
  C65_cat_arith .mul (d := 1) (dl := .i16) (dr := .i16) (sizes := [2, 0])
    (ps := [⟨3, exA, exA, fun idx => .i ((3 * idx.getD 0 0 + idx.getD 1 0 + 1) * (3 * idx.getD 0 0 + idx.getD 1 0 + 1))⟩,
      ⟨3, exA, exA, fun idx => .i ((3 * idx.getD 0 0 + idx.getD 1 0 + 1) * (3 * idx.getD 0 0 + idx.getD 1 0 + 1))⟩])
    (.cons exHeap_a (.cons exHeap_a .nil)) (.cons exHeap_a (.cons exHeap_a .nil)) (by
      intro p hp
      simp only [List.mem_cons, List.not_mem_nil, or_false, or_self] at hp
      subst hp
      exact forall_inBox (s := [2, 3]) (by decide)) (by simp) (by decide) (by decide) (by decide)

/-! ### Why `OneStep` -/

/-- A stand-in for floats in which `float` has less precision than `double`: as `float`, an integer is rounded to a multiple of 4. -/
def coarse : FOps Int := { toyFloat with ofInt := fun t n => if t = .f32 then n / 4 * 4 else n }

/-- The elements of `cat(cat(x, y), z)` or `cat(x, y, z)` for an `i32`, an `f32` and an `f64` vector of one element. -/
def joined (first : Bool) : Option Str :=
  letI := coarse
  result ((do
    let x ← Tensor.fromBlob [.i 5] [1] .i32
    let y ← Tensor.zeros [1] .f32
    let z ← Tensor.zeros [1] .f64
    Tensor.toString (← if first then (do Tensor.catT [← Tensor.catT [x, y] 0, z] 0) else Tensor.catT [x, y, z] 0) : M Int Str) Heap.empty)

/-- **C65**: without `OneStep`, joining some neighbours first can change elements: an integer is rounded to `float` on its way to
`double`. -/
theorem C65_rounds_twice : joined true = some "[4, 0, 0]".toList ∧ joined false = some "[5, 0, 0]".toList := by decide +kernel

end INNC
