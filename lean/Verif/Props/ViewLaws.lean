import Verif.Lemmas.Laws
import Verif.Props.Slice
import Verif.Props.Cat
/-
C63: laws of views.
-/
namespace INNC
open Spec
variable {F : Type} [FOps F]

/-! ### Views of views -/

/-- **C63**, a slice of a slice: the element at `idx` of `t[a][b]` is the element of `t` that `a` selects at the index that `b` selects
at `idx`, and it is the same place of the same storage. -/
theorem C63_slice_slice {h : Heap F} {t : Nat} {dt : DType} {sizes : List Nat} {f : List Nat → Val F}
    (ht : Denotes h t dt sizes f) (hv : Viewable h t) {as bs : List AxisSpec} {a b : List Char} (ha : Spells as a) (hb : Spells bs b)
    (hsa : Selects as sizes) (hsb : Selects bs (selShape as sizes)) (h64 : ∀ x ∈ as ++ bs, x.Is64)
    (hfa : ∀ i, h.ts[t]? = some i → StepsFit as i.view.strides)
    (hfb : ∀ r h' i, Tensor.slice t a h = .ok r h' → h'.ts[r]? = some i → StepsFit bs i.view.strides) :
    ReturnsView ((Tensor.slice t a >>= fun r => Tensor.slice r b) h) h t dt (selShape bs (selShape as sizes)) f
      (fun idx => selIndex as sizes (selIndex bs (selShape as sizes) idx)) :=
  view_trans (C07_slice_partial ht hv ha hsa (fun x hx => h64 x (by simp [hx])) hfa) fun r h' e d v =>
    C07_slice_partial d v hb hsb (fun x hx => h64 x (by simp [hx])) fun i hi => hfb r h' i e hi

/-- **C63**, a slice of a transposed tensor. -/
theorem C63_transpose_slice {h : Heap F} {t : Nat} {dt : DType} {sizes : List Nat} {f : List Nat → Val F}
    (ht : Denotes h t dt sizes f) (hv : Viewable h t) {x y : Nat} (hx : x < sizes.length) (hy : y < sizes.length) (hxy : x ≠ y)
    {bs : List AxisSpec} {b : List Char} (hb : Spells bs b) (hsb : Selects bs (swapped sizes x y)) (h64 : ∀ x ∈ bs, x.Is64)
    (hfb : ∀ r h' i, Tensor.transpose t x y h = .ok r h' → h'.ts[r]? = some i → StepsFit bs i.view.strides) :
    ReturnsView ((Tensor.transpose t x y >>= fun r => Tensor.slice r b) h) h t dt (selShape bs (swapped sizes x y)) f
      (fun idx => swapped (selIndex bs (swapped sizes x y) idx) x y) :=
  view_trans (C10_transpose ht hv hx hy hxy) fun r h' e d v => C07_slice_partial d v hb hsb h64 fun i hi => hfb r h' i e hi

/-- `a[",2:0:-1"][",-2"]` of the 2x3 matrix `a` is its column 2: of columns 2 and 1, the last but one. -/
example : ReturnsView ((Tensor.slice 0 ",2:0:-1".toList >>= fun r => Tensor.slice r ",-2".toList) exHeap) exHeap 0 .i16 [2] exA
    (fun idx => selIndex (everything 1 ++ [.range (some 2) (some 0) (some (-1))]) [2, 3] (selIndex (everything 1 ++ [.index (-2)]) [2, 2] idx)) :=
  C63_slice_slice exHeap_a (exHeap_viewable 0 (by decide)) exSpells6 exSpells5 (by simp [everything, Selects]) (by
    show Selects _ [2, 2]
    simp [everything, Selects]) (by
    intro x hx
    simp only [everything, List.replicate, List.cons_append, List.nil_append, List.mem_cons, List.not_mem_nil, or_false] at hx
    rcases hx with rfl | rfl | rfl | rfl <;> simp [AxisSpec.Is64, IsI64]) (by
    intro i hi
    have hi' : exHeap.ts[0]? = some ⟨.i16, ⟨[2, 3], [3, 1], 0⟩, 0, none, false, false, none⟩ := rfl
    rw [hi'] at hi
    obtain rfl := Option.some.inj hi
    simp [everything, StepsFit, IsI64]) (by
    intro r h' i _ _
    rcases i.view.strides with _ | ⟨a, _ | ⟨b, c⟩⟩ <;> simp [everything, StepsFit])
example : selIndex (everything 1 ++ [.range (some 2) (some 0) (some (-1))]) [2, 3] (selIndex (everything 1 ++ [.index (-2)]) [2, 2] [1]) = [1, 2] := by
  decide

/-! ### A view of a result is the result of the views -/

/-- **C63**: `(l op r)[s]` and `l[s] op r[s]` have the same type, the same shape and the same elements, for every arithmetic operation
whose results exist, every two tensors of the same shape without empty axes, and every slice. -/
theorem C63_arith_slice (op : AOp) {h : Heap F} {l r : Nat} {dl dr : DType} {sizes : List Nat} {fl fr g : List Nat → Val F}
    (hl : Denotes h l dl sizes fl) (hr : Denotes h r dr sizes fr) (hvl : Viewable h l) (hvr : Viewable h r) (h0 : 0 ∉ sizes)
    (hm : Modest sizes (later dl dr)) (hg : ∀ idx, InBox sizes idx → elemBinary op dl dr (fl idx) (fr idx) = some (g idx))
    {specs : List AxisSpec} {s : List Char} (hs : Spells specs s) (hsel : Selects specs sizes) (h64 : ∀ x ∈ specs, x.Is64)
    (hfl : ∀ i, h.ts[l]? = some i → StepsFit specs i.view.strides) (hfr : ∀ i, h.ts[r]? = some i → StepsFit specs i.view.strides)
    (hfs : StepsFit specs (rmStrides sizes)) :
    ∃ t h1 u h2, (do Tensor.slice (← arithT op l r) s : M F Nat) h = .ok t h1 ∧
      (do
        let a ← Tensor.slice l s
        let b ← Tensor.slice r s
        arithT op a b : M F Nat) h = .ok u h2 ∧
      Denotes h1 t (later dl dr) (selShape specs sizes) (fun idx => g (selIndex specs sizes idx)) ∧
      Denotes h2 u (later dl dr) (selShape specs sizes) (fun idx => g (selIndex specs sizes idx)) :=
  pointwise_view (pointwise_arith op dl dr) (K := fun t => Tensor.slice t s) (Q := StepsFit specs)
    (fun _ _ _ _ hd hv hq => C07_slice_partial hd hv hs hsel h64 hq) hl hr hvl hvr hfl hfr hfs h0 hm
    (Nat.lt_of_le_of_lt (Nat.mul_le_mul_right _ (vol_selShape h0 hsel)) hm) hg

/-- **C63**, the same for comparisons. -/
theorem C63_compare_slice (op : COp) {h : Heap F} {l r : Nat} {dl dr : DType} {sizes : List Nat} {fl fr : List Nat → Val F}
    (hl : Denotes h l dl sizes fl) (hr : Denotes h r dr sizes fr) (hvl : Viewable h l) (hvr : Viewable h r) (h0 : 0 ∉ sizes)
    (hm : Modest sizes .i8)
    {specs : List AxisSpec} {s : List Char} (hs : Spells specs s) (hsel : Selects specs sizes) (h64 : ∀ x ∈ specs, x.Is64)
    (hfl : ∀ i, h.ts[l]? = some i → StepsFit specs i.view.strides) (hfr : ∀ i, h.ts[r]? = some i → StepsFit specs i.view.strides)
    (hfs : StepsFit specs (rmStrides sizes)) :
    ∃ t h1 u h2 g, (do Tensor.slice (← Tensor.cmp op l r) s : M F Nat) h = .ok t h1 ∧
      (do
        let a ← Tensor.slice l s
        let b ← Tensor.slice r s
        Tensor.cmp op a b : M F Nat) h = .ok u h2 ∧
      Denotes h1 t .i8 (selShape specs sizes) g ∧ Denotes h2 u .i8 (selShape specs sizes) g := by
  obtain ⟨t, h1, u, h2, e⟩ := pointwise_view (pointwise_cmp op dl dr) (K := fun t => Tensor.slice t s) (Q := StepsFit specs)
    (fun _ _ _ _ hd hv hq => C07_slice_partial hd hv hs hsel h64 hq) hl hr hvl hvr hfl hfr hfs h0 hm
    (Nat.lt_of_le_of_lt (Nat.mul_le_mul_right _ (vol_selShape h0 hsel)) hm)
    (g := fun idx => .i (if elemCompare op dl dr (fl idx) (fr idx) then 1 else 0)) (fun _ _ => rfl)
  exact ⟨t, h1, u, h2, _, e⟩

/-- **C63**: `(l op r).transpose(x, y)` and `l.transpose(x, y) op r.transpose(x, y)` have the same type, shape and elements. -/
theorem C63_arith_transpose (op : AOp) {h : Heap F} {l r : Nat} {dl dr : DType} {sizes : List Nat} {fl fr g : List Nat → Val F}
    (hl : Denotes h l dl sizes fl) (hr : Denotes h r dr sizes fr) (hvl : Viewable h l) (hvr : Viewable h r) (h0 : 0 ∉ sizes)
    (hm : Modest sizes (later dl dr)) (hg : ∀ idx, InBox sizes idx → elemBinary op dl dr (fl idx) (fr idx) = some (g idx))
    {x y : Nat} (hx : x < sizes.length) (hy : y < sizes.length) (hxy : x ≠ y) :
    ∃ t h1 u h2, (do Tensor.transpose (← arithT op l r) x y : M F Nat) h = .ok t h1 ∧
      (do
        let a ← Tensor.transpose l x y
        let b ← Tensor.transpose r x y
        arithT op a b : M F Nat) h = .ok u h2 ∧
      Denotes h1 t (later dl dr) (swapped sizes x y) (fun idx => g (swapped idx x y)) ∧
      Denotes h2 u (later dl dr) (swapped sizes x y) (fun idx => g (swapped idx x y)) :=
  pointwise_view (pointwise_arith op dl dr) (K := fun t => Tensor.transpose t x y) (Q := fun _ => True)
    (fun _ _ _ _ hd hv _ => C10_transpose hd hv hx hy hxy) hl hr hvl hvr (fun _ _ => trivial) (fun _ _ => trivial) trivial h0 hm
    (by unfold Modest; rw [vol_swap h0 hx hy hxy]; exact hm) hg

/-- The hypotheses hold for the 2x3 matrix, multiplied by itself, and its columns 2 and 1. -/
example : ∃ t h1 u h2 g, (do Tensor.slice (← arithT .mul 0 0) ",2:0:-1".toList : M Int Nat) exHeap = .ok t h1 ∧
    (do
      let a ← Tensor.slice 0 ",2:0:-1".toList
      let b ← Tensor.slice 0 ",2:0:-1".toList
      arithT .mul a b : M Int Nat) exHeap = .ok u h2 ∧ Denotes h1 t .i16 [2, 2] g ∧ Denotes h2 u .i16 [2, 2] g ∧ g [1, 0] = .i 36 := by
  have hfit : ∀ i, exHeap.ts[0]? = some i → StepsFit (everything 1 ++ [.range (some 2) (some 0) (some (-1))]) i.view.strides := by
    intro i hi
    have hi' : exHeap.ts[0]? = some ⟨.i16, ⟨[2, 3], [3, 1], 0⟩, 0, none, false, false, none⟩ := rfl
    rw [hi'] at hi
    obtain rfl := Option.some.inj hi
    simp [everything, StepsFit, IsI64]
  obtain ⟨t, h1, u, h2, e1, e2, d1, d2⟩ := C63_arith_slice .mul (g := fun idx => .i ((3 * idx.getD 0 0 + idx.getD 1 0 + 1) * (3 * idx.getD 0 0 + idx.getD 1 0 + 1)))
    exHeap_a exHeap_a (exHeap_viewable 0 (by decide)) (exHeap_viewable 0 (by decide)) (by decide) (by unfold Modest; decide)
    (forall_inBox (by decide)) exSpells6 (by simp [everything, Selects]) (by
    intro x hx
    simp only [everything, List.replicate, List.cons_append, List.nil_append, List.mem_cons, List.not_mem_nil, or_false] at hx
    rcases hx with rfl | rfl <;> simp [AxisSpec.Is64, IsI64]) hfit hfit (by simp [everything, StepsFit, IsI64, rmStrides, vol])
  exact ⟨t, h1, u, h2, _, e1, e2, d1, d2, by decide⟩

/-- The hypotheses of `C63_arith_transpose` hold for the 2x3 matrix. -/
example : ∃ t h1 u h2 g, (do Tensor.transpose (← arithT .add 0 0) 0 1 : M Int Nat) exHeap = .ok t h1 ∧
    (do
      let a ← Tensor.transpose 0 0 1
      let b ← Tensor.transpose 0 0 1
      arithT .add a b : M Int Nat) exHeap = .ok u h2 ∧ Denotes h1 t .i16 [3, 2] g ∧ Denotes h2 u .i16 [3, 2] g ∧ g [2, 0] = .i 6 := by
  obtain ⟨t, h1, u, h2, e1, e2, d1, d2⟩ := C63_arith_transpose .add (x := 0) (y := 1) (g := fun idx => .i (2 * (3 * idx.getD 0 0 + idx.getD 1 0 + 1)))
    exHeap_a exHeap_a (exHeap_viewable 0 (by decide)) (exHeap_viewable 0 (by decide)) (by decide) (by unfold Modest; decide)
    (forall_inBox (by decide)) (by decide) (by decide) (by decide)
  exact ⟨t, h1, u, h2, _, e1, e2, d1, d2, by decide⟩

/-! ### Cutting and joining -/

/-- **C63**: cutting a tensor in two along any axis, at any place, and joining the parts with `cat` gives a tensor with the same type,
shape and elements. `a` and `b` are the slices `:m` and `m:` of the axis. -/
theorem C63_cut_join {h : Heap F} {t : Nat} {dt : DType} {pre post : List Nat} {n m : Nat} {f : List Nat → Val F}
    (ht : Denotes h t dt (pre ++ n :: post) f) (hv : Viewable h t) (hm : m ≤ n)
    (hsize : vol (pre ++ n :: post) * dt.size < 9223372036854775808) {a b : List Char}
    (ha : Spells (everything pre.length ++ [.range none (some m) none]) a)
    (hb : Spells (everything pre.length ++ [.range (some m) none none]) b) :
    ∃ r h', (do
        let x ← Tensor.slice t a
        let y ← Tensor.slice t b
        Tensor.catT [x, y] pre.length : M F Nat) h = .ok r h' ∧ Denotes h' r dt (pre ++ n :: post) f ∧ Preserves h h' := by
  have hn : n ≤ 4611686018427387904 := by
    obtain ⟨i, hi, h1, h2, hr⟩ := id ht
    obtain ⟨i', hi', htm, _⟩ := id hv
    rw [hi] at hi'
    obtain rfl := Option.some.inj hi'
    have hl := hr.strides
    rw [h2] at htm hl
    simp only [List.length_append, List.length_cons] at hl
    exact (tame_iff.1 htm pre.length n _ (by simp) (List.getElem?_eq_getElem (by omega))).1
  obtain ⟨σ, ⟨x, h1, e1, d1, _, _, p1, _, _, k1⟩, s1⟩ := C06_range_partial (start := none) (stop := some m) (step := none) ht hv
    (by intro o ho k hk
        simp only [List.mem_cons, List.not_mem_nil, or_false] at ho
        rcases ho with rfl | rfl | rfl <;> first | cases hk | skip
        unfold IsI64; omega) (by simp) ha (by intro _ _ _ _ _ hk; cases hk)
  obtain ⟨τ, ⟨y, h2, e2, d2, _, _, p2, _, _, _⟩, s2⟩ := C06_range_partial (start := some m) (stop := none) (step := none)
    (preserves_denotes p1 ht) (k1 t hv)
    (by intro o ho k hk
        simp only [List.mem_cons, List.not_mem_nil, or_false] at ho
        rcases ho with rfl | rfl | rfl <;> first | cases hk | skip
        unfold IsI64; omega) (by simp) hb (by intro _ _ _ _ _ hk; cases hk)
  simp only [pyLen_upto hm, pyLen_from hm, pyAt_upto, pyAt_from hm] at d1 d2 s1 s2
  have hset : ∀ z, (pre ++ n :: post).set pre.length z = pre ++ z :: post := by intro z; simp
  let blocks : List (Block F) := [⟨dt, m, fun idx => f (σ idx)⟩, ⟨dt, n - m, fun idx => f (τ idx)⟩]
  have hlat : latest (blocks.map (·.dt)) = dt := by
    show later dt (later dt .i8) = dt
    cases dt <;> decide
  have htot : axisTotal blocks = n := by
    show m + (n - m + 0) = n
    omega
  obtain ⟨r, h3, e3, d3, ex3, _⟩ := C29_cat (h := h2) (d := pre.length) (sizes := pre ++ n :: post) (ts := [x, y]) (blocks := blocks)
    (.cons (by rw [hset]; exact preserves_denotes p2 d1) (.cons (by rw [hset]; exact d2) .nil)) (by simp) (by simp)
    (by rw [htot]; omega) (by rw [htot, hlat, hset]; exact hsize)
  rw [hlat, htot, hset] at d3
  refine ⟨r, h3, by rw [M.bind_ok e1, M.bind_ok e2]; exact e3, d3.congr fun idx hb => ?_, (p1.trans p2).trans ex3.preserves⟩
  obtain ⟨u, j, v, rfl, hul, hj⟩ := inBox_split hb
  have ty := fun (k : List Nat) (hk : InBox (pre ++ n :: post) k) => ht.typed hk
  have hgd : (u ++ j :: v).getD pre.length 0 = j := by
    rw [← hul]; simp
  have conv : ∀ k, InBox (pre ++ n :: post) k → converted dt dt (f k) = f k := by
    intro k hk
    unfold converted
    rw [convert_self (ty k hk)]
    rfl
  show catAt pre.length dt blocks (u ++ j :: v) = f (u ++ j :: v)
  simp only [blocks, catAt]
  rw [hgd]
  by_cases hlt : j < m
  · rw [if_pos hlt, s1 u j v hul]
    exact conv _ hb
  · have hset2 : (u ++ j :: v).set pre.length (j - m) = u ++ (j - m) :: v := by rw [← hul]; simp
    rw [if_neg hlt, hset2]
    have hgd2 : (u ++ (j - m) :: v).getD pre.length 0 = j - m := by rw [← hul]; simp
    rw [hgd2, if_pos (by omega), s2 u (j - m) v hul, show m + (j - m) = j from by omega]
    exact conv _ hb

/-- `",:1"` and `",1:"`: the first column of a matrix, and the others. -/
theorem exSpells_upto : Spells (everything 1 ++ [.range none (some (1 : Nat)) none]) ",:1".toList :=
  .cons (s := []) .whole (by simp) (.one (.range2 (p := []) (q := ['1']) (by simp [Optional, Blank])
    ⟨[], ['1'], [], by decide, ⟨['1'], by decide, by decide, Or.inl ⟨rfl, by decide⟩⟩, by decide, rfl⟩))
theorem exSpells_from : Spells (everything 1 ++ [.range (some (1 : Nat)) none none]) ",1:".toList :=
  .cons (s := []) .whole (by simp) (.one (.range2 (p := ['1']) (q := [])
    ⟨[], ['1'], [], by decide, ⟨['1'], by decide, by decide, Or.inl ⟨rfl, by decide⟩⟩, by decide, rfl⟩ (by simp [Optional, Blank])))

example : ∃ r h', (do
    let x ← Tensor.slice 0 ",:1".toList
    let y ← Tensor.slice 0 ",1:".toList
    Tensor.catT [x, y] 1 : M Int Nat) exHeap = .ok r h' ∧ Denotes h' r .i16 [2, 3] exA ∧ Preserves exHeap h' :=
  C63_cut_join (pre := [2]) (n := 3) (m := 1) (post := []) exHeap_a (exHeap_viewable 0 (by decide)) (by decide) (by decide)
    exSpells_upto exSpells_from

end INNC
