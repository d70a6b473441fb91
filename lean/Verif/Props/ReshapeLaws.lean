import Verif.Props.Reshape
import Verif.Props.ViewLaws
import Verif.Lemmas.Valid
/-
C65: element-wise operations and reshape.
-/
namespace INNC
open Spec
variable {F : Type} [FOps F]

theorem reshape_reads {h : Heap F} {t : Nat} {dt : DType} {s s' : List Nat} {f : List Nat → Val F} (ht : Denotes h t dt s f)
    (hv : Viewable h t) (h0 : 0 ∉ s) (hsz : vol s < 576460752303423488) (hs : vol s' = vol s) (hns : s = [] ↔ s' = []) :
    ∃ r h', Tensor.reshape t (request s') h = .ok r h' ∧ Denotes h' r dt s' (fun idx => f (reindex s s' idx)) ∧ Preserves h h' ∧ VK h h' := by
  have h8 : dt.size ≤ 8 := by cases dt <;> decide
  have hb : vol s * dt.size < 9223372036854775808 := by
    have := Nat.mul_le_mul_left (vol s) h8
    omega
  have h0' : 0 ∉ s' := fun hc => h0 (vol_eq_zero.1 (by rw [← hs]; exact vol_eq_zero.2 hc))
  obtain ⟨r, h', g, e, d, hg, p, _⟩ := C11_reshape_partial ht hv hb (fun n hn => by
    have := mem_le_vol h0' hn
    omega) hs (.inl hns)
  refine ⟨r, h', e, d.congr fun idx hi => ?_, p, (valid_reshape t (request s')).ok e⟩
  rw [← map_reindex hs f] at hg
  exact (List.map_inj_left.1 hg idx (mem_rowMajor.2 hi))

theorem pointwise_reshape {P : Nat → Nat → M F Nat} {dl dr dt : DType} {e : Val F → Val F → Option (Val F)} (hP : Pointwise P dl dr dt e)
    {h : Heap F} {l r : Nat} {s s' : List Nat} {fl fr g : List Nat → Val F} (hl : Denotes h l dl s fl) (hr : Denotes h r dr s fr)
    (hvl : Viewable h l) (hvr : Viewable h r) (hgr : ∀ (u : Nat) (i : Impl) (x : Nat), h.ts[u]? = some i → i.grad = some x → x < h.ts.length) (h0 : 0 ∉ s)
    (hsz : vol s < 576460752303423488) (hs : vol s' = vol s) (hns : s = [] ↔ s' = [])
    (hg : ∀ idx, InBox s idx → e (fl idx) (fr idx) = some (g idx)) :
    ∃ t h1 u h2, (do Tensor.reshape (← P l r) (request s') : M F Nat) h = .ok t h1 ∧
      (do
        let a ← Tensor.reshape l (request s')
        let b ← Tensor.reshape r (request s')
        P a b : M F Nat) h = .ok u h2 ∧
      Denotes h1 t dt s' (fun idx => g (reindex s s' idx)) ∧ Denotes h2 u dt s' (fun idx => g (reindex s s' idx)) := by
  have h8 : dt.size ≤ 8 := by cases dt <;> decide
  have hb : vol s * dt.size < 9223372036854775808 := by
    have := Nat.mul_le_mul_left (vol s) h8
    omega
  obtain ⟨c, k1, e1, d1, _, j, hj, hjg, hjv⟩ := hP h l r s fl fr g hl hr hb hg
  obtain ⟨t, k2, e2, d2, _⟩ := reshape_reads d1 (viewable_contig hj hjg hjv h0 (by omega)) h0 hsz hs hns
  obtain ⟨a, m1, f1, da, p1, v1⟩ := reshape_reads hl hvl h0 hsz hs hns
  have hvr1 : Viewable m1 r := by
    obtain ⟨i, hi, ht, _⟩ := hvr
    obtain ⟨i', hi', _, q2, _⟩ := p1.ts _ _ hi
    refine ⟨i', hi', by rw [q2]; exact ht, fun x hx => ?_⟩
    rcases v1.grad r x i' hi' hx with hlt | ⟨u, j, hu, hgu⟩
    · exact hlt
    · exact Nat.lt_of_lt_of_le (hgr u j x hu hgu) v1.tlen
  obtain ⟨b, m2, f2, db, p2, _⟩ := reshape_reads (preserves_denotes p1 hr) hvr1 h0 hsz hs hns
  obtain ⟨u, m3, f3, d3, _⟩ := hP m2 a b s' _ _ (fun idx => g (reindex s s' idx)) (preserves_denotes p2 da) db (by rw [hs]; exact hb)
    (fun idx hi => hg _ (reindex_inBox hs hi))
  refine ⟨t, k2, u, m3, by rw [M.bind_ok e1]; exact e2, ?_, d2, d3⟩
  rw [M.bind_ok f1, M.bind_ok f2]
  exact f3

/-- **C65**: `(l op r).reshape(s')` and `l.reshape(s') op r.reshape(s')` have the same type, shape and elements, for every arithmetic
operation whose results exist and every two tensors of the same shape without empty axes, in a state in which every gradient exists
(as in every state that calls reach). The elements are those of `l op r` in row-major order. -/
theorem C65_arith_reshape (op : AOp) {h : Heap F} {l r : Nat} {dl dr : DType} {s s' : List Nat} {fl fr g : List Nat → Val F}
    (hl : Denotes h l dl s fl) (hr : Denotes h r dr s fr) (hvl : Viewable h l) (hvr : Viewable h r)
    (hgr : ∀ (u : Nat) (i : Impl) (x : Nat), h.ts[u]? = some i → i.grad = some x → x < h.ts.length) (h0 : 0 ∉ s) (hsz : vol s < 576460752303423488)
    (hs : vol s' = vol s) (hns : s = [] ↔ s' = []) (hg : ∀ idx, InBox s idx → elemBinary op dl dr (fl idx) (fr idx) = some (g idx)) :
    ∃ t h1 u h2 g', (do Tensor.reshape (← arithT op l r) (request s') : M F Nat) h = .ok t h1 ∧
      (do
        let a ← Tensor.reshape l (request s')
        let b ← Tensor.reshape r (request s')
        arithT op a b : M F Nat) h = .ok u h2 ∧
      Denotes h1 t (later dl dr) s' g' ∧ Denotes h2 u (later dl dr) s' g' ∧ (rowMajor s').map g' = (rowMajor s).map g := by
  obtain ⟨t, h1, u, h2, e1, e2, d1, d2⟩ := pointwise_reshape (pointwise_arith op dl dr) hl hr hvl hvr hgr h0 hsz hs hns hg
  exact ⟨t, h1, u, h2, _, e1, e2, d1, d2, map_reindex hs g⟩

/-- **C65**, the same for comparisons. -/
theorem C65_compare_reshape (op : COp) {h : Heap F} {l r : Nat} {dl dr : DType} {s s' : List Nat} {fl fr : List Nat → Val F}
    (hl : Denotes h l dl s fl) (hr : Denotes h r dr s fr) (hvl : Viewable h l) (hvr : Viewable h r)
    (hgr : ∀ (u : Nat) (i : Impl) (x : Nat), h.ts[u]? = some i → i.grad = some x → x < h.ts.length) (h0 : 0 ∉ s) (hsz : vol s < 576460752303423488)
    (hs : vol s' = vol s) (hns : s = [] ↔ s' = []) :
    ∃ t h1 u h2 g', (do Tensor.reshape (← Tensor.cmp op l r) (request s') : M F Nat) h = .ok t h1 ∧
      (do
        let a ← Tensor.reshape l (request s')
        let b ← Tensor.reshape r (request s')
        Tensor.cmp op a b : M F Nat) h = .ok u h2 ∧
      Denotes h1 t .i8 s' g' ∧ Denotes h2 u .i8 s' g' ∧
      (rowMajor s').map g' = (rowMajor s).map fun idx => .i (if elemCompare op dl dr (fl idx) (fr idx) then 1 else 0) := by
  obtain ⟨t, h1, u, h2, e1, e2, d1, d2⟩ := pointwise_reshape (pointwise_cmp op dl dr) hl hr hvl hvr hgr h0 hsz hs hns
    (g := fun idx => .i (if elemCompare op dl dr (fl idx) (fr idx) then 1 else 0)) (fun _ _ => rfl)
  exact ⟨t, h1, u, h2, _, e1, e2, d1, d2,
    map_reindex hs fun idx => (.i (if elemCompare op dl dr (fl idx) (fr idx) then 1 else 0) : Val F)⟩

/-! ### Examples -/

theorem exHeap_grads : ∀ (u : Nat) (i : Impl) (x : Nat), exHeap.ts[u]? = some i → i.grad = some x → x < exHeap.ts.length := by
  intro u i x hi hx
  match u, hi with
  | 0, hi => obtain rfl := Option.some.inj hi; cases hx
  | 1, hi => obtain rfl := Option.some.inj hi; cases hx
  | 2, hi => obtain rfl := Option.some.inj hi; cases hx

/-- The 2x3 matrix times itself, as a 3x2 matrix. -/
example : ∃ t h1 u h2 g', (do Tensor.reshape (← arithT .mul 0 0) (request [3, 2]) : M Int Nat) exHeap = .ok t h1 ∧
    (do
      let a ← Tensor.reshape 0 (request [3, 2])
      let b ← Tensor.reshape 0 (request [3, 2])
      arithT .mul a b : M Int Nat) exHeap = .ok u h2 ∧
    Denotes h1 t .i16 [3, 2] g' ∧ Denotes h2 u .i16 [3, 2] g' ∧
    (rowMajor [3, 2]).map g' = [.i 1, .i 4, .i 9, .i 16, .i 25, .i 36] := by
  obtain ⟨t, h1, u, h2, g', e1, e2, d1, d2, hg⟩ := C65_arith_reshape .mul (s := [2, 3]) (s' := [3, 2])
    (g := fun idx => .i ((3 * idx.getD 0 0 + idx.getD 1 0 + 1) * (3 * idx.getD 0 0 + idx.getD 1 0 + 1)))
    exHeap_a exHeap_a (exHeap_viewable 0 (by decide)) (exHeap_viewable 0 (by decide)) exHeap_grads (by decide) (by decide) (by decide) (by decide)
    (forall_inBox (by decide))
  exact ⟨t, h1, u, h2, g', e1, e2, d1, d2, hg.trans (by decide)⟩
example : ∃ t h1 u h2 g', (do Tensor.reshape (← Tensor.cmp .le 0 0) (request [6]) : M Int Nat) exHeap = .ok t h1 ∧
    (do
      let a ← Tensor.reshape 0 (request [6])
      let b ← Tensor.reshape 0 (request [6])
      Tensor.cmp .le a b : M Int Nat) exHeap = .ok u h2 ∧
    Denotes h1 t .i8 [6] g' ∧ Denotes h2 u .i8 [6] g' ∧ (rowMajor [6]).map g' = [.i 1, .i 1, .i 1, .i 1, .i 1, .i 1] := by
  obtain ⟨t, h1, u, h2, g', e1, e2, d1, d2, hg⟩ := C65_compare_reshape .le (s := [2, 3]) (s' := [6]) exHeap_a exHeap_a (exHeap_viewable 0 (by decide)) (exHeap_viewable 0 (by decide))
    exHeap_grads (by decide) (by decide) (by decide) (by decide)
  exact ⟨t, h1, u, h2, g', e1, e2, d1, d2, hg.trans (by decide)⟩

end INNC
