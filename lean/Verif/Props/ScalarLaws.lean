import Verif.Props.ReshapeLaws
import Verif.Spec.Scaling
/-
C63, C65: operations of a tensor with a scalar, negation, and views.
-/
namespace INNC
open Spec
variable {F : Type} [FOps F]

/-- `P` computes a new tensor from `x` element by element, as long as `C` holds of the heap and `x`. -/
def Mapwise (C : Heap F → Nat → Prop) (P : Nat → M F Nat) (ds dt : DType) (e : Val F → Option (Val F)) : Prop :=
  ∀ (H : Heap F) x sh fx g, C H x → Denotes H x ds sh fx → vol sh * dt.size < 9223372036854775808 →
    (∀ idx, InBox sh idx → e (fx idx) = some (g idx)) →
    ∃ t H', P x H = .ok t H' ∧ Denotes H' t dt sh g ∧ Extends H H' ∧
      ∃ j, H'.ts[t]? = some j ∧ j.grad = none ∧ j.view = Layout.contig sh

theorem bshape_scalar (s : List Nat) : bshape [] s = some s := by
  rw [bshape_comm]
  unfold bshape
  rw [show ([] : List Nat).reverse = [] from rfl]
  have : ∀ u : List Nat, bshapeRev u [] = some u := by
    intro u; cases u <;> rfl
  rw [this]; simp

theorem stretched_scalar (s : List Nat) : ¬ stretched [] s := by
  unfold stretched; simp [stretchRev]

theorem mapwise_left (op : AOp) (z : Nat) (dz ds : DType) (v : Val F) :
    Mapwise (fun H _ => Denotes H z dz [] fun _ => v) (arithT op z) ds (later dz ds) fun x => elemBinary op dz ds v x := by
  intro H x sh fx g hz hx hsz hg
  obtain ⟨h', _, _, j, _, _, e, d, ex, _, hj, hjg, _, hjv, _⟩ := arith_ok (op := op) (g := g) hz hx (bshape_scalar sh) (stretched_scalar sh) hsz
    (fun idx hi => by rw [project_self hi]; exact hg idx hi)
  exact ⟨_, h', e, d, ex, j, hj, hjg, hjv⟩

theorem mapwise_right (op : AOp) (z : Nat) (dz ds : DType) (v : Val F) :
    Mapwise (fun H _ => Denotes H z dz [] fun _ => v) (fun x => arithT op x z) ds (later ds dz) fun x => elemBinary op ds dz x v := by
  intro H x sh fx g hz hx hsz hg
  have hst : ¬ stretched sh [] := by
    unfold stretched
    cases sh.reverse <;> simp [stretchRev]
  obtain ⟨h', _, _, j, _, _, e, d, ex, _, hj, hjg, _, hjv, _⟩ := arith_ok (op := op) (g := g) hx hz (by rw [bshape_comm]; exact bshape_scalar sh) hst hsz
    (fun idx hi => by rw [project_self hi]; exact hg idx hi)
  exact ⟨_, h', e, d, ex, j, hj, hjg, hjv⟩

theorem mapwise_neg (ds : DType) :
    Mapwise (F := F) (fun _ _ => True) Tensor.negT ds (later .i32 ds) fun x => elemArith .sub .i32 ds (.i 0) x := by
  intro H x sh fx g _ hx hsz hg
  obtain ⟨h1, e1, b1, _⟩ := createScalar_ok (F := F) (dt := .i32) (v := .i 0) (by rw [hasType_i]; decide) H
  have hsub : ∀ y : Val F, elemBinary .sub .i32 ds (.i 0) y = elemArith .sub .i32 ds (.i 0) y := fun y => by
    unfold elemBinary
    rw [if_neg (by rintro ⟨h | h, _⟩ <;> cases h)]
  obtain ⟨h', _, _, j, _, _, e, d, ex, _, hj, hjg, _, hjv, _⟩ := arith_ok (op := .sub) (g := g) b1.denotes (hx.of_extends b1.ext) (bshape_scalar sh)
    (stretched_scalar sh) hsz (fun idx hi => by rw [project_self hi, hsub]; exact hg idx hi)
  refine ⟨_, h', ?_, d, ⟨fun t i h => ex.ts t i (b1.ext.ts t i h), fun t i h => ex.st t i (b1.ext.st t i h)⟩, j, hj, hjg, hjv⟩
  unfold Tensor.negT
  rw [M.bind_ok e1]
  exact e

theorem mapwise_view {C : Heap F → Nat → Prop} {P : Nat → M F Nat} {ds dt : DType} {e : Val F → Option (Val F)} (hP : Mapwise C P ds dt e)
    {K : Nat → M F Nat} (hC : ∀ H H' x dx sh fx r, Denotes H x dx sh fx → K x H = .ok r H' → Preserves H H' → C H x → C H' r) {Q : List Int → Prop} {s s' : List Nat} {σ : List Nat → List Nat}
    (hK : ∀ (H : Heap F) x dx fx, Denotes H x dx s fx → Viewable H x → (∀ i, H.ts[x]? = some i → Q i.view.strides) →
      ∃ r H', K x H = .ok r H' ∧ Denotes H' r dx s' (fun idx => fx (σ idx)) ∧ Preserves H H')
    {h : Heap F} {x : Nat} {f g : List Nat → Val F} (hc : C h x) (hx : Denotes h x ds s f) (hv : Viewable h x)
    (hq : ∀ i, h.ts[x]? = some i → Q i.view.strides) (hqs : Q (rmStrides s)) (h0 : 0 ∉ s) (hsz : vol s < 576460752303423488)
    (hsz' : vol s' < 576460752303423488) (hin : ∀ idx, InBox s' idx → InBox s (σ idx)) (hg : ∀ idx, InBox s idx → e (f idx) = some (g idx)) :
    ∃ t h1 u h2, (do K (← P x) : M F Nat) h = .ok t h1 ∧ (do P (← K x) : M F Nat) h = .ok u h2 ∧
      Denotes h1 t dt s' (fun idx => g (σ idx)) ∧ Denotes h2 u dt s' (fun idx => g (σ idx)) := by
  have h8 : dt.size ≤ 8 := by cases dt <;> decide
  have hb : vol s * dt.size < 9223372036854775808 := by
    have := Nat.mul_le_mul_left (vol s) h8
    omega
  have hb' : vol s' * dt.size < 9223372036854775808 := by
    have := Nat.mul_le_mul_left (vol s') h8
    omega
  obtain ⟨c, k1, e1, d1, _, j, hj, hjg, hjv⟩ := hP h x s f g hc hx hb hg
  obtain ⟨t, k2, e2, d2, _⟩ := hK k1 c dt g d1 (viewable_contig hj hjg hjv h0 (by omega)) (fun i hi => by
    rw [hj] at hi
    obtain rfl := Option.some.inj hi
    rw [hjv]
    show Q (contigStrides s)
    rw [contigStrides_eq_rm h0 (by omega)]
    exact hqs)
  obtain ⟨a, m1, f1, da, p1⟩ := hK h x ds f hx hv hq
  obtain ⟨u, m2, f2, d3, _⟩ := hP m1 a s' _ (fun idx => g (σ idx)) (hC _ _ _ _ _ _ _ hx f1 p1 hc) da hb' (fun idx hi => hg _ (hin idx hi))
  exact ⟨t, k2, u, m2, by rw [M.bind_ok e1]; exact e2, by rw [M.bind_ok f1]; exact f2, d2, d3⟩

theorem mapwise_scaling (w : Scaling) (z : Nat) (dz ds : DType) (v : Val F) :
    Mapwise (fun H _ => w = .neg ∨ Denotes H z dz [] fun _ => v) (w.run z) ds (w.type dz ds) (w.elem dz ds v) := by
  cases w with
  | left op => exact fun H x sh fx g hc => mapwise_left op z dz ds v H x sh fx g (hc.resolve_left (by intro h; cases h))
  | right op => exact fun H x sh fx g hc => mapwise_right op z dz ds v H x sh fx g (hc.resolve_left (by intro h; cases h))
  | neg => exact fun H x sh fx g _ => mapwise_neg ds H x sh fx g trivial

/-- **C63**: with a scalar `z`, `(z op t)[s]` and `z op t[s]` (also `t op z`, and `-t`) have the same type, shape and elements. -/
theorem C63_scalar_slice (w : Scaling) {h : Heap F} {z t : Nat} {dz dt : DType} {v : Val F} {sizes : List Nat} {f g : List Nat → Val F}
    (hz : w = .neg ∨ Denotes h z dz [] fun _ => v) (ht : Denotes h t dt sizes f) (hv : Viewable h t) (h0 : 0 ∉ sizes)
    (hsz : vol sizes < 576460752303423488) (hg : ∀ idx, InBox sizes idx → w.elem dz dt v (f idx) = some (g idx))
    {specs : List AxisSpec} {s : List Char} (hs : Spells specs s) (hsel : Selects specs sizes) (h64 : ∀ x ∈ specs, x.Is64)
    (hf : ∀ i, h.ts[t]? = some i → StepsFit specs i.view.strides) (hfs : StepsFit specs (rmStrides sizes)) :
    ∃ a h1 b h2, (do Tensor.slice (← w.run z t) s : M F Nat) h = .ok a h1 ∧ (do w.run z (← Tensor.slice t s) : M F Nat) h = .ok b h2 ∧
      Denotes h1 a (w.type dz dt) (selShape specs sizes) (fun idx => g (selIndex specs sizes idx)) ∧
      Denotes h2 b (w.type dz dt) (selShape specs sizes) (fun idx => g (selIndex specs sizes idx)) := by
  have hin : ∀ idx, InBox (selShape specs sizes) idx → InBox sizes (selIndex specs sizes idx) := by
    intro idx hb
    obtain ⟨_, _, _, _, pa, _, pr, _⟩ := C07_slice_partial ht hv hs hsel h64 hf
    obtain ⟨_, y, _, hy, _, _, hin, _⟩ := pa idx hb
    obtain ⟨i0, hi0, _, hs0, _⟩ := id ht
    obtain ⟨i1, hi1, _, hw, _⟩ := pr.ts _ _ hi0
    rw [hy] at hi1
    obtain rfl := Option.some.inj hi1
    rw [hw, hs0] at hin
    exact hin
  exact mapwise_view (mapwise_scaling w z dz dt v) (fun _ _ _ _ _ _ _ _ _ p hz => hz.imp_right (preserves_denotes p)) (K := fun t => Tensor.slice t s) (Q := StepsFit specs)
    (fun _ _ _ _ hd hv hq => by
      obtain ⟨r, h', e, d, _, _, p, _⟩ := C07_slice_partial hd hv hs hsel h64 hq
      exact ⟨r, h', e, d, p⟩) hz ht hv hf hfs h0 hsz
    (Nat.lt_of_le_of_lt (vol_selShape h0 hsel) hsz) hin hg

/-- **C63**, the same for `transpose`. -/
theorem C63_scalar_transpose (w : Scaling) {h : Heap F} {z t : Nat} {dz dt : DType} {v : Val F} {sizes : List Nat} {f g : List Nat → Val F}
    (hz : w = .neg ∨ Denotes h z dz [] fun _ => v) (ht : Denotes h t dt sizes f) (hv : Viewable h t) (h0 : 0 ∉ sizes)
    (hsz : vol sizes < 576460752303423488) (hg : ∀ idx, InBox sizes idx → w.elem dz dt v (f idx) = some (g idx))
    {x y : Nat} (hx : x < sizes.length) (hy : y < sizes.length) (hxy : x ≠ y) :
    ∃ a h1 b h2, (do Tensor.transpose (← w.run z t) x y : M F Nat) h = .ok a h1 ∧
      (do w.run z (← Tensor.transpose t x y) : M F Nat) h = .ok b h2 ∧
      Denotes h1 a (w.type dz dt) (swapped sizes x y) (fun idx => g (swapped idx x y)) ∧
      Denotes h2 b (w.type dz dt) (swapped sizes x y) (fun idx => g (swapped idx x y)) :=
  mapwise_view (mapwise_scaling w z dz dt v) (fun _ _ _ _ _ _ _ _ _ p hz => hz.imp_right (preserves_denotes p)) (K := fun t => Tensor.transpose t x y) (Q := fun _ => True)
    (fun _ _ _ _ hd hv _ => by
      obtain ⟨r, h', e, d, _, _, p, _⟩ := C10_transpose hd hv hx hy hxy
      exact ⟨r, h', e, d, p⟩) hz ht hv (fun _ _ => trivial) trivial h0 hsz
    (by rw [vol_swap h0 hx hy hxy]; exact hsz) (fun idx hi => inBox_swapped hx hy hi) hg

/-- **C65**, the same for `reshape`; the elements are in row-major order. -/
theorem C65_scalar_reshape (w : Scaling) {h : Heap F} {z t : Nat} {dz dt : DType} {v : Val F} {s s' : List Nat} {f g : List Nat → Val F}
    (hz : w = .neg ∨ Denotes h z dz [] fun _ => v) (ht : Denotes h t dt s f) (hv : Viewable h t) (h0 : 0 ∉ s)
    (hsz : vol s < 576460752303423488) (hg : ∀ idx, InBox s idx → w.elem dz dt v (f idx) = some (g idx))
    (hs : vol s' = vol s) (hns : s = [] ↔ s' = []) :
    ∃ a h1 b h2 g', (do Tensor.reshape (← w.run z t) (request s') : M F Nat) h = .ok a h1 ∧
      (do w.run z (← Tensor.reshape t (request s')) : M F Nat) h = .ok b h2 ∧
      Denotes h1 a (w.type dz dt) s' g' ∧ Denotes h2 b (w.type dz dt) s' g' ∧ (rowMajor s').map g' = (rowMajor s).map g := by
  obtain ⟨a, h1, b, h2, e1, e2, d1, d2⟩ := mapwise_view (mapwise_scaling w z dz dt v) (fun _ _ _ _ _ _ _ _ _ p hz => hz.imp_right (preserves_denotes p))
    (K := fun t => Tensor.reshape t (request s')) (Q := fun _ => True)
    (fun _ _ _ _ hd hv _ => by
      obtain ⟨r, h', e, d, p, _⟩ := reshape_reads hd hv h0 hsz hs hns
      exact ⟨r, h', e, d, p⟩) hz ht hv (fun _ _ => trivial) trivial h0 hsz (by rw [hs]; exact hsz) (fun idx hi => reindex_inBox hs hi) hg
  exact ⟨a, h1, b, h2, _, e1, e2, d1, d2, map_reindex hs g⟩

/-- The 2x3 matrix 1 … 6 and a scalar 10. -/
def scalarHeap : Heap Int where
  st := [⟨.i16, 12, some [some (.i 1), some (.i 2), some (.i 3), some (.i 4), some (.i 5), some (.i 6)]⟩, ⟨.i32, 4, some [some (.i 10)]⟩]
  ts := [⟨.i16, ⟨[2, 3], [3, 1], 0⟩, 0, none, false, false, none⟩, ⟨.i32, ⟨[], [], 0⟩, 1, none, false, false, none⟩]
  gver := 0

theorem scalarHeap_t : Denotes scalarHeap 0 .i16 [2, 3] exA :=
  ⟨_, rfl, rfl, rfl, reads_of_check (by decide) (by decide) rfl rfl rfl (by decide) (by decide) (by decide)⟩
theorem scalarHeap_z : Denotes scalarHeap 1 .i32 [] fun _ => .i 10 :=
  ⟨_, rfl, rfl, rfl, reads_of_check (by decide) (by decide) rfl rfl rfl (by decide) (by decide) (by decide)⟩
theorem scalarHeap_v : Viewable scalarHeap 0 := ⟨_, rfl, by simp [Tame, IsI64], by simp⟩

/-- The hypotheses of `C63_scalar_slice` hold for `(10 - t)[, 2:0:-1]`. -/
example : ∃ a h1 b h2 g, (do Tensor.slice (← arithT .sub 1 0) ",2:0:-1".toList : M Int Nat) scalarHeap = .ok a h1 ∧
    (do arithT .sub 1 (← Tensor.slice 0 ",2:0:-1".toList) : M Int Nat) scalarHeap = .ok b h2 ∧
    Denotes h1 a .i32 [2, 2] g ∧ Denotes h2 b .i32 [2, 2] g ∧ g [1, 0] = .i 4 := by
  obtain ⟨t, h1, u, h2, e1, e2, d1, d2⟩ := C63_scalar_slice (.left .sub) (g := fun idx => .i (10 - (3 * idx.getD 0 0 + idx.getD 1 0 + 1)))
    (.inr scalarHeap_z) scalarHeap_t scalarHeap_v (by decide) (by decide)
    (forall_inBox (by decide)) exSpells6 (by simp [everything, Selects]) (by
    intro x hx
    simp only [everything, List.replicate, List.cons_append, List.nil_append, List.mem_cons, List.not_mem_nil, or_false] at hx
    rcases hx with rfl | rfl <;> simp [AxisSpec.Is64, IsI64]) (by
    intro i hi
    have hi' : scalarHeap.ts[0]? = some ⟨.i16, ⟨[2, 3], [3, 1], 0⟩, 0, none, false, false, none⟩ := rfl
    rw [hi'] at hi
    obtain rfl := Option.some.inj hi
    simp [everything, StepsFit, IsI64]) (by simp [everything, StepsFit, IsI64, rmStrides, vol])
  exact ⟨t, h1, u, h2, _, e1, e2, d1, d2, by decide⟩

/-- The hypotheses of `C63_scalar_transpose` hold for `-t`. -/
example : ∃ a h1 b h2 g, (do Tensor.transpose (← Tensor.negT 0) 0 1 : M Int Nat) scalarHeap = .ok a h1 ∧
    (do Tensor.negT (← Tensor.transpose 0 0 1) : M Int Nat) scalarHeap = .ok b h2 ∧
    Denotes h1 a .i32 [3, 2] g ∧ Denotes h2 b .i32 [3, 2] g ∧ g [2, 0] = .i (-3) := by
  obtain ⟨t, h1, u, h2, e1, e2, d1, d2⟩ := C63_scalar_transpose .neg (z := 1) (dz := .i32) (v := .i 0) (x := 0) (y := 1)
    (g := fun idx => .i (0 - (3 * idx.getD 0 0 + idx.getD 1 0 + 1)))
    (.inl rfl) scalarHeap_t scalarHeap_v (by decide) (by decide) (forall_inBox (by decide)) (by decide) (by decide) (by decide)
  exact ⟨t, h1, u, h2, _, e1, e2, d1, d2, by decide⟩

/-- The hypotheses of `C65_scalar_reshape` hold for `t * 10`. -/
example : ∃ a h1 b h2 g', (do Tensor.reshape (← arithT .mul 0 1) (request [3, 2]) : M Int Nat) scalarHeap = .ok a h1 ∧
    (do arithT .mul (← Tensor.reshape 0 (request [3, 2])) 1 : M Int Nat) scalarHeap = .ok b h2 ∧
    Denotes h1 a .i32 [3, 2] g' ∧ Denotes h2 b .i32 [3, 2] g' ∧
    (rowMajor [3, 2]).map g' = [.i 10, .i 20, .i 30, .i 40, .i 50, .i 60] := by
  obtain ⟨t, h1, u, h2, g', e1, e2, d1, d2, hg⟩ := C65_scalar_reshape (.right .mul) (s := [2, 3]) (s' := [3, 2])
    (g := fun idx => .i (10 * (3 * idx.getD 0 0 + idx.getD 1 0 + 1)))
    (.inr scalarHeap_z) scalarHeap_t scalarHeap_v (by decide) (by decide) (forall_inBox (by decide)) (by decide) (by decide)
  exact ⟨t, h1, u, h2, g', e1, e2, d1, d2, hg.trans (by decide)⟩

end INNC
