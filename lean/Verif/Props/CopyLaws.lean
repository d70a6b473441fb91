import Verif.Props.ScalarLaws
import Verif.Spec.Copying
import Verif.Props.Flags
/-
C63, C65: copies, conversions and views.
-/
namespace INNC
open Spec Tensor
variable {F : Type} [FOps F]

theorem mapwise_copying (c : Copying) (ds : DType) :
    Mapwise (F := F) (fun H x => FlagOK H ∧ c.Proper ds (requiresGrad H x)) c.run ds (c.type ds) (c.elem ds) := by
  intro H x sh fx g ⟨_, hp⟩ hx hsz hg
  cases c with
  | clone =>
    obtain ⟨h', i, _, e, b⟩ := clone_ok hx hsz
    obtain ⟨d, ho, _⟩ := b.obj
    exact ⟨_, h', e, b.denotes.congr fun idx hi => Option.some.inj (hg idx hi), b.ext, _, ho, rfl, rfl⟩
  | convert tt =>
    obtain ⟨i, hi, rfl, rfl, hr⟩ := hx
    obtain ⟨h', e, b⟩ := toType_ok hi hr hp.1 (by rw [← asks_some hi]; exact hp.2) hsz hg
    obtain ⟨d, ho, _⟩ := b.obj
    exact ⟨_, h', e, b.denotes, b.ext, _, ho, rfl, rfl⟩

/-- A view requires grad exactly if the tensor does. -/
theorem copying_view {c : Copying} {ds : DType} {K : Nat → M F Nat} (k : Nat → Call F) (hk : ∀ x, tracked (k x) = some [x])
    (hr : ∀ x, (k x).run = some' (K x)) (H H' : Heap F) (x : Nat) (dx : DType) (sh : List Nat) (fx : List Nat → Val F) (r : Nat)
    (hx : Denotes H x dx sh fx) (e : K x H = .ok r H') (_ : Preserves H H') (hc : FlagOK H ∧ c.Proper ds (requiresGrad H x)) :
    FlagOK H' ∧ c.Proper ds (requiresGrad H' r) := by
  obtain ⟨i, hi, _⟩ := hx
  have hp := tracked_post hc.1 (hk x) (by intro t ht; rw [List.mem_singleton.1 ht]; exact ⟨i, hi⟩)
  rw [hr x] at hp
  unfold some' at hp
  rw [M.bind_ok e] at hp
  obtain ⟨⟨hf, _⟩, hq⟩ := hp
  have := hq r rfl
  rw [show [x].any (requiresGrad H) = requiresGrad H x by simp] at this
  rw [this]
  exact ⟨hf, hc.2⟩

/-- **C63**: a slice of a copy is the copy of the slice: `t.clone()[s]` and `t[s].clone()`, or `t.type(to)[s]` and `t[s].type(to)`,
have the same type, shape and elements. -/
theorem C63_copy_slice (c : Copying) {h : Heap F} {t : Nat} {dt : DType} (hp : c.Proper dt (requiresGrad h t))
    (hfl : ∀ (u : Nat) (i : Impl), h.ts[u]? = some i → i.requiresGrad = true → i.dtype.isFloat = true) {sizes : List Nat} {f g : List Nat → Val F}
    (ht : Denotes h t dt sizes f) (hv : Viewable h t) (h0 : 0 ∉ sizes)
    (hsz : vol sizes < 576460752303423488) (hg : ∀ idx, InBox sizes idx → c.elem dt (f idx) = some (g idx))
    {specs : List AxisSpec} {s : List Char} (hs : Spells specs s) (hsel : Selects specs sizes) (h64 : ∀ x ∈ specs, x.Is64)
    (hf : ∀ i, h.ts[t]? = some i → StepsFit specs i.view.strides) (hfs : StepsFit specs (rmStrides sizes)) :
    ∃ a h1 b h2, (do Tensor.slice (← c.run t) s : M F Nat) h = .ok a h1 ∧ (do c.run (← Tensor.slice t s) : M F Nat) h = .ok b h2 ∧
      Denotes h1 a (c.type dt) (selShape specs sizes) (fun idx => g (selIndex specs sizes idx)) ∧
      Denotes h2 b (c.type dt) (selShape specs sizes) (fun idx => g (selIndex specs sizes idx)) := by
  have hin : ∀ idx, InBox (selShape specs sizes) idx → InBox sizes (selIndex specs sizes idx) := by
    intro idx hb
    obtain ⟨_, _, _, _, pa, _, pr, _⟩ := C07_slice_partial ht hv hs hsel h64 hf
    obtain ⟨_, y, _, hy, _, _, hin, _⟩ := pa idx hb
    obtain ⟨i0, hi0, _, hs0, _⟩ := id ht
    obtain ⟨i1, hi1, _, hw, _⟩ := pr.ts _ _ hi0
    rw [hy] at hi1
    obtain rfl := Option.some.inj hi1
    rw [hw, hs0] at hin
    exact hin
  exact mapwise_view (mapwise_copying c dt) (copying_view (fun x => .slice x s) (fun _ => rfl) fun _ => rfl) (K := fun t => Tensor.slice t s) (Q := StepsFit specs)
    (fun _ _ _ _ hd hv hq => by
      obtain ⟨r, h', e, d, _, _, p, _⟩ := C07_slice_partial hd hv hs hsel h64 hq
      exact ⟨r, h', e, d, p⟩) ⟨hfl, hp⟩ ht hv hf hfs h0 hsz
    (Nat.lt_of_le_of_lt (vol_selShape h0 hsel) hsz) hin hg

/-- **C63**, the same for `transpose`. -/
theorem C63_copy_transpose (c : Copying) {h : Heap F} {t : Nat} {dt : DType} (hp : c.Proper dt (requiresGrad h t))
    (hfl : ∀ (u : Nat) (i : Impl), h.ts[u]? = some i → i.requiresGrad = true → i.dtype.isFloat = true) {sizes : List Nat} {f g : List Nat → Val F}
    (ht : Denotes h t dt sizes f) (hv : Viewable h t) (h0 : 0 ∉ sizes)
    (hsz : vol sizes < 576460752303423488) (hg : ∀ idx, InBox sizes idx → c.elem dt (f idx) = some (g idx))
    {x y : Nat} (hx : x < sizes.length) (hy : y < sizes.length) (hxy : x ≠ y) :
    ∃ a h1 b h2, (do Tensor.transpose (← c.run t) x y : M F Nat) h = .ok a h1 ∧
      (do c.run (← Tensor.transpose t x y) : M F Nat) h = .ok b h2 ∧
      Denotes h1 a (c.type dt) (swapped sizes x y) (fun idx => g (swapped idx x y)) ∧
      Denotes h2 b (c.type dt) (swapped sizes x y) (fun idx => g (swapped idx x y)) :=
  mapwise_view (mapwise_copying c dt) (copying_view (fun u => .transpose u x y) (fun _ => rfl) fun _ => rfl) (K := fun t => Tensor.transpose t x y) (Q := fun _ => True)
    (fun _ _ _ _ hd hv _ => by
      obtain ⟨r, h', e, d, _, _, p, _⟩ := C10_transpose hd hv hx hy hxy
      exact ⟨r, h', e, d, p⟩) ⟨hfl, hp⟩ ht hv (fun _ _ => trivial) trivial h0 hsz
    (by rw [vol_swap h0 hx hy hxy]; exact hsz) (fun idx hi => inBox_swapped hx hy hi) hg

/-- **C65**, the same for `reshape`; the elements are in row-major order. -/
theorem C65_copy_reshape (c : Copying) {h : Heap F} {t : Nat} {dt : DType} (hp : c.Proper dt (requiresGrad h t))
    (hfl : ∀ (u : Nat) (i : Impl), h.ts[u]? = some i → i.requiresGrad = true → i.dtype.isFloat = true) {s s' : List Nat} {f g : List Nat → Val F}
    (ht : Denotes h t dt s f) (hv : Viewable h t) (h0 : 0 ∉ s)
    (hsz : vol s < 576460752303423488) (hg : ∀ idx, InBox s idx → c.elem dt (f idx) = some (g idx))
    (hs : vol s' = vol s) (hns : s = [] ↔ s' = []) :
    ∃ a h1 b h2 g', (do Tensor.reshape (← c.run t) (request s') : M F Nat) h = .ok a h1 ∧
      (do c.run (← Tensor.reshape t (request s')) : M F Nat) h = .ok b h2 ∧
      Denotes h1 a (c.type dt) s' g' ∧ Denotes h2 b (c.type dt) s' g' ∧ (rowMajor s').map g' = (rowMajor s).map g := by
  obtain ⟨a, h1, b, h2, e1, e2, d1, d2⟩ := mapwise_view (mapwise_copying c dt) (copying_view (fun x => .reshape x (request s')) (fun _ => rfl) fun _ => rfl)
    (K := fun t => Tensor.reshape t (request s')) (Q := fun _ => True)
    (fun _ _ _ _ hd hv _ => by
      obtain ⟨r, h', e, d, p, _⟩ := reshape_reads hd hv h0 hsz hs hns
      exact ⟨r, h', e, d, p⟩) ⟨hfl, hp⟩ ht hv (fun _ _ => trivial) trivial h0 hsz (by rw [hs]; exact hsz) (fun idx hi => reindex_inBox hs hi) hg
  exact ⟨a, h1, b, h2, _, e1, e2, d1, d2, map_reindex hs g⟩

theorem exHeap_floats (u : Nat) (i : Impl) (hi : exHeap.ts[u]? = some i) (hr : i.requiresGrad = true) : i.dtype.isFloat = true := by
  have : ∀ i ∈ exHeap.ts, i.requiresGrad = true → i.dtype.isFloat = true := by decide
  exact this i (List.mem_of_getElem? hi) hr

/-- The hypotheses of `C63_copy_slice` hold for `t.clone()[, 2:0:-1]`. -/
example : ∃ a h1 b h2 g, (do Tensor.slice (← Tensor.clone 0) ",2:0:-1".toList : M Int Nat) exHeap = .ok a h1 ∧
    (do Tensor.clone (← Tensor.slice 0 ",2:0:-1".toList) : M Int Nat) exHeap = .ok b h2 ∧
    Denotes h1 a .i16 [2, 2] g ∧ Denotes h2 b .i16 [2, 2] g ∧ g [1, 0] = .i 6 := by
  obtain ⟨t, h1, u, h2, e1, e2, d1, d2⟩ := C63_copy_slice .clone (dt := .i16) trivial exHeap_floats (g := exA)
    exHeap_a (exHeap_viewable 0 (by decide)) (by decide) (by decide)
    (fun _ _ => rfl) exSpells6 (by simp [everything, Selects]) (by
    intro x hx
    simp only [everything, List.replicate, List.cons_append, List.nil_append, List.mem_cons, List.not_mem_nil, or_false] at hx
    rcases hx with rfl | rfl <;> simp [AxisSpec.Is64, IsI64]) (by
    intro i hi
    have hi' : exHeap.ts[0]? = some ⟨.i16, ⟨[2, 3], [3, 1], 0⟩, 0, none, false, false, none⟩ := rfl
    rw [hi'] at hi
    obtain rfl := Option.some.inj hi
    simp [everything, StepsFit, IsI64]) (by simp [everything, StepsFit, IsI64, rmStrides, vol])
  exact ⟨t, h1, u, h2, _, e1, e2, d1, d2, by decide⟩

/-- The hypotheses of `C63_copy_transpose` hold for `t.type(f64)`. -/
example : ∃ a h1 b h2 g, (do Tensor.transpose (← Tensor.toType 0 .f64) 0 1 : M Int Nat) exHeap = .ok a h1 ∧
    (do Tensor.toType (← Tensor.transpose 0 0 1) .f64 : M Int Nat) exHeap = .ok b h2 ∧
    Denotes h1 a .f64 [3, 2] g ∧ Denotes h2 b .f64 [3, 2] g ∧ g [2, 0] = .f 3 := by
  obtain ⟨t, h1, u, h2, e1, e2, d1, d2⟩ := C63_copy_transpose (F := Int) (.convert .f64) (dt := .i16) ⟨by decide, by decide⟩ exHeap_floats (x := 0) (y := 1)
    (g := fun idx => .f (((3 * idx.getD 0 0 + idx.getD 1 0 + 1 : Nat)) : Int))
    exHeap_a (exHeap_viewable 0 (by decide)) (by decide) (by decide) (forall_inBox (by decide)) (by decide) (by decide) (by decide)
  exact ⟨t, h1, u, h2, _, e1, e2, d1, d2, by decide⟩

/-- The hypotheses of `C65_copy_reshape` hold for `t.type(i64)`. -/
example : ∃ a h1 b h2 g', (do Tensor.reshape (← Tensor.toType 0 .i64) (request [3, 2]) : M Int Nat) exHeap = .ok a h1 ∧
    (do Tensor.toType (← Tensor.reshape 0 (request [3, 2])) .i64 : M Int Nat) exHeap = .ok b h2 ∧
    Denotes h1 a .i64 [3, 2] g' ∧ Denotes h2 b .i64 [3, 2] g' ∧
    (rowMajor [3, 2]).map g' = [.i 1, .i 2, .i 3, .i 4, .i 5, .i 6] := by
  obtain ⟨t, h1, u, h2, g', e1, e2, d1, d2, hg⟩ := C65_copy_reshape (F := Int) (.convert .i64) (dt := .i16) ⟨by decide, by decide⟩ exHeap_floats (s := [2, 3]) (s' := [3, 2])
    (g := fun idx => .i (((3 * idx.getD 0 0 + idx.getD 1 0 + 1 : Nat)) : Int))
    exHeap_a (exHeap_viewable 0 (by decide)) (by decide) (by decide) (forall_inBox (by decide)) (by decide) (by decide)
  exact ⟨t, h1, u, h2, g', e1, e2, d1, d2, hg.trans (by decide)⟩

end INNC
