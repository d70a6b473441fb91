import Verif.Spec.Api
import Verif.Props.Slice
/-
C11 (reshape keeps the elements), C12 (inferred sizes), C13 (storage sharing of reshape).
-/
namespace INNC
open Spec
variable {F : Type} [FOps F]

/-- The heap-level result of reshape for a shape that has the right number of elements. -/
theorem reshape_ok {h : Heap F} {t : Nat} {i : Impl} {f : List Nat → Val F} {s' : List Nat} {req : List Int}
    (hi : h.ts[t]? = some i) (hr : Reads h i f) (ht : Tame i.view.sizes i.view.strides)
    (hg : ∀ g, i.grad = some g → g < h.ts.length)
    (hreq : regularizeSize req (vol i.view.sizes) = .ok s') (hv : vol s' = vol i.view.sizes)
    (hsz : vol i.view.sizes * i.dtype.size < 9223372036854775808)
    (hns : i.requiresGrad = true → (i.view.sizes = [] ↔ s' = [])) :
    ∃ r h', Tensor.reshape t req h = .ok r h' ∧
      Reshaped h h' i r s' (fun idx => f (reindex i.view.sizes s' idx))
        ((¬ ∃ c, Scaled c i.view.sizes i.view.strides) ∧ ¬ (vol i.view.sizes = 1 ∧ i.requiresGrad = false)) := by
  unfold Tensor.reshape
  rw [M.bind_ok (getT_ok hi), numel_eq_vol (by have := vol_lt_of_bytes hsz; omega), hreq, M.bind_ok (M.lift_ok _ _)]
  exact reshapeSizes_ok hi hr ht hv hsz (fun _ => hg) hns

theorem mem_le_vol {k : Nat} : ∀ {s : List Nat}, 0 ∉ s → k ∈ s → k ≤ vol s
  | x :: xs, hpos, hk => by
    have h1 : x ≠ 0 := fun h => hpos (by simp [h])
    have h2 : 0 ∉ xs := fun h => hpos (by simp [h])
    have h3 : 0 < vol xs := vol_pos_iff.2 h2
    show k ≤ x * vol xs
    rcases List.mem_cons.1 hk with rfl | hk
    · calc k = k * 1 := by omega
        _ ≤ k * vol xs := Nat.mul_le_mul_left _ h3
    · calc k ≤ vol xs := mem_le_vol h2 hk
        _ = 1 * vol xs := by omega
        _ ≤ x * vol xs := Nat.mul_le_mul_right _ (by omega)

/-! ### C11 -/

/-- **C11.** If the requested sizes have the right product, reshape returns a tensor of that shape listing the same
elements in the same row-major order, for every strided input; no element of any tensor changes. Partial: excluded are
tensors that require grad when exactly one of the two shapes is that of a scalar, see `C11_scalar_grad_undefined`. -/
theorem C11_reshape_partial {h : Heap F} {t : Nat} {dt : DType} {sizes s' : List Nat} {f : List Nat → Val F}
    (ht : Denotes h t dt sizes f) (hview : Viewable h t) (hsz : vol sizes * dt.size < 9223372036854775808)
    (hs' : ∀ n ∈ s', n < 18446744073709551616) (hv : vol s' = vol sizes)
    (hns : (sizes = [] ↔ s' = []) ∨ ∀ i, h.ts[t]? = some i → i.requiresGrad = false) :
    ∃ r h' g, Tensor.reshape t (request s') h = .ok r h' ∧ Denotes h' r dt s' g ∧
      (rowMajor s').map g = (rowMajor sizes).map f ∧ Preserves h h' ∧ h.ts.length ≤ r := by
  obtain ⟨i, hi, rfl, rfl, hr⟩ := ht
  obtain ⟨i', hi', ht, hg⟩ := hview
  rw [hi] at hi'
  obtain rfl := Option.some.inj hi'
  obtain ⟨r, h', e, rs⟩ := reshape_ok (req := request s') hi hr ht hg
    (regularizeSize_known hs' (fun h0 => by rw [h0] at hv; exact hv.symm)) hv hsz
    (fun hrg => by
      rcases hns with h1 | h1
      · exact h1
      · have := h1 i hi; rw [this] at hrg; simp at hrg)
  obtain ⟨j, hj, d1, d2, d3, _⟩ := rs.obj
  exact ⟨r, h', _, e, ⟨j, hj, d1, d2, d3⟩, map_reindex hv f, rs.pres, rs.new⟩

/-- **C11**: a request with another product (below 2^64) throws `std::runtime_error`. Partial: products are computed
modulo 2^64, see `C11_overflow_accepted`. -/
theorem C11_rejected_partial {h : Heap F} {t : Nat} {dt : DType} {sizes s' : List Nat} {f : List Nat → Val F}
    (ht : Denotes h t dt sizes f) (hsz : vol sizes < 18446744073709551616)
    (hs' : ∀ n ∈ s', n < 18446744073709551616) (hv' : vol s' < 18446744073709551616) (hv : vol s' ≠ vol sizes) :
    Tensor.reshape t (request s') h = .throw .runtime h := by
  obtain ⟨i, hi, rfl, rfl, hr⟩ := ht
  unfold Tensor.reshape
  rw [M.bind_ok (getT_ok hi), numel_eq_vol hsz]
  by_cases h0 : s' = []
  · subst h0
    have : regularizeSize (request []) (vol i.view.sizes) = .throw .runtime := by
      have hv2 : ¬ vol i.view.sizes = 1 := fun h => hv h.symm
      unfold regularizeSize request
      rw [if_pos (by simp)]
      show Res.bind (runExpect _) _ = _
      rw [runExpect_false (by simpa using hv2)]; rfl
    rw [this]; rfl
  · have : regularizeSize (request s') (vol i.view.sizes) = .ok s' := regularizeSize_known hs' (fun h => absurd h h0)
    rw [this, M.bind_ok (M.lift_ok _ _), reshapeSizes_eq, M.bind_ok (getT_ok hi), numel_eq_vol hsz, numel_eq_vol hv']
    have : expect (decide (vol s' = vol i.view.sizes)) h = .throw .runtime h := by simp [expect, hv]
    rw [M.bind_throw this]

example : ∃ r h' g, Tensor.reshape 2 (request [2, 3]) exHeap = .ok r h' ∧ Denotes h' r .i16 [2, 3] g ∧
    (rowMajor [2, 3]).map g = [.i 1, .i 4, .i 2, .i 5, .i 3, .i 6] ∧ Preserves exHeap h' ∧ 3 ≤ r := by
  obtain ⟨r, h', g, e, hd, hg, hp, hn⟩ := C11_reshape_partial (s' := [2, 3]) exHeap_aT (exHeap_viewable 2 (by decide))
    (by decide) (by decide) (by decide) (Or.inl (by decide))
  exact ⟨r, h', g, e, hd, by rw [hg]; decide, hp, hn⟩
example : Tensor.reshape 0 (request [4, 2]) exHeap = .throw .runtime exHeap :=
  C11_rejected_partial exHeap_a (by decide) (by decide) (by decide) (by decide)

/-- **C11** is false when the product overflows: an empty tensor can be given a shape of 2^64 elements, and a
one-element tensor the shape {3, -6148914691236517205}. -/
theorem C11_overflow_accepted :
    result ((do
      Tensor.sizeT (← Tensor.reshape (← Tensor.zeros [0] .f32) [4294967296, 4294967296]) : M Int (List Nat)) Heap.empty) =
      some [4294967296, 4294967296] ∧
    result ((do
      Tensor.sizeT (← Tensor.reshape (← Tensor.ones [1] .f32) [3, -6148914691236517205]) : M Int (List Nat)) Heap.empty) =
      some [3, 12297829382473034411] := by decide +kernel

/-- **C11** is false for scalars that require grad: reshaping one to {1} reads before the beginning of its strides. -/
theorem C11_scalar_grad_undefined :
    undefinedBy ((do
      let t ← Tensor.fromBlob [.f 3] [1] .f32
      let s ← Tensor.slice t ['0']
      let u ← Tensor.clone s
      Tensor.setRequiresGrad u true
      Tensor.reshape u [1] : M Int Nat) Heap.empty) = some .vecOob := by decide +kernel

/-- **C11**: negative sizes other than -1 are accepted if the product is right modulo 2^64, and printing the result
reads outside the storage. -/
theorem C11_negative_accepted :
    result ((do
      Tensor.sizeT (← Tensor.reshape (← Tensor.ones [6] .f32) [-2, -3]) : M Int (List Nat)) Heap.empty) =
      some [18446744073709551614, 18446744073709551613] := by decide +kernel

/-! ### C12 -/

/-- **C12.** With exactly one -1 and positive other sizes, reshape succeeds if their product divides the number of
elements, and the -1 becomes the quotient. Partial: as for C11 (the case of a scalar that requires grad is excluded). -/
theorem C12_infer_partial {h : Heap F} {t : Nat} {dt : DType} {sizes : List Nat} {f : List Nat → Val F}
    (ht : Denotes h t dt sizes f) (hview : Viewable h t) (hsz : vol sizes * dt.size < 9223372036854775808)
    {a b : List Nat} (hpos : 0 ∉ a ++ b) (hlt : vol (a ++ b) < 18446744073709551616) (hdvd : vol (a ++ b) ∣ vol sizes)
    (hns : sizes ≠ [] ∨ ∀ i, h.ts[t]? = some i → i.requiresGrad = false) :
    ∃ r h' g, Tensor.reshape t (request a ++ -1 :: request b) h = .ok r h' ∧
      Denotes h' r dt (a ++ vol sizes / vol (a ++ b) :: b) g ∧
      (rowMajor (a ++ vol sizes / vol (a ++ b) :: b)).map g = (rowMajor sizes).map f ∧ Preserves h h' ∧ h.ts.length ≤ r := by
  obtain ⟨i, hi, rfl, rfl, hr⟩ := ht
  obtain ⟨i', hi', ht, hg⟩ := hview
  rw [hi] at hi'
  obtain rfl := Option.some.inj hi'
  have hpos' : 0 < vol (a ++ b) := vol_pos_iff.2 hpos
  obtain ⟨m, hm⟩ := hdvd
  have hdiv : vol i.view.sizes / vol (a ++ b) = m := by rw [hm]; exact Nat.mul_div_cancel_left _ hpos'
  rw [hdiv]
  have hm' : m * vol (a ++ b) = vol i.view.sizes := by rw [hm, Nat.mul_comm]
  have hvl := vol_lt_of_bytes hsz
  have hv : vol (a ++ m :: b) = vol i.view.sizes := by
    rw [← hm', vol_append, vol_append]
    show vol a * (m * vol b) = _
    ring
  have hmlt : m < 18446744073709551616 := by
    have : m * 1 ≤ m * vol (a ++ b) := Nat.mul_le_mul_left _ hpos'
    omega
  have hle : ∀ k ∈ a ++ b, k < 18446744073709551616 := by
    intro k hk
    have := mem_le_vol hpos hk
    omega
  obtain ⟨r, h', e, rs⟩ := reshape_ok (req := request a ++ -1 :: request b) hi hr ht hg
    (regularizeSize_infer hle hpos' hlt hm' hmlt) hv hsz
    (fun hrg => by
      rcases hns with h1 | h1
      · exact iff_of_false h1 (by simp)
      · have := h1 i hi; rw [this] at hrg; simp at hrg)
  obtain ⟨j, hj, d1, d2, d3, _⟩ := rs.obj
  exact ⟨r, h', _, e, ⟨j, hj, d1, d2, d3⟩, map_reindex hv f, rs.pres, rs.new⟩

/-- **C12**: if the product of the other sizes does not divide the number of elements, reshape throws
`std::runtime_error`. -/
theorem C12_indivisible {h : Heap F} {t : Nat} {dt : DType} {sizes : List Nat} {f : List Nat → Val F}
    (ht : Denotes h t dt sizes f) (hsz : vol sizes < 18446744073709551616)
    {a b : List Nat} (hpos : 0 ∉ a ++ b) (hlt : vol (a ++ b) < 18446744073709551616) (hdvd : ¬ vol (a ++ b) ∣ vol sizes) :
    Tensor.reshape t (request a ++ -1 :: request b) h = .throw .runtime h := by
  obtain ⟨i, hi, rfl, rfl, hr⟩ := ht
  unfold Tensor.reshape
  have : regularizeSize (request a ++ -1 :: request b) (vol i.view.sizes) = .throw .runtime :=
    regularizeSize_indivisible (vol_pos_iff.2 hpos) hlt hdvd
  rw [M.bind_ok (getT_ok hi), numel_eq_vol hsz, this]
  rfl

/-- **C12**: two or more -1 throw `std::runtime_error`, whatever the other entries are. -/
theorem C12_two_unknowns {h : Heap F} {t : Nat} {dt : DType} {sizes : List Nat} {f : List Nat → Val F}
    (ht : Denotes h t dt sizes f) (a b c : List Int) :
    Tensor.reshape t (a ++ -1 :: (b ++ -1 :: c)) h = .throw .runtime h := by
  obtain ⟨i, hi, rfl, rfl, hr⟩ := ht
  unfold Tensor.reshape
  rw [M.bind_ok (getT_ok hi), regularizeSize_two]
  rfl

example : ∃ r h' g, Tensor.reshape 2 [3, -1, 1] exHeap = .ok r h' ∧ Denotes h' r .i16 [3, 2, 1] g ∧
    (rowMajor [3, 2, 1]).map g = [.i 1, .i 4, .i 2, .i 5, .i 3, .i 6] ∧ Preserves exHeap h' ∧ 3 ≤ r := by
  obtain ⟨r, h', g, e, hd, hg, hp, hn⟩ := C12_infer_partial (a := [3]) (b := [1]) exHeap_aT (exHeap_viewable 2 (by decide))
    (by decide) (by decide) (by decide) (by decide) (Or.inl (by decide))
  exact ⟨r, h', g, e, hd, by
    have e2 : (rowMajor [3, 2, 1]).map g = _ := hg
    rw [e2]; decide, hp, hn⟩
example : Tensor.reshape 0 [-1, 4] exHeap = .throw .runtime exHeap :=
  C12_indivisible (a := []) (b := [4]) exHeap_a (by decide) (by decide) (by decide) (by decide)
example : Tensor.reshape 0 [2, -1, -1] exHeap = .throw .runtime exHeap := C12_two_unknowns exHeap_a [2] [] []

/-- **C12**: a zero beside the -1 is an integer division by zero. -/
theorem C12_zero_undefined :
    undefinedBy ((do Tensor.reshape (← Tensor.zeros [0] .f32) [0, -1] : M Int Nat) Heap.empty) = some .divZero := by
  decide +kernel

/-! ### C13 -/

/-- **C13.** For a tensor whose number of elements is not one: if its strides are a multiple `c` of the row-major
strides, the reshaped tensor shares its storage; in every other case the reshaped tensor lives on a new storage. -/
theorem C13_sharing_partial {h : Heap F} {t : Nat} {i : Impl} {f : List Nat → Val F} {s' : List Nat}
    (hi : h.ts[t]? = some i) (ht : Denotes h t i.dtype i.view.sizes f) (hview : Viewable h t)
    (hsz : vol i.view.sizes * i.dtype.size < 9223372036854775808)
    (hs' : ∀ n ∈ s', n < 18446744073709551616) (hv : vol s' = vol i.view.sizes) (h1 : vol i.view.sizes ≠ 1) :
    ∃ r h', Tensor.reshape t (request s') h = .ok r h' ∧
      ((∃ c, i.view.strides = (rmStrides i.view.sizes).map (c * ·)) → SameStorage h' t r) ∧
      (¬ (∃ c, i.view.strides = (rmStrides i.view.sizes).map (c * ·)) → Fresh h h' r) := by
  obtain ⟨i', hi', _, _, hr⟩ := ht
  rw [hi] at hi'
  obtain rfl := Option.some.inj hi'
  obtain ⟨i', hi', ht, hg⟩ := hview
  rw [hi] at hi'
  obtain rfl := Option.some.inj hi'
  obtain ⟨r, h', e, rs⟩ := reshape_ok (req := request s') hi hr ht hg
    (regularizeSize_known hs' (fun h0 => by rw [h0] at hv; exact hv.symm)) hv hsz
    (fun _ => iff_of_false (fun h => h1 (by rw [h]; rfl)) (fun h => h1 (by rw [← hv, h]; rfl)))
  obtain ⟨j, hj, d1, d2, d3, d4, d5, d6⟩ := rs.obj
  refine ⟨r, h', e, fun hc => ?_, fun hc => ⟨rs.new, j, hj, d6 ⟨hc, fun h => h1 h.1⟩⟩⟩
  obtain ⟨i2, hi2, _, _, q⟩ := rs.pres.ts t i hi
  exact ⟨i2, j, hi2, hj, by rw [q, d5 fun hn => hn.1 hc]⟩

example : ∃ r h', Tensor.reshape 0 (request [6]) exHeap = .ok r h' ∧ SameStorage h' 0 r := by
  obtain ⟨r, h', e, h1, _⟩ := C13_sharing_partial (s' := [6]) (i := exHeap.ts[0]) rfl exHeap_a
    (exHeap_viewable 0 (by decide)) (by decide) (by decide) (by decide) (by decide)
  exact ⟨r, h', e, h1 ⟨1, by decide⟩⟩
example : ∃ r h', Tensor.reshape 2 (request [6]) exHeap = .ok r h' ∧ Fresh exHeap h' r := by
  obtain ⟨r, h', e, _, h1⟩ := C13_sharing_partial (s' := [6]) (i := exHeap.ts[2]) rfl exHeap_aT
    (exHeap_viewable 2 (by decide)) (by decide) (by decide) (by decide) (by decide)
  refine ⟨r, h', e, h1 ?_⟩
  rintro ⟨c, hc⟩
  have hc' : ([1, 3] : List Int) = [c * 2, c * 1] := hc
  simp at hc'
  omega

/-- **C13** is false for one element: the view `["0:1,0:1"]` of a 2x3 matrix has strides {3, 1}, no multiple of the
row-major strides {1, 1}, yet a write through the reshaped tensor is visible in the matrix. -/
theorem C13_one_element_shared :
    result ((do
      let t ← Tensor.zeros [2, 3] .i32
      let v ← Tensor.slice t "0:1,0:1".toList
      let r ← Tensor.reshape v [1]
      Tensor.addAssign r (← Tensor.ones [1] .i32)
      return (← Tensor.toString t, isContiguous (← getT v).view) : M Int (Str × Bool)) Heap.empty) =
      some ("[[1, 0, 0], [0, 0, 0]]".toList, false) := by decide +kernel

end INNC
