import Verif.Lemmas.Create
import Verif.Spec.Toy
/-
C02 (storage of fresh tensors), C03 (is_contiguous), C04 (numel).
-/
namespace INNC
open Spec
variable {F : Type}

/-- **C02.** A tensor created with any shape of fewer than 2^63 bytes has that shape and type and a storage of its own;
the element of multi-index `idx` is at position `rank sizes idx`, inside the storage, and every position of the storage
belongs to exactly one multi-index. -/
theorem C02_fresh_bijective [FOps F] (sizes : List Nat) (dt : DType)
    (hsize : vol sizes * dt.size < 9223372036854775808) (h : Heap F) :
    ∃ t h' i s cells, Tensor.emptyTensor sizes dt h = .ok t h' ∧
      h'.ts[t]? = some i ∧ i.dtype = dt ∧ i.view.sizes = sizes ∧
      h'.st[i.data]? = some s ∧ h.st.length ≤ i.data ∧ s.dt = dt ∧ s.blob = some cells ∧
      (∀ idx, InBox sizes idx → cntFromIndex i.view idx = .ok (rank sizes idx) ∧ rank sizes idx < cells.length) ∧
      (∀ p, p < cells.length → ∃! idx, InBox sizes idx ∧ cntFromIndex i.view idx = .ok p) := by
  have hv := vol_lt_of_bytes hsize
  have hw := slots_alloc hsize h
  have key : ∀ idx, InBox sizes idx → cntFromIndex (Layout.contig sizes) idx = .ok (rank sizes idx) := by
    intro idx hb
    have h1 := hw.index (idx := idx) hb
    rw [show (newImpl dt sizes h.st.length).view = Layout.contig sizes from rfl] at h1
    rw [h1, Layout.pos_eq, contig_position hv hb, wrapU_natCast (by have := rank_lt hb; omega)]
  refine ⟨_, _, _, _, _, create_ok hsize h, alloc_getT h dt sizes, rfl, rfl, alloc_getS h dt sizes, Nat.le_refl _,
    rfl, rfl, ?_, ?_⟩
  · intro idx hb
    exact ⟨key idx hb, by simpa using rank_lt hb⟩
  · intro p hp
    simp only [List.length_replicate] at hp
    refine ⟨unrank sizes p, ⟨unrank_inBox hp, ?_⟩, ?_⟩
    · show cntFromIndex (Layout.contig sizes) _ = _
      rw [key _ (unrank_inBox hp), rank_unrank hp]
    · rintro idx ⟨hb, he⟩
      have he' : cntFromIndex (Layout.contig sizes) idx = .ok p := he
      rw [key idx hb] at he'
      have : rank sizes idx = p := by simpa using he'
      rw [← this, unrank_rank hb]

example : vol [2, 3] * DType.f32.size < 9223372036854775808 := by decide

/-- **C03.** `is_contiguous()` is true exactly when the strides are the row-major strides (as `long long`s). -/
theorem C03_contiguous_iff [FOps F] {h : Heap F} {t : Nat} {i : Impl} (ht : h.ts[t]? = some i)
    (hs : i.view.strides.length = i.view.sizes.length) :
    ∃ b, Tensor.isContiguousOf t h = .ok b h ∧ (b = true ↔ i.view.strides = (rmStrides i.view.sizes).map wrapS) := by
  refine ⟨isContiguous i.view, ?_, ?_⟩
  · unfold Tensor.isContiguousOf; rw [M.bind_ok (getT_ok ht)]; rfl
  · rw [isContiguous_iff hs, contigStrides_eq]

/-- **C03**, for shapes without empty axes and with fewer than 2^63 elements: exactly the row-major strides, no
wrap-around. -/
theorem C03_contiguous_exact [FOps F] {h : Heap F} {t : Nat} {i : Impl} (ht : h.ts[t]? = some i)
    (hs : i.view.strides.length = i.view.sizes.length) (h0 : 0 ∉ i.view.sizes)
    (hv : vol i.view.sizes < 9223372036854775808) :
    ∃ b, Tensor.isContiguousOf t h = .ok b h ∧ (b = true ↔ i.view.strides = rmStrides i.view.sizes) := by
  obtain ⟨b, h1, h2⟩ := C03_contiguous_iff ht hs
  exact ⟨b, h1, by rw [h2, rmStrides_map_wrapS h0 hv]⟩

/-- **C03.** If `is_contiguous()` returns true then the element at `idx` is the one at the view's offset plus the
row-major rank of `idx`. -/
theorem C03_contiguous_position [FOps F] {h : Heap F} {t : Nat} {i : Impl} (ht : h.ts[t]? = some i)
    (hs : i.view.strides.length = i.view.sizes.length) (hv : vol i.view.sizes < 9223372036854775808)
    (hc : Tensor.isContiguousOf t h = .ok true h) {idx : List Nat} (hb : InBox i.view.sizes idx) :
    position i.view idx = i.view.offset + rank i.view.sizes idx := by
  obtain ⟨b, h1, h2⟩ := C03_contiguous_exact ht hs (vol_pos_iff.1 hb.vol_pos) hv
  rw [h1] at hc
  have hb' : b = true := by simpa using hc
  unfold position
  rw [h2.1 hb', dot_rmStrides hb.length]

/-- **C03.** A newly created tensor is contiguous, for every shape for which creation succeeds. -/
theorem C03_fresh_contiguous [FOps F] (sizes : List Nat) (dt : DType) (h : Heap F) {t : Nat} {h' : Heap F}
    (hok : Tensor.emptyTensor sizes dt h = .ok t h') : Tensor.isContiguousOf t h' = .ok true h' := by
  have hc : isContiguous (Layout.contig sizes) = true := (isContiguous_iff (length_contigStrides sizes)).2 rfl
  unfold Tensor.emptyTensor create mkStorage at hok
  rw [if_pos rfl] at hok
  split at hok
  · rw [M.bind_ok (x := newS _) (a := h.st.length) rfl] at hok
    simp only [createOn, newT, Out.ok.injEq] at hok
    obtain ⟨rfl, rfl⟩ := hok
    unfold Tensor.isContiguousOf
    rw [M.bind_ok (getT_ok (i := ⟨dt, Layout.contig sizes, h.st.length, none, false, false, none⟩) (by simp))]
    simp [hc]
  · rw [M.bind_throw (M.raise_run _ _)] at hok
    exact absurd hok (by simp)

example : isContiguous ⟨[2, 3], [3, 1], 4⟩ = true ∧ isContiguous ⟨[2, 3], [1, 2], 0⟩ = false := by decide

/-- **C04**, part 1: `numel()` is the product of the sizes modulo 2^64, for every shape. -/
theorem C04_numel_mod [FOps F] {h : Heap F} {t : Nat} {i : Impl} (ht : h.ts[t]? = some i) :
    Tensor.numelOf t h = .ok (vol i.view.sizes % 18446744073709551616) h := by
  unfold Tensor.numelOf; rw [M.bind_ok (getT_ok ht)]
  have : numel i.view.sizes = vol i.view.sizes % 18446744073709551616 := by
    rw [numel_eq]; unfold wrapU; omega
  simp [this]

/-- **C04**, part 2 (the part that holds): for shapes of fewer than 2^63 bytes, creation allocates exactly one element
per multi-index and `numel()` is exactly the product of the sizes. Missing: for larger shapes the claim is false, see
`C04_numel_overflow`. -/
theorem C04_numel_partial [FOps F] (sizes : List Nat) (dt : DType)
    (hsize : vol sizes * dt.size < 9223372036854775808) (h : Heap F) :
    ∃ t h' i s cells, Tensor.emptyTensor sizes dt h = .ok t h' ∧ h'.ts[t]? = some i ∧ i.view.sizes = sizes ∧
      Tensor.numelOf t h' = .ok (vol sizes) h' ∧ h'.st[i.data]? = some s ∧ s.blob = some cells ∧
      cells.length = vol sizes ∧ s.size = vol sizes * dt.size := by
  have hv := vol_lt_of_bytes hsize
  refine ⟨_, _, _, _, _, create_ok hsize h, alloc_getT h dt sizes, rfl, ?_, alloc_getS h dt sizes, rfl, by simp,
    Nat.mul_comm _ _⟩
  have := C04_numel_mod (alloc_getT h dt sizes)
  rw [this]
  show Out.ok (vol sizes % _) _ = _
  rw [Nat.mod_eq_of_lt (by omega)]

/-- Violation of **C04**: a tensor of shape 2^32 x 2^32 can be created; `numel()` is 0 and nothing is allocated for its
2^64 elements. -/
theorem C04_numel_overflow :
    ∃ h' : Heap Int, Tensor.emptyTensor [4294967296, 4294967296] .i8 Heap.empty = .ok 0 h' ∧
      Tensor.numelOf 0 h' = .ok 0 h' ∧ vol [4294967296, 4294967296] = 18446744073709551616 ∧
      (h'.st.map fun s => s.blob) = [some []] := by
  refine ⟨⟨[⟨.i8, 0, some []⟩], [⟨.i8, ⟨[4294967296, 4294967296], [4294967296, 1], 0⟩, 0, none, false, false, none⟩], 0⟩,
    ?_, ?_, ?_, ?_⟩ <;> decide

example : vol [2, 3] * DType.i32.size < 9223372036854775808 := by decide

end INNC
