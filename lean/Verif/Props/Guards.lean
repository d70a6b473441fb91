import Verif.Spec.Api
import Verif.Lemmas.Build
import Verif.Lemmas.Frame
import Verif.Lemmas.Examples
import Verif.Lemmas.Runs
import Verif.Spec.Grad
/-
C36 (backward is rejected unless it can start), C41 (zero_grad), C48 (stride), C49 (randn).
-/
namespace INNC
open Spec Tensor
variable {F : Type} [FOps F]

/-! ### C36 -/

/-- **C36**: in every state, `backward()` on a tensor that does not require grad, is not the result of an operation or
does not have exactly one element (as reported by `numel()`) throws `std::runtime_error` and changes nothing at all. -/
theorem C36_rejected (h : Heap F) (t : Nat) (i : Impl) (hi : h.ts[t]? = some i) (n : Nat) (hn : numelOf t h = .ok n h)
    (hbad : i.requiresGrad = false ∨ i.gradFn = none ∨ n ≠ 1) : backward t h = .throw .runtime h := by
  have hn : numel i.view.sizes = n := by
    unfold numelOf at hn
    rw [M.bind_ok (getT_ok hi)] at hn
    simpa [M.pure_run] using hn
  unfold backward
  rw [M.bind_ok (getT_ok hi)]
  cases hr : i.requiresGrad
  · rfl
  cases hg : i.gradFn with
  | none => rfl
  | some g =>
    have h1 : n ≠ 1 := by simpa [hr, hg] using hbad
    rw [hn, decide_eq_false h1]
    rfl

/-- Non-vacuity: a leaf, a detached result and a result with two elements are rejected; the sum is not. -/
example : (runs (F := Int) [.zeros [2] .f32, .setRequiresGrad 0 true, .add 0 0, .sum 1, .detach 2] Heap.empty).map (fun h =>
      (thrown (backward 0 h), thrown (backward 1 h), thrown (backward 3 h), result (backward 2 h))) =
    some (some .runtime, some .runtime, some .runtime, some ()) := by decide +kernel

/-! ### C41 -/

/-- **C41**: after `zero_grad()` every element of the gradient is zero; the elements of every tensor on another storage
are as before, and no tensor object changes. -/
theorem C41_zeroed (h : Heap F) (t g : Nat) (i gi : Impl) (hi : h.ts[t]? = some i) (hg : i.grad = some g)
    (hgi : h.ts[g]? = some gi) (f : List Nat → Val F) (hd : Denotes h g gi.dtype gi.view.sizes f) :
    ∃ h', zeroGrad t h = .ok () h' ∧ h'.ts = h.ts ∧
      Denotes h' g gi.dtype gi.view.sizes (fun _ => zeroElem gi.dtype) ∧
      ∀ u j dt s fu, h.ts[u]? = some j → j.data ≠ gi.data → Denotes h u dt s fu → Denotes h' u dt s fu := by
  obtain ⟨gi', hgi', _, _, hr⟩ := hd
  rw [hgi] at hgi'
  obtain rfl := Option.some.inj hgi'
  obtain ⟨s, cells, hs, hdt, hb, hlen, hcell⟩ := hr.cells
  refine ⟨{ h with st := h.st.set gi.data { s with blob := some (cells.map fun _ => some (zeroVal s.dt)) } }, ?_, rfl, ?_, ?_⟩
  · unfold zeroGrad
    rw [M.bind_ok (getT_ok hi)]
    rw [hg]
    simp only
    rw [M.bind_ok (getT_ok hgi)]
    unfold zeroS
    rw [M.bind_def]
    unfold getS
    rw [hs]
    simp only
    rw [hb]
    rfl
  · refine ⟨gi, hgi, rfl, rfl, hr.strides, hr.offset, ⟨_, _, List.getElem?_set_self (getElem?_lt hs), hdt, rfl, ?_, ?_⟩, ?_⟩
    · simpa using hlen
    · intro idx hbx
      obtain ⟨p, hp, hc⟩ := hcell idx hbx
      refine ⟨p, hp, ?_⟩
      rw [List.getElem?_map, hc, hdt, zeroVal_eq]
      rfl
    · intro idx _
      exact zeroElem_hasType _
  · rintro u j dt su fu hj hne ⟨j', hj', e1, e2, hru⟩
    rw [hj] at hj'
    obtain rfl := Option.some.inj hj'
    refine ⟨j, hj, e1, e2, hru.extends fun s' hs' => ?_⟩
    show (h.st.set gi.data _)[j.data]? = _
    rw [List.getElem?_set_ne (Ne.symm hne)]
    exact hs'

/-- **C41**: without a gradient `zero_grad()` changes nothing. -/
theorem C41_none (h : Heap F) (t : Nat) (i : Impl) (hi : h.ts[t]? = some i) (hg : i.grad = none) :
    zeroGrad t h = .ok () h := by
  unfold zeroGrad
  rw [M.bind_ok (getT_ok hi), hg]
  rfl

/-- **C41** is false as far as it claims that no other gradient changes: `zero_grad()` on the view `y = x["0:1"]` clears
the whole gradient of `x`, including the element that is not part of the view. -/
theorem C41_view_clears_base :
    result ((do
      let x ← ones [2] .f32
      setRequiresGrad x true
      let y ← slice x "0:1".toList
      let s ← sumT x
      backward s
      let before ← showGrad x
      zeroGrad y
      return (before, ← showGrad x) : M Int _) Heap.empty) =
    some (some "[1, 1]".toList, some "[0, 0]".toList) := by decide +kernel

/-! ### C48 -/

/-- **C48** is false: `stride()` throws on every tensor (and changes nothing). -/
theorem C48_always_throws_partial (h : Heap F) (t : Nat) (i : Impl) (hi : h.ts[t]? = some i) :
    stride t h = .throw .runtime h := by
  unfold stride
  rw [M.bind_ok (getT_ok hi)]
  rfl

example : thrown (stride 0 exHeap) = some .runtime := by decide +kernel

/-! ### C49 -/

theorem randGo_oob {i : Impl} (hi : i.dtype = .f32) (size : Nat) (H : Heap F) : ∀ (l : List F) (k : Nat),
    size < 8 * (k + l.length) → l ≠ [] → randGo i 8 size k l H = .ub .oob
  | [], _, _, hn => absurd rfl hn
  | x :: l, k, hk, _ => by
    have hk : size < 8 * (k + (l.length + 1)) := by simpa using hk
    unfold randGo
    by_cases hc : 8 * (k + 1) > size
    · rw [if_pos hc]; rfl
    · rw [if_neg hc, if_pos (by rw [hi]; decide)]
      refine randGo_oob hi size H l (k + 1) (by omega) fun hl => ?_
      subst hl
      simp at hk
      omega

/-- **C49** (partial): `randn(sizes, f32)` returns a new contiguous `f32` tensor of that shape that holds the numbers of
the generator in order, whatever they are, and changes nothing else; for integer types it throws `std::runtime_error`
and changes nothing. Missing: f64, of which the property is false (`C49_f64_out_of_bounds`). -/
theorem C49_randn_partial (rnd : Nat → F) (sizes : List Nat) (h : Heap F) :
    (vol sizes * DType.f32.size < 9223372036854775808 →
      Returns (randn rnd sizes .f32 h) h .f32 sizes (fun idx => .f (rnd (rank sizes idx)))) ∧
    (∀ dt : DType, isInteger dt = true → randn rnd sizes dt h = .throw .runtime h) := by
  constructor
  · intro hsz
    obtain ⟨h', e, b⟩ := randn_ok hsz rnd h
    exact b.returns e
  · intro dt hdt
    unfold randn
    cases dt <;> first | rfl | (exact absurd hdt (by decide))

/-- **C49** is false for f64: for every non-empty shape `randn(sizes, f64)` writes outside the allocation. -/
theorem C49_f64_out_of_bounds (rnd : Nat → F) (sizes : List Nat) (h : Heap F)
    (hsz : vol sizes * DType.f32.size < 9223372036854775808) (hne : vol sizes ≠ 0) :
    randn rnd sizes .f64 h = .ub .oob := by
  have hv := vol_lt_of_bytes hsz
  unfold randn
  show ((create .f32 (Layout.contig sizes) true >>= _ : M F Nat) h) = _
  rw [M.bind_ok (create_ok hsz h), M.bind_ok (getT_ok (alloc_getT h _ _))]
  have hS : (getS (h.st.length) : M F _) (h.alloc .f32 sizes) = _ := getS_ok (alloc_getS h .f32 sizes)
  rw [show (newImpl DType.f32 sizes h.st.length).data = h.st.length from rfl, M.bind_ok hS]
  rw [if_neg (by decide), M.bind_ub (randGo_oob rfl _ _ _ _ ?_ ?_)]
  · simp [numel_eq_vol (show vol sizes < _ by omega), DType.size]
    omega
  · rw [numel_eq_vol (by omega)]
    simp [hne]

/-- ... and for an empty shape the result has type f32. -/
theorem C49_f64_wrong_type :
    result ((do
      let t ← randn (fun _ => 0) [0] .f64
      Tensor.typeOf t : M Int _) Heap.empty) = some .f32 := by decide +kernel

example : result ((do
      let t ← randn (fun k => k) [2, 2] .f32
      Tensor.toString t : M Int _) exHeap) = some "[[0, 1], [2, 3]]".toList := by decide +kernel

end INNC
