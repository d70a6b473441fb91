import Verif.Lemmas.Cat
import Verif.Lemmas.Examples
/-
C29: concatenation.
-/
namespace INNC
open Spec
variable {F : Type} [FOps F]

/-- **C29**: `cat` of tensors (views included) that have the shape `sizes` except on axis `d` is a new tensor whose size on
`d` is the sum of theirs, whose type is the latest of theirs, and whose segments along `d` are their elements converted to
that type, in order; nothing else changes. -/
theorem C29_cat {h : Heap F} {d : Nat} {sizes : List Nat} {ts : List Nat} {blocks : List (Block F)}
    (hts : List.Forall₂ (fun t b => Denotes h t b.dt (sizes.set d b.n) b.f) ts blocks) (hne : ts ≠ [])
    (hd : d < sizes.length) (htot : axisTotal blocks < 9223372036854775808)
    (hsize : vol (sizes.set d (axisTotal blocks)) * (latest (blocks.map (·.dt))).size < 9223372036854775808) :
    Returns (Tensor.catT ts d h) h (latest (blocks.map (·.dt))) (sizes.set d (axisTotal blocks))
      (catAt d (latest (blocks.map (·.dt))) blocks) := by
  obtain ⟨h', is, _, e, b, _⟩ := catT_ok hts hne hd htot hsize
  exact b.returns e

/-- **C29**: the conversions in `C29_cat` always exist: converting to the latest of several types that include the
element's own type never fails. -/
theorem C29_converts (dts : List DType) (dt : DType) (hdt : dt ∈ dts) (v : Val F) (hv : v.HasType dt) :
    convert dt (latest dts) v = some (converted dt (latest dts) v) := convert_later (order_le_latest hdt) hv

/-- **C29**: an axis that the first tensor does not have is rejected with `std::runtime_error`. -/
theorem C29_axis {h : Heap F} {d t0 : Nat} {rest : List Nat} {i0 : Impl} (h0 : h.ts[t0]? = some i0)
    (hd : i0.view.sizes.length ≤ d) : Tensor.catT (t0 :: rest) d h = .throw .runtime h := by
  unfold Tensor.catT
  dsimp only
  rw [M.bind_ok (getT_ok h0), M.bind_throw (e := .runtime) (h' := h)]
  rw [decide_eq_false (by omega)]; rfl

/-- **C29**: a tensor whose rank differs from the first one's, or whose size differs on an axis other than `d`, is
rejected with `std::runtime_error`, and nothing changes. -/
theorem C29_mismatch {h : Heap F} {d t0 : Nat} {rest : List Nat} {i0 : Impl} {others : List Impl}
    (h0 : h.ts[t0]? = some i0) (hr : List.Forall₂ (fun t i => h.ts[t]? = some i) rest others)
    (hbad : ∃ i ∈ others, i.view.sizes.length ≠ i0.view.sizes.length ∨
      ∃ e, e ≠ d ∧ i.view.sizes[e]? ≠ i0.view.sizes[e]?) :
    Tensor.catT (t0 :: rest) d h = .throw .runtime h := by
  by_cases hd : d < i0.view.sizes.length
  · unfold Tensor.catT
    dsimp only
    rw [M.bind_ok (getT_ok h0), M.bind_ok (a := ()) (h' := h) (by rw [decide_eq_true hd]; rfl), M.bind_ok (getAll_ok hr),
      M.bind_throw (catCheck_throw ?_)]
    obtain ⟨i, hi, hb⟩ := hbad
    refine ⟨i, hi, fun hf => ?_⟩
    rcases hb with hb | ⟨e, he, hb⟩
    · exact hb hf.1.symm
    · exact hb (hf.2 e he).symm
  · exact C29_axis h0 (by omega)

/-- Concatenating the transpose of a 2x3 `i16` matrix with itself along axis 1 of shape `[3, ·]`. -/
example : Returns (Tensor.catT [2, 2] 1 exHeap) exHeap .i16 [3, 4] (catAt 1 .i16
    [⟨.i16, 2, fun idx => exA [idx.getD 1 0, idx.getD 0 0]⟩, ⟨.i16, 2, fun idx => exA [idx.getD 1 0, idx.getD 0 0]⟩]) :=
  C29_cat (sizes := [3, 0]) (blocks := [⟨.i16, 2, _⟩, ⟨.i16, 2, _⟩])
    (.cons exHeap_aT (.cons exHeap_aT .nil)) (by simp) (by decide) (by decide) (by decide)
/-- The elements of that result: the second block starts at column 2. -/
example : (rowMajor [3, 4]).map (catAt 1 .i16
    [⟨.i16, 2, fun idx => exA [idx.getD 1 0, idx.getD 0 0]⟩, ⟨.i16, 2, fun idx => exA [idx.getD 1 0, idx.getD 0 0]⟩]) =
    [.i 1, .i 4, .i 1, .i 4, .i 2, .i 5, .i 2, .i 5, .i 3, .i 6, .i 3, .i 6] := by decide +kernel
/-- Tensors of different ranks. -/
example : Tensor.catT [0, 1] 0 exHeap = .throw .runtime exHeap :=
  C29_mismatch rfl (.cons rfl .nil) ⟨_, List.mem_singleton.2 rfl, .inl (by decide)⟩
example : Tensor.catT [0, 1] 2 exHeap = .throw .runtime exHeap := C29_axis rfl (by decide)

/-- **C29** disagreement, outside the property's quantifier: an empty list is read out of bounds instead of rejected. -/
theorem C29_empty_undefined (d : Nat) (h : Heap F) : undefinedBy (Tensor.catT [] d h) = some .vecOob := rfl

end INNC
