import Verif.Props.Guards
/-
Counterexamples to C42 (mean), C43 (quotient), C44 (max, min), C45 (backward from a view) and C46 (retained gradient of a
view): programs over the API, run from the start, compared by what they print.
-/
namespace INNC
open Spec Tensor

/-! ### C42 -/

/-- **C42** is false: the gradient of `mean()` ignores the gradient of its result. For `s = 3 * mean(x)` with one element
the derivative is 3; 1 is found. -/
theorem C42_ignores_upstream_partial :
    result ((do
      let x ← ones [1] .f32
      setRequiresGrad x true
      let three ← createScalar .f32 (.f 3)
      let m ← meanT x
      let s ← mulT m three
      backward s
      showGrad x : M Int _) Heap.empty) = some (some "[1]".toList) := by decide +kernel

/-! ### C43 -/

/-- **C43** is false: if the denominator does not require grad, `backward()` dereferences its null gradient. -/
theorem C43_constant_denominator :
    undefinedBy ((do
      let x ← ones [] .f32
      setRequiresGrad x true
      let y ← ones [] .f32
      let q ← divT x y
      backward q : M Int _) Heap.empty) = some .nullptr := by decide +kernel

/-- **C43**: the same for the numerator. -/
theorem C43_constant_numerator :
    undefinedBy ((do
      let x ← ones [] .f32
      let y ← ones [] .f32
      setRequiresGrad y true
      let q ← divT x y
      backward q : M Int _) Heap.empty) = some .nullptr := by decide +kernel

/-- **C43**: a denominator of integer type leads to a look-up outside the table of kernels. -/
theorem C43_integer_denominator :
    undefinedBy ((do
      let x ← ones [] .f32
      setRequiresGrad x true
      let y ← ones [] .i32
      let q ← divT x y
      backward q : M Int _) Heap.empty) = some .dispatch := by decide +kernel

/-- **C43**: a broadcast denominator is indexed outside its storage. -/
theorem C43_broadcast_denominator :
    undefinedBy ((do
      let x ← ones [2] .f32
      setRequiresGrad x true
      let y ← ones [1] .f32
      setRequiresGrad y true
      let q ← divT x y
      let s ← sumT q
      backward s : M Int _) Heap.empty) = some .oob := by decide +kernel

/-- **C43**: a denominator of lower rank makes `backward()` throw. -/
theorem C43_scalar_denominator :
    thrown ((do
      let x ← ones [2] .f32
      setRequiresGrad x true
      let y ← ones [] .f32
      setRequiresGrad y true
      let q ← divT x y
      let s ← sumT q
      backward s : M Int _) Heap.empty) = some .runtime := by decide +kernel

/-! ### C44 -/

/-- **C44** is false: `max()` of a tensor that requires grad throws if the extreme element is the first. -/
theorem C44_first_element :
    thrown ((do
      let x ← fromBlob [.f 7, .f 1] [2] .f32
      setRequiresGrad x true
      maxT x : M Int _) Heap.empty) = some .runtime := by decide +kernel

/-- **C44**: with a view the running value starts from the first element of the storage, which need not belong to the
view: the maximum of `[1, 2]` is found to be 7 (and no position holds it, so that `max()` throws if the view requires
grad). -/
theorem C44_view :
    result ((do
      let x ← fromBlob [.f 7, .f 1, .f 2] [3] .f32
      let y ← slice x "1:3".toList
      let m ← maxT y
      return (← Tensor.toString y, ← Tensor.toString m) : M Int _) Heap.empty) =
    some ("[1, 2]".toList, "7".toList) := by decide +kernel

/-! ### C45 -/

/-- **C45** is false: `backward()` on a one-element slice leaves the gradient of the selected element at 0. -/
theorem C45_slice :
    result ((do
      let x ← fromBlob [.f 7, .f 1] [2] .f32
      setRequiresGrad x true
      let y ← slice x "1".toList
      backward y
      showGrad x : M Int _) Heap.empty) = some (some "[0, 0]".toList) := by decide +kernel

/-- **C45**: and so does `backward()` on a transposed one-element tensor. -/
theorem C45_transpose :
    result ((do
      let x ← ones [1, 1] .f32
      setRequiresGrad x true
      let y ← Tensor.transpose x 0 1
      backward y
      showGrad x : M Int _) Heap.empty) = some (some "[[0]]".toList) := by decide +kernel

/-! ### C46 -/

/-- **C46** is false: the retained gradient of a slice `y` of `x` also counts the other uses of `x`. The derivative of
`y.sum() + x.sum()` with respect to `y` alone is 1; 2 is found. -/
theorem C46_other_uses :
    result ((do
      let x ← ones [2] .f32
      setRequiresGrad x true
      let y ← slice x "0:1".toList
      setRetainGrad y true
      let a ← sumT y
      let b ← sumT x
      let s ← addT a b
      backward s
      return (← showGrad x, ← showGrad y) : M Int _) Heap.empty) =
    some (some "[2, 1]".toList, some "[2]".toList) := by decide +kernel

end INNC
