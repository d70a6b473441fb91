import Verif.Lemmas.SizeText
import Verif.Lemmas.Examples
/-
C70: the text of shapes.
-/
namespace INNC
open Spec Tensor

variable {F : Type} [FOps F]

/-- **C70**: `size().to_string()` of any tensor is the list of its sizes in decimal, separated by `", "`, in brackets; it changes
nothing. -/
theorem C70_sizes {h : Heap F} {t : Nat} {dt : DType} {sizes : List Nat} {f : List Nat → Val F} (hd : Denotes h t dt sizes f) :
    Tensor.sizeToString t h = .ok (['['] ++ commas (sizes.map fun n => (toString n).toList) ++ [']']) h := by
  obtain ⟨i, hi, _, rfl, _⟩ := hd
  unfold sizeToString sizeT
  simp only [bind, M.bind, getT_ok hi, pure, M.pure]
  unfold sizeVecToString
  rw [iterToString_eq, List.map_map]
  rfl

/-- **C70**: two tensors whose sizes print alike have the same shape. -/
theorem C70_injective {h h' : Heap F} {t t' : Nat} {dt dt' : DType} {s s' : List Nat} {f f' : List Nat → Val F}
    (hd : Denotes h t dt s f) (hd' : Denotes h' t' dt' s' f') (text : List Char)
    (ht : Tensor.sizeToString t h = .ok text h) (ht' : Tensor.sizeToString t' h' = .ok text h') : s = s' := by
  obtain ⟨i, hi, _, rfl, _⟩ := hd
  obtain ⟨i', hi', _, rfl, _⟩ := hd'
  unfold sizeToString sizeT at ht ht'
  simp only [bind, M.bind, getT_ok hi, getT_ok hi', pure, M.pure] at ht ht'
  injection ht with ht _
  injection ht' with ht' _
  have := iterToString_inj (ht.trans ht'.symm)
  exact List.map_injective_iff.2 (fun a b h => Int.ofNat_inj.1 h) this

/-- **C70**: the same format for lists of signed numbers (strides), negative ones included, which also determines the list. -/
theorem C70_signed (l : List Int) : signedVecToString l = ['['] ++ commas (l.map fun n => (toString n).toList) ++ [']'] ∧
    ∀ m, signedVecToString l = signedVecToString m → l = m :=
  ⟨iterToString_eq l, fun _ => iterToString_inj⟩

/-- The sizes of the transpose of a 2x3 matrix. -/
example : Tensor.sizeToString 2 exHeap = .ok "[3, 2]".toList exHeap := (C70_sizes exHeap_aT).trans (by decide +kernel)
example : [3, 2] = [3, 2] := C70_injective exHeap_aT exHeap_aT _ (C70_sizes exHeap_aT) (C70_sizes exHeap_aT)
example : signedVecToString [3, -12, 0] = "[3, -12, 0]".toList := by decide +kernel

end INNC
