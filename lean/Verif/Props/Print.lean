import Verif.Lemmas.Print
import Verif.Lemmas.Examples
/-
C31: the text of a tensor.
-/
namespace INNC
open Spec
variable {F : Type} [FOps F]

/-- **C31**: `to_string` of any tensor, whatever its strides and offset, is the nested listing of its elements, and
changes nothing. -/
theorem C31_listing {h : Heap F} {t : Nat} {dt : DType} {sizes : List Nat} {f : List Nat → Val F}
    (hd : Denotes h t dt sizes f) (ha : Addressable h t) : Tensor.toString t h = .ok (listing sizes f) h := toString_ok hd ha

/-- **C31**: an empty `Tensor` prints as `[]`, the text of a tensor whose only axis is empty. -/
theorem C31_empty {h : Heap F} {t : Nat} {dt : DType} {f : List Nat → Val F} (hd : Denotes h t dt [0] f) (ha : Addressable h t) :
    Tensor.tensorToString none h = .ok ['[', ']'] h ∧ Tensor.tensorToString (some t) h = .ok ['[', ']'] h :=
  ⟨rfl, toString_ok hd ha⟩

/-- **C31**: two integer tensors without empty axes that print the same text have the same shape and the same elements. -/
theorem C31_injective {h h' : Heap F} {t t' : Nat} {dt dt' : DType} {s s' : List Nat} {f f' : List Nat → Val F}
    (hd : Denotes h t dt s f) (hd' : Denotes h' t' dt' s' f') (ha : Addressable h t) (ha' : Addressable h' t')
    (hi : isInteger dt = true) (hi' : isInteger dt' = true) (h0 : 0 ∉ s) (h0' : 0 ∉ s') (text : List Char)
    (ht : Tensor.toString t h = .ok text h) (ht' : Tensor.toString t' h' = .ok text h') :
    s = s' ∧ ∀ idx, InBox s idx → f idx = f' idx := by
  rw [toString_ok hd ha] at ht
  rw [toString_ok hd' ha'] at ht'
  have ints : ∀ {h : Heap F} {t dt s f}, Denotes h t dt s f → isInteger dt = true → IntElems s f := by
    rintro h t dt s f ⟨i, _, rfl, rfl, hr⟩ hi idx hb
    have := hr.typed idx hb
    cases hv : f idx with
    | i n => exact ⟨n, rfl⟩
    | f x =>
      rw [hv] at this
      have : i.dtype.isFloat = true := this
      cases hdt : i.dtype <;> rw [hdt] at this hi <;> first | exact absurd this (by decide) | exact absurd hi (by decide)
  have hstop : Stop [] := by intro c l h; simp at h
  obtain ⟨h1, h2, _⟩ := listing_inj (r := []) (r' := []) h0 h0' (ints hd hi) (ints hd' hi') hstop hstop (by
    simp only [List.append_nil]
    injection ht with ht _
    injection ht' with ht' _
    rw [ht, ht'])
  exact ⟨h1, h2⟩

theorem exHeap_addressable (t : Nat) : Addressable exHeap t := by
  intro i hi
  match t, hi with
  | 0, hi => obtain rfl := Option.some.inj hi; exact forall_inBox (by decide)
  | 1, hi => obtain rfl := Option.some.inj hi; exact forall_inBox (by decide)
  | 2, hi => obtain rfl := Option.some.inj hi; exact forall_inBox (by decide)
  | _ + 3, hi => simp [exHeap] at hi

/-- The transpose of a 2x3 matrix. -/
example : Tensor.toString 2 exHeap = .ok "[[1, 4], [2, 5], [3, 6]]".toList exHeap :=
  (C31_listing exHeap_aT (exHeap_addressable 2)).trans (by decide +kernel)
example : [3, 2] = [3, 2] ∧ ∀ idx, InBox [3, 2] idx → exA [idx.getD 1 0, idx.getD 0 0] = exA [idx.getD 1 0, idx.getD 0 0] :=
  C31_injective exHeap_aT exHeap_aT (exHeap_addressable 2) (exHeap_addressable 2) rfl rfl (by decide) (by decide) _
    (C31_listing exHeap_aT (exHeap_addressable 2)) (C31_listing exHeap_aT (exHeap_addressable 2))

/-- A tensor with one empty axis. -/
example : ∃ h' : Heap Int, Tensor.zeros [0] .i32 Heap.empty = .ok 0 h' ∧ Tensor.tensorToString (some 0) h' = .ok ['[', ']'] h' := by
  obtain ⟨h', e, bt, _⟩ := zeros_ok (F := Int) (dt := .i32) (s := [0]) (by decide) Heap.empty
  obtain ⟨d, hd, _⟩ := bt.obj
  exact ⟨h', e, (C31_empty bt.denotes fun i hi idx hb => by
    have : InBox [0] idx := by rw [hd] at hi; obtain rfl := Option.some.inj hi; exact hb
    exact absurd this (by cases idx <;> simp [InBox])).2⟩

end INNC
