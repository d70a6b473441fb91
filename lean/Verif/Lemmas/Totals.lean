import Verif.Lemmas.Reduce
import Verif.Lemmas.Cat
import Verif.Lemmas.ViewOps
import Verif.Spec.Totals
import Mathlib.Algebra.BigOperators.Group.List.Basic
import Mathlib.Data.List.Nodup
/-
Sums of rearranged elements.
-/
namespace INNC
open Spec
variable {F : Type} [FOps F]

theorem denotes_scalar {h : Heap F} {r : Nat} {dt dt' : DType} {v w : Val F} (h1 : Denotes h r dt [] fun _ => v)
    (h2 : Denotes h r dt' [] fun _ => w) : v = w := by
  obtain ⟨i, hi, _, hs, hr⟩ := h1
  obtain ⟨j, hj, _, _, hr'⟩ := h2
  rw [hi] at hj
  obtain rfl := Option.some.inj hj
  obtain ⟨s, c, hs1, _, hb, _, hc⟩ := hr.cells
  obtain ⟨s', c', hs', _, hb', _, hc'⟩ := hr'.cells
  rw [hs1] at hs'; injection hs' with hs'; subst hs'
  rw [hb] at hb'; injection hb' with hb'; subst hb'
  have hin : InBox i.view.sizes [] := by rw [hs]; trivial
  obtain ⟨p, hp, hcp⟩ := hc [] hin
  obtain ⟨p', hp', hcp'⟩ := hc' [] hin
  have : p = p' := by rw [hp] at hp'; exact_mod_cast hp'
  subst this
  rw [hcp] at hcp'; injection hcp' with hcp'; injection hcp'

theorem sumIs_iff {h : Heap F} {t : Nat} {dt : DType} {s : List Nat} {f : List Nat → Val F} {v : Val F} (hd : Denotes h t dt s f)
    (hsize : vol s < 18446744073709551616) : SumIs h t v ↔ sumOf dt s f = some v := by
  obtain ⟨i, hi, rfl, rfl, hr⟩ := hd
  have := sumT_out hi hr hsize
  constructor
  · rintro ⟨r, h', dt, e, hv⟩
    rw [e] at this
    revert this
    cases sumOf i.dtype i.view.sizes f with
    | none => exact nofun
    | some w =>
      rintro ⟨h'', e', b⟩
      cases e'
      rw [denotes_scalar hv b.denotes]
  · intro hv
    rw [hv] at this
    obtain ⟨h', e, b⟩ := this
    exact ⟨_, h', _, e, b.denotes⟩

theorem meanIs_iff {h : Heap F} {t : Nat} {dt : DType} {s : List Nat} {f : List Nat → Val F} {v : Val F} (hd : Denotes h t dt s f)
    (hsize : vol s < 9223372036854775808) : MeanIs h t v ↔ meanOf dt s f = some v := by
  obtain ⟨i, hi, rfl, rfl, hr⟩ := hd
  have := meanT_out hi hr hsize
  constructor
  · rintro ⟨r, h', dt, e, hv⟩
    rw [e] at this
    revert this
    cases meanOf i.dtype i.view.sizes f with
    | none => exact nofun
    | some w =>
      rintro ⟨h'', e', b⟩
      cases e'
      rw [denotes_scalar hv b.denotes]
  · intro hv
    rw [hv] at this
    obtain ⟨h', e, b⟩ := this
    exact ⟨_, h', _, e, b.denotes⟩

theorem foldInt {t : DType} (ht : isInteger t = true) : ∀ (l : List (Val F)) (a : Int) {v : Val F}, (∀ x ∈ l, ∃ n, x = .i n) →
    l.foldlM (elemArith .add .i64 t) (.i a) = some v → v = .i (a + (l.map intOf).sum)
  | [], a, v, _, e => by
    cases e
    simp
  | x :: l, a, v, hx, e => by
    obtain ⟨n, rfl⟩ := hx x (by simp)
    rw [List.foldlM_cons] at e
    have hel : elemArith .add .i64 t (.i a : Val F) (.i n) = if InRange 64 (a + n) then some (.i (a + n)) else none := by
      unfold elemArith
      rw [if_pos ⟨rfl, ht⟩]
      simp only [exact]
      have hw : max 32 (max (width .i64) (width t)) = 64 := by cases t <;> rfl
      have hl : later .i64 t = .i64 := by cases t <;> simp [isInteger] at ht <;> rfl
      rw [hw, hl]
      split
      · rename_i h1
        rw [show width .i64 = 64 from rfl, reduce_self (by decide) h1]
      · rfl
    rw [hel] at e
    split at e
    · have := foldInt ht l (a + n) (fun x h => hx x (by simp [h])) e
      rw [this, List.map_cons, List.sum_cons, ← Int.add_assoc]
      rfl
    · cases e

theorem typed_int {t : DType} (ht : isInteger t = true) {v : Val F} (hv : v.HasType t) : v = .i (intOf v) ∧ InRange (width t) (intOf v) := by
  cases v with
  | i n => exact ⟨rfl, (hasType_i.1 hv).2⟩
  | f x =>
    have := hasType_f.1 hv
    rw [ht] at this
    cases this

theorem sumOf_intOf {t : DType} (ht : isInteger t = true) {s : List Nat} {f : List Nat → Val F} (hf : ∀ idx, InBox s idx → (f idx).HasType t)
    {v : Val F} (e : sumOf t s f = some v) : v = .i ((rowMajor s).map fun idx => intOf (f idx)).sum := by
  have hacc : accType t = .i64 := by unfold accType; rw [if_pos ht]
  cases s with
  | nil =>
    obtain ⟨h1, h2⟩ := typed_int ht (hf [] trivial)
    change convert t (accType t) (f []) = some v at e
    rw [hacc, h1] at e
    change some (Val.i (reduce (width .i64) (intOf (f [])))) = some v at e
    rw [reduce_self (by decide) (inRange_mono (by cases t <;> decide) h2)] at e
    cases e
    simp [rowMajor]
  | cons n s =>
    change total t (elems (n :: s) f) = some v at e
    unfold total elems at e
    rw [hacc] at e
    have := foldInt ht _ 0 (fun x hx => ?_) e
    · rw [this, Int.zero_add, List.map_map]; rfl
    · obtain ⟨idx, hi, rfl⟩ := List.mem_map.1 hx
      exact ⟨_, (typed_int ht (hf idx (mem_rowMajor.1 hi))).1⟩

/-- The indices of a transposed shape. -/
theorem rowMajor_swapped {s : List Nat} {a b : Nat} (ha : a < s.length) (hb : b < s.length) :
    ((rowMajor (swapped s a b)).map fun idx => swapped idx a b).Perm (rowMajor s) := by
  refine (List.perm_ext_iff_of_nodup ?_ (nodup_rowMajor _)).2 fun idx => ?_
  · exact (nodup_rowMajor _).map fun x y e => by
      have e : swapped x a b = swapped y a b := e
      rw [← swapped_swapped x a b, e, swapped_swapped]
  · rw [List.mem_map, mem_rowMajor]
    constructor
    · rintro ⟨j, hj, rfl⟩
      exact inBox_swapped ha hb (mem_rowMajor.1 hj)
    · intro hi
      refine ⟨swapped idx a b, mem_rowMajor.2 (inBox_swapped (by rw [length_swapped]; exact ha) (by rw [length_swapped]; exact hb) ?_),
        swapped_swapped _ _ _⟩
      rw [swapped_swapped]; exact hi

/-- The indices of a shape whose axis `d` is divided into `n` and `m`. -/
theorem rowMajor_divided {s : List Nat} {d : Nat} (hd : d < s.length) (n m : Nat) :
    (rowMajor (s.set d n) ++ (rowMajor (s.set d m)).map fun idx => idx.set d (idx.getD d 0 + n)).Perm (rowMajor (s.set d (n + m))) := by
  have at' : ∀ {k : Nat} {idx : List Nat}, InBox (s.set d k) idx → d < idx.length ∧ idx.getD d 0 < k := fun {k idx} hi => by
    obtain ⟨j, hj, hlt⟩ := inBox_set_lt hd hi
    have := (List.getElem?_eq_some_iff.1 hj).1
    exact ⟨this, by rw [List.getD_eq_getElem?_getD, hj]; exact hlt⟩
  have back : ∀ {idx : List Nat}, d < idx.length → ∀ j, (idx.set d j).set d (idx.getD d 0) = idx := fun {idx} h j => by
    rw [List.set_set, List.getD_eq_getElem?_getD, List.getElem?_eq_getElem h]
    exact List.set_getElem_self h
  have got : ∀ {idx : List Nat}, d < idx.length → ∀ j, (idx.set d j).getD d 0 = j := fun {idx} h j => by
    rw [List.getD_eq_getElem?_getD, List.getElem?_set_self h]; rfl
  refine (List.perm_ext_iff_of_nodup ?_ (nodup_rowMajor _)).2 fun idx => ?_
  · rw [List.nodup_append]
    refine ⟨nodup_rowMajor _, ?_, ?_⟩
    · refine List.Nodup.map_on (fun x hx y hy e => ?_) (nodup_rowMajor _)
      obtain ⟨lx, _⟩ := at' (mem_rowMajor.1 hx)
      obtain ⟨ly, _⟩ := at' (mem_rowMajor.1 hy)
      have h1 := congrArg (fun l => List.getD l d 0) e
      simp only [got lx, got ly] at h1
      have h2 : x.getD d 0 = y.getD d 0 := by omega
      rw [← back lx (x.getD d 0 + n), e, h2, back ly]
    · intro x hx y hy e
      obtain ⟨z, hz, rfl⟩ := List.mem_map.1 hy
      obtain ⟨lz, _⟩ := at' (mem_rowMajor.1 hz)
      obtain ⟨_, hlt⟩ := at' (mem_rowMajor.1 hx)
      rw [e, got lz] at hlt
      omega
  · rw [List.mem_append, List.mem_map, mem_rowMajor, mem_rowMajor]
    constructor
    · rintro (hi | ⟨z, hz, rfl⟩)
      · exact inBox_set hi (by omega)
      · have hz := mem_rowMajor.1 hz
        exact inBox_set_set hz (by have := (at' hz).2; omega)
    · intro hi
      obtain ⟨hl, hlt⟩ := at' hi
      by_cases hn : idx.getD d 0 < n
      · left
        have := inBox_set_set (m := n) hi hn
        have e := back hl (idx.getD d 0)
        rw [List.set_set] at e
        rwa [e] at this
      · right
        refine ⟨idx.set d (idx.getD d 0 - n), mem_rowMajor.2 (inBox_set_set hi (by omega)), ?_⟩
        rw [got hl, Nat.sub_add_cancel (by omega), back hl]

theorem narrower {s t : DType} (h : order s ≤ order t) (ht : isInteger t = true) : isInteger s = true ∧ width s ≤ width t := by
  revert h ht
  cases s <;> cases t <;> decide

theorem intOf_converted {s t : DType} (h : order s ≤ order t) (ht : isInteger t = true) {v : Val F} (hv : v.HasType s) :
    intOf (converted s t v) = intOf v := by
  obtain ⟨hs, hw⟩ := narrower h ht
  obtain ⟨h1, h2⟩ := typed_int hs hv
  rw [h1]
  have : convert s t (.i (intOf v) : Val F) = some (.i (reduce (width t) (intOf v))) := by
    unfold convert
    rw [if_pos ht]
  unfold converted
  rw [this, reduce_self (by cases t <;> decide) (inRange_mono hw h2)]
  rfl

/-- The sum of a concatenation. -/
theorem sum_cat {sizes : List Nat} {d : Nat} (hd : d < sizes.length) {t : DType} (ht : isInteger t = true) : ∀ (bs : List (Block F)),
    (∀ b ∈ bs, order b.dt ≤ order t ∧ ∀ idx, InBox (sizes.set d b.n) idx → (b.f idx).HasType b.dt) →
    ((rowMajor (sizes.set d (axisTotal bs))).map fun idx => intOf (catAt d t bs idx)).sum =
      (bs.map fun b => ((rowMajor (sizes.set d b.n)).map fun idx => intOf (b.f idx)).sum).sum
  | [], _ => by
    have : rowMajor (sizes.set d (axisTotal ([] : List (Block F)))) = [] := by
      refine List.eq_nil_iff_forall_not_mem.2 fun idx hi => ?_
      obtain ⟨j, _, hlt⟩ := inBox_set_lt hd (mem_rowMajor.1 hi)
      exact absurd hlt (Nat.not_lt_zero _)
    rw [this]
    rfl
  | b :: bs, hb => by
    obtain ⟨h1, h2⟩ := hb b (by simp)
    have at' : ∀ {k : Nat} {idx : List Nat}, InBox (sizes.set d k) idx → d < idx.length ∧ idx.getD d 0 < k := fun {k idx} hi => by
      obtain ⟨j, hj, hlt⟩ := inBox_set_lt hd hi
      have := (List.getElem?_eq_some_iff.1 hj).1
      exact ⟨this, by rw [List.getD_eq_getElem?_getD, hj]; exact hlt⟩
    have hp := ((rowMajor_divided hd b.n (axisTotal bs)).map fun idx => intOf (catAt d t (b :: bs) idx)).sum_eq
    rw [List.map_cons, List.sum_cons, ← sum_cat hd ht bs fun b' h' => hb b' (by simp [h'])]
    change ((rowMajor (sizes.set d (b.n + axisTotal bs))).map _).sum = _
    rw [← hp, List.map_append, List.sum_append]
    congr 1
    · refine congrArg List.sum (List.map_congr_left fun idx hi => ?_)
      have hi := mem_rowMajor.1 hi
      unfold catAt
      rw [if_pos (at' hi).2, intOf_converted h1 ht (h2 idx hi)]
    · rw [List.map_map]
      refine congrArg List.sum (List.map_congr_left fun idx hi => ?_)
      have hl := (at' (mem_rowMajor.1 hi)).1
      have hg : ∀ j, (idx.set d j).getD d 0 = j := fun j => by
        rw [List.getD_eq_getElem?_getD, List.getElem?_set_self hl]; rfl
      change intOf (catAt d t (b :: bs) (idx.set d (idx.getD d 0 + b.n))) = _
      rw [catAt, hg, if_neg (by omega), Nat.add_sub_cancel, List.set_set]
      congr 2
      rw [List.getD_eq_getElem?_getD, List.getElem?_eq_getElem hl]
      exact List.set_getElem_self hl

theorem absSum_bound (g : List Nat → Int) : ∀ (l : List (List Nat)) (k : Nat),
    ((l.take k).map g).sum.natAbs ≤ (l.map fun idx => (g idx).natAbs).sum
  | _, 0 => by simp
  | [], k + 1 => by simp
  | x :: l, k + 1 => by
    have := absSum_bound g l k
    simp only [List.take_succ_cons, List.map_cons, List.sum_cons]
    omega

/-- A mean depends on the element type, the number of elements and the sum only. -/
theorem meanOf_intOf {t : DType} {s s' : List Nat} {f g : List Nat → Val F} (hv : vol s' = vol s) {v w : Val F}
    (hs : ∀ a b, sumOf t s' g = some a → sumOf t s f = some b → a = b) (e1 : meanOf t s' g = some v) (e2 : meanOf t s f = some w) :
    v = w := by
  unfold meanOf at e1 e2
  rw [hv] at e1
  by_cases h0 : vol s = 0
  · rw [if_pos h0] at e1 e2
    rw [e1] at e2
    exact Option.some.inj e2
  · rw [if_neg h0] at e1 e2
    revert e1 e2 hs
    cases sumOf t s' g with
    | none => intro _ e1; cases e1
    | some a =>
      cases sumOf t s f with
      | none => intro _ _ e2; cases e2
      | some b =>
        intro hs e1 e2
        obtain rfl := hs a b rfl rfl
        exact Option.some.inj (e1.symm.trans e2)

theorem stretched_self (s : List Nat) : ¬ stretched s s := by
  have key : ∀ l : List Nat, ¬ stretchRev l l := by
    intro l
    induction l with
    | nil => exact id
    | cons a l ih =>
      rintro (⟨rfl, h⟩ | ⟨rfl, h⟩ | h)
      · cases h
      · cases h
      · exact ih h
  exact key _

end INNC
