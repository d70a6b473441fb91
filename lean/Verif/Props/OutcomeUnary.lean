import Verif.Lemmas.OutcomeUnary
import Verif.Props.Reduce
/-
C61: what abs, max, min and all do for any tensor, views included.
-/
namespace INNC
open Spec
variable {F : Type} [FOps F]

/-! ### Absolute value -/

/-- **C61**, `abs`. For a tensor of any layout with elements at different positions: either each element lies below position `numel` of
its storage and its absolute value exists, and then `abs` returns the absolute values; or the behaviour of `abs` is undefined (a write
outside the result's storage, or an overflow). It never throws and never returns anything else. -/
theorem C61_abs {h : Heap F} {t : Nat} {i : Impl} {f : List Nat → Val F} (hi : h.ts[t]? = some i) (hr : Reads h i f)
    (hinj : ∀ a b, InBox i.view.sizes a → InBox i.view.sizes b → position i.view a = position i.view b → a = b)
    (hsize : vol i.view.sizes * i.dtype.size < 9223372036854775808) :
    ((∀ idx, InBox i.view.sizes idx → position i.view idx < vol i.view.sizes ∧ elemAbs i.dtype (f idx) ≠ none) ∧
      ∃ g, (∀ idx, InBox i.view.sizes idx → elemAbs i.dtype (f idx) = some (g idx)) ∧
        Returns (Tensor.absT t h) h i.dtype i.view.sizes g) ∨
    ((∃ idx, InBox i.view.sizes idx ∧ ((vol i.view.sizes : Int) ≤ position i.view idx ∨ elemAbs i.dtype (f idx) = none)) ∧
      (Tensor.absT t h = .ub .oob ∨ Tensor.absT t h = .ub .overflow)) := by
  by_cases hx : ∃ idx, InBox i.view.sizes idx ∧ ((vol i.view.sizes : Int) ≤ position i.view idx ∨ elemAbs i.dtype (f idx) = none)
  · exact .inr ⟨hx, abs_undefined hi hr hsize hx⟩
  · have hall : ∀ idx, InBox i.view.sizes idx → position i.view idx < vol i.view.sizes ∧ elemAbs i.dtype (f idx) ≠ none := by
      intro idx hb
      by_contra hc
      refine hx ⟨idx, hb, ?_⟩
      by_cases h1 : position i.view idx < vol i.view.sizes
      · exact .inr (by by_contra hc2; exact hc ⟨h1, hc2⟩)
      · exact .inl (by omega)
    have hg : ∀ idx, InBox i.view.sizes idx → elemAbs i.dtype (f idx) = some ((elemAbs i.dtype (f idx)).getD (.i 0)) := by
      intro idx hb
      obtain ⟨z, hz⟩ := Option.ne_none_iff_exists'.1 (hall idx hb).2
      rw [hz]; rfl
    refine .inl ⟨hall, fun idx => (elemAbs i.dtype (f idx)).getD (.i 0), hg, ?_⟩
    refine C25_abs_partial hi hr ⟨hr.strides, hr.offset, fun idx hb => ⟨?_, (hall idx hb).1⟩, hinj⟩ hsize hg
    obtain ⟨p, hp, _⟩ := index_of_reads hr hb
    omega

/-- Both cases occur: on the first two of three numbers, and on the last two. -/
example :
    result ((do
      let x ← Tensor.slice (← Tensor.fromBlob [.i 1, .i (-2), .i 3] [3] .i32) ":2".toList
      Tensor.toString (← Tensor.absT x) : M Int _) Heap.empty) = some "[1, 2]".toList ∧
    undefinedBy ((do
      let x ← Tensor.slice (← Tensor.fromBlob [.i 1, .i (-2), .i 3] [3] .i32) "1:".toList
      Tensor.toString (← Tensor.absT x) : M Int _) Heap.empty) = some .oob := by decide +kernel

/-- The hypotheses hold for the 2x3 matrix and its transpose. -/
example : ∃ g, Returns (Tensor.absT 2 exHeap) exHeap .i16 [3, 2] g := by
  obtain ⟨i, hi, h1, h2, hr⟩ := exHeap_aT
  have hi' : exHeap.ts[2]? = some ⟨.i16, ⟨[3, 2], [1, 3], 0⟩, 0, none, false, false, none⟩ := rfl
  rw [hi'] at hi
  obtain rfl := Option.some.inj hi
  rcases C61_abs hi' hr (fun a b ha hb => forall_inBox (s := [3, 2]) (P := fun a => ∀ b ∈ rowMajor [3, 2],
    position ⟨[3, 2], [1, 3], 0⟩ a = position ⟨[3, 2], [1, 3], 0⟩ b → a = b) (by decide) a ha b (mem_rowMajor.2 hb)) (by decide) with
    ⟨_, g, _, h⟩ | ⟨⟨x, hx, hc⟩, _⟩
  · exact ⟨g, h⟩
  · exfalso
    exact forall_inBox (s := [3, 2]) (P := fun x => ¬ ((vol [3, 2] : Int) ≤ position ⟨[3, 2], [1, 3], 0⟩ x ∨
      elemAbs .i16 (exA [x.getD 1 0, x.getD 0 0]) = none)) (by decide) x hx hc

/-! ### Maximum and minimum -/

/-- **C61**, `max` of integers, any view: the maximum of the elements and of the first element of the *storage*. So it is right exactly
if some element is at least as large as that. -/
theorem C61_max {h : Heap F} {t : Nat} {i : Impl} {f : List Nat → Int} {s : Storage F} {x0 : Int} {rest : List (Option (Val F))}
    (hi : h.ts[t]? = some i) (hr : Reads h i fun idx => .i (f idx)) (hg : i.requiresGrad = false)
    (hs : h.st[i.data]? = some s) (hb : s.blob = some (some (.i x0) :: rest)) (hd : s.dt = i.dtype) (hx : (.i x0 : Val F).HasType i.dtype) :
    ∃ m, Returns (Tensor.maxT t h) h i.dtype [] (fun _ => .i m) ∧ x0 ≤ m ∧ (∀ idx, InBox i.view.sizes idx → f idx ≤ m) ∧
      (m = x0 ∨ ∃ idx, InBox i.view.sizes idx ∧ m = f idx) := by
  obtain ⟨h', e, b⟩ := extreme_ok (keep := .ge) hi hr (x0 := .i x0) ⟨s, _, hs, hb, rfl, hd, hx⟩ hg
  obtain ⟨m, h1, h2, h3, h4⟩ := foldl_pick_int (F := F) (keep := .ge) (dt := i.dtype) (f := f) (fun a b => a ≤ b)
    (fun _ _ _ => le_trans) (fun _ => le_refl _) (fun a b hc => by simpa only [elemCompare_i, icompare] using hc)
    (fun a b hc => by rw [ne_eq, elemCompare_i] at hc; simp only [icompare] at hc; omega) (rowMajor i.view.sizes) x0 []
  rw [show (best .ge i.dtype i.view.sizes (fun idx => (.i (f idx) : Val F)) (.i x0)).1 = .i m from h1] at b
  exact ⟨m, b.returns e, h2, fun idx hb => h3 idx (mem_rowMajor.2 hb), h4.imp id fun ⟨x, hx, e⟩ => ⟨x, mem_rowMajor.1 hx, e⟩⟩

/-- **C61**, `min` of integers, any view. -/
theorem C61_min {h : Heap F} {t : Nat} {i : Impl} {f : List Nat → Int} {s : Storage F} {x0 : Int} {rest : List (Option (Val F))}
    (hi : h.ts[t]? = some i) (hr : Reads h i fun idx => .i (f idx)) (hg : i.requiresGrad = false)
    (hs : h.st[i.data]? = some s) (hb : s.blob = some (some (.i x0) :: rest)) (hd : s.dt = i.dtype) (hx : (.i x0 : Val F).HasType i.dtype) :
    ∃ m, Returns (Tensor.minT t h) h i.dtype [] (fun _ => .i m) ∧ m ≤ x0 ∧ (∀ idx, InBox i.view.sizes idx → m ≤ f idx) ∧
      (m = x0 ∨ ∃ idx, InBox i.view.sizes idx ∧ m = f idx) := by
  obtain ⟨h', e, b⟩ := extreme_ok (keep := .le) hi hr (x0 := .i x0) ⟨s, _, hs, hb, rfl, hd, hx⟩ hg
  obtain ⟨m, h1, h2, h3, h4⟩ := foldl_pick_int (F := F) (keep := .le) (dt := i.dtype) (f := f) (fun a b => b ≤ a)
    (fun _ _ _ h1 h2 => le_trans h2 h1) (fun _ => le_refl _) (fun a b hc => by simpa only [elemCompare_i, icompare] using hc)
    (fun a b hc => by rw [ne_eq, elemCompare_i] at hc; simp only [icompare] at hc; omega) (rowMajor i.view.sizes) x0 []
  rw [show (best .le i.dtype i.view.sizes (fun idx => (.i (f idx) : Val F)) (.i x0)).1 = .i m from h1] at b
  exact ⟨m, b.returns e, h2, fun idx hb => h3 idx (mem_rowMajor.2 hb), h4.imp id fun ⟨x, hx, e⟩ => ⟨x, mem_rowMajor.1 hx, e⟩⟩

/-- **C61**: `max` and `min` of a tensor on a storage without elements are undefined. -/
theorem C61_extreme_empty {h : Heap F} {t : Nat} {i : Impl} {s : Storage F} (hi : h.ts[t]? = some i)
    (hs : h.st[i.data]? = some s) (hb : s.blob = some []) (hd : s.dt = i.dtype) (hg : i.requiresGrad = false) :
    Tensor.maxT t h = .ub .oob ∧ Tensor.minT t h = .ub .oob := by
  have key : ∀ keep, Tensor.extreme keep t h = .ub .oob := by
    intro keep
    have hsz : vol [] * i.dtype.size < 9223372036854775808 := by cases i.dtype <;> decide
    obtain ⟨h1, e1, b1, hh1⟩ := zeros_ok (F := F) (dt := i.dtype) hsz h
    have hobj : h1.ts[h.ts.length]? = some (newImpl i.dtype [] h.st.length) := by
      rw [hh1]; exact alloc_getT h _ _
    unfold Tensor.extreme
    rw [M.bind_ok (getT_ok hi), M.bind_ok e1]
    simp only [hg, Bool.not_false, if_true]
    rw [M.bind_ok (getT_ok hobj)]
    refine M.bind_ub ?_
    unfold tensorExtreme
    refine M.bind_ub ?_
    simp only [load]
    rw [M.bind_ok (getS_ok (b1.ext.st _ _ hs)), hb]
    simp [hd]
  exact ⟨key .ge, key .le⟩

/-- Views of `[9, 1, 2]`: the maximum of the last two elements is reported as 9, their minimum as 1. -/
example :
    result ((do
      let v ← Tensor.slice (← Tensor.fromBlob [.i 9, .i 1, .i 2] [3] .i32) "1:".toList
      return (← Tensor.toString (← Tensor.maxT v), ← Tensor.toString (← Tensor.minT v)) : M Int (Str × Str)) Heap.empty) =
    some ("9".toList, "1".toList) := by decide +kernel

/-- The hypotheses hold for that view. -/
example : let h : Heap Int := ⟨[⟨.i32, 12, some [some (.i 9), some (.i 1), some (.i 2)]⟩],
      [⟨.i32, ⟨[3], [1], 0⟩, 0, none, false, false, none⟩, ⟨.i32, ⟨[2], [1], 1⟩, 0, none, false, false, none⟩], 0⟩
    ∃ m, Returns (Tensor.maxT 1 h) h .i32 [] (fun _ => .i m) ∧ 9 ≤ m := by
  intro h
  obtain ⟨m, h1, h2, _⟩ := C61_max (h := h) (t := 1) (f := fun idx => idx.getD 0 0 + 1) rfl
    (reads_of_check (by decide) (by decide) rfl rfl rfl (by decide) (by decide) (by decide)) rfl rfl rfl rfl (by decide)
  exact ⟨m, h1, h2⟩

/-! ### All -/

/-- **C61**, `all` of integers of any width, any view: it looks, for each index in row-major order, at the *byte* whose number is the
position of the element; it stops at the first that is not 1, returns false if it is 0 and is undefined otherwise. -/
theorem C61_all {h : Heap F} {t : Nat} {i : Impl} {f : List Nat → Val F} {s : Storage F} {ns : List Int} (hi : h.ts[t]? = some i)
    (hr : Reads h i f) (hs : h.st[i.data]? = some s) (hb : s.blob = some (ns.map fun n => some (.i n))) :
    Tensor.allT t h = match scanAll ((rowMajor i.view.sizes).map fun idx => byteIn i.dtype.size ns (position i.view idx).toNat) with
      | some b => .ok b h
      | none => .ub .badBool := by
  rw [all_bytes hi hr hs hb]
  cases scanAll ((rowMajor i.view.sizes).map fun idx => byteIn i.dtype.size ns (position i.view idx).toNat) <;> rfl

/-- **C61**, `all` is wrong for every contiguous tensor of integers wider than a byte with at least two elements, all of them 1 (or 0):
it returns false. -/
theorem C61_all_wide {h : Heap F} {t : Nat} {i : Impl} {f : List Nat → Int} {s : Storage F} {ns : List Int} (hi : h.ts[t]? = some i)
    (hr : Reads h i fun idx => .i (f idx)) (hs : h.st[i.data]? = some s) (hb : s.blob = some (ns.map fun n => some (.i n)))
    (hc : i.view = Layout.contig i.view.sizes) (hw : 2 ≤ i.dtype.size) (hv : 2 ≤ vol i.view.sizes) (hv' : vol i.view.sizes < 9223372036854775808)
    (h01 : ∀ idx, InBox i.view.sizes idx → f idx = 0 ∨ f idx = 1) :
    Tensor.allT t h = .ok false h := by
  obtain ⟨x0, x1, rest, e⟩ : ∃ x0 x1 rest, rowMajor i.view.sizes = x0 :: x1 :: rest := by
    have hl := length_rowMajor i.view.sizes
    match hm : rowMajor i.view.sizes, hl with
    | [], hl => simp at hl; omega
    | [_], hl => simp at hl; omega
    | x0 :: x1 :: rest, _ => exact ⟨x0, x1, rest, rfl⟩
  have hx0 : InBox i.view.sizes x0 := mem_rowMajor.1 (by rw [e]; simp)
  have hx1 : InBox i.view.sizes x1 := mem_rowMajor.1 (by rw [e]; simp)
  have hp : ∀ {x : List Nat} {k : Nat}, InBox i.view.sizes x → (rowMajor i.view.sizes)[k]? = some x → position i.view x = k := by
    intro x k hx hk
    have h2 := rowMajor_getElem? hx
    have hl1 := getElem?_lt hk
    have hl2 := getElem?_lt h2
    rw [List.getElem?_eq_getElem hl1] at hk
    rw [List.getElem?_eq_getElem hl2] at h2
    have : rank i.view.sizes x = k := ((nodup_rowMajor _).getElem_inj_iff).1 ((Option.some.inj h2).trans (Option.some.inj hk).symm)
    rw [hc, contig_position hv' hx, this]
  have p0 := hp hx0 (k := 0) (by rw [e]; rfl)
  have p1 := hp hx1 (k := 1) (by rw [e]; rfl)
  have hn : ns.getD 0 0 = f x0 := by
    obtain ⟨s', cells, hs', _, hbl, _, hcell⟩ := hr.cells
    rw [hs] at hs'
    obtain rfl := Option.some.inj hs'
    rw [hb] at hbl
    obtain rfl := Option.some.inj hbl
    obtain ⟨q, hq, hcq⟩ := hcell x0 hx0
    have : q = 0 := by omega
    subst this
    cases ns with
    | nil => simp at hcq
    | cons n l =>
      simp at hcq
      simpa using hcq
  have b0 : byteIn i.dtype.size ns (position i.view x0).toNat = f x0 := by
    rw [p0]
    unfold byteIn
    simp only [Nat.cast_zero, Int.toNat_zero, Nat.zero_div, Nat.zero_mod, pow_zero, Int.ediv_one, hn]
    rcases h01 x0 hx0 with h | h <;> rw [h] <;> rfl
  have b1 : byteIn i.dtype.size ns (position i.view x1).toNat = 0 := by
    rw [p1]
    unfold byteIn
    have h1 : ((1 : Nat) : Int).toNat / i.dtype.size = 0 := Nat.div_eq_of_lt (show 1 < i.dtype.size by omega)
    have h2 : ((1 : Nat) : Int).toNat % i.dtype.size = 1 := Nat.mod_eq_of_lt (show 1 < i.dtype.size by omega)
    rw [h1, h2, hn]
    rcases h01 x0 hx0 with h | h <;> rw [h] <;> rfl
  rw [C61_all hi hr hs hb, e]
  simp only [List.map_cons, b0, b1, scanAll]
  rcases h01 x0 hx0 with h | h
  · rw [h]; rfl
  · rw [h]; rfl

/-- The hypotheses hold for two ones of type `i32`. -/
example : let h : Heap Int := ⟨[⟨.i32, 8, some [some (.i 1), some (.i 1)]⟩], [⟨.i32, ⟨[2], [1], 0⟩, 0, none, false, false, none⟩], 0⟩
    Tensor.allT 0 h = .ok false h :=
  C61_all_wide (f := fun _ => 1) (ns := [1, 1]) rfl
    (reads_of_check (by decide) (by decide) rfl rfl rfl (by decide) (by decide) (by decide)) rfl rfl rfl (by decide) (by decide)
    (by decide) (fun _ _ => .inr rfl)

end INNC
