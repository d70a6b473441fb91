import Verif.Lemmas.BinaryStop
import Verif.Lemmas.Frame
import Verif.Lemmas.Examples
/-
C14-C18, C20: binary arithmetic and comparisons.

`arithT op` (Verif/Lemmas/Binary.lean) is the API operator `+`, `-`, `*`, `/` selected by `op`.
-/
namespace INNC
open Spec
variable {F : Type} [FOps F]

/-! ### Broadcasting, types and elements -/

/-- **C14, C16, C17** (what an operation returns). For operands with any strided layouts whose shapes are
broadcast-compatible, `a op b` returns a new tensor on a new storage, of the broadcast shape and of the later of the two
types; its element at `idx` is `a[idx projected] op b[idx projected]` as specified by `Spec.elemBinary`; no existing
tensor or storage changes.
Partial: shapes in which an axis of size 1 meets an axis of size 0 are excluded, see `C14_empty_axis`. -/
theorem C14_arith_partial {op : AOp} {h : Heap F} {l r : Nat} {dl dr : DType} {sl sr s : List Nat}
    {fl fr g : List Nat → Val F}
    (hl : Denotes h l dl sl fl) (hr : Denotes h r dr sr fr) (hs : bshape sl sr = some s) (hst : ¬ stretched sl sr)
    (hsize : vol s * (later dl dr).size < 9223372036854775808)
    (hg : ∀ idx, InBox s idx → elemBinary op dl dr (fl (project sl idx)) (fr (project sr idx)) = some (g idx)) :
    ∃ t h', arithT op l r h = .ok t h' ∧ Denotes h' t (later dl dr) s g ∧ Extends h h' ∧ Fresh h h' t := by
  obtain ⟨h', _, _, _, _, _, h1, h2, h3, h4, _⟩ := arith_ok hl hr hs hst hsize hg
  exact ⟨_, h', h1, h2, h3, h4⟩

/-- The hypotheses hold for a 2x3 `i16` matrix plus a row of three `i32`. -/
example : ∃ t h', arithT .add 0 1 exHeap = .ok t h' ∧ Denotes h' t .i32 [2, 3]
      (fun idx => .i (3 * idx.getD 0 0 + idx.getD 1 0 + 1 + (10 * idx.getD 1 0 + 10))) ∧
    Extends exHeap h' ∧ Fresh exHeap h' t :=
  C14_arith_partial (s := [2, 3]) exHeap_a exHeap_b (by decide)
    (by simp [stretched, stretchRev]) (by decide) (forall_inBox (by decide))

/-- Violation of **C14**: adding a tensor of shape {1} to one of shape {0} throws instead of giving an empty tensor. -/
theorem C14_empty_axis : bshape [0] [1] = some [0] ∧
    ∃ h h' : Heap Int, Denotes h 0 .i32 [0] (fun _ => .i 0) ∧ Denotes h 1 .i32 [1] (fun _ => .i 7) ∧
      arithT .add 0 1 h = .throw .runtime h' := by
  refine ⟨by decide, ⟨[⟨.i32, 0, some []⟩, ⟨.i32, 4, some [some (.i 7)]⟩],
    [⟨.i32, ⟨[0], [1], 0⟩, 0, none, false, false, none⟩, ⟨.i32, ⟨[1], [1], 0⟩, 1, none, false, false, none⟩], 0⟩,
    ⟨[⟨.i32, 0, some []⟩, ⟨.i32, 4, some [some (.i 7)]⟩, ⟨.i32, 4, some [none]⟩],
    [⟨.i32, ⟨[0], [1], 0⟩, 0, none, false, false, none⟩, ⟨.i32, ⟨[1], [1], 0⟩, 1, none, false, false, none⟩,
     ⟨.i32, ⟨[1], [1], 0⟩, 2, none, false, false, none⟩], 0⟩, ?_, ?_, by decide⟩
  · exact ⟨_, rfl, rfl, rfl, reads_of_check (by decide) (by decide) rfl rfl rfl (by decide) (by decide) (by decide)⟩
  · exact ⟨_, rfl, rfl, rfl, reads_of_check (by decide) (by decide) rfl rfl rfl (by decide) (by decide) (by decide)⟩

theorem elemArith_comm [FComm F] {op : AOp} (ho : op = .add ∨ op = .mul) {dl dr : DType} {x y : Val F}
    (hx : x.HasType dl) (hy : y.HasType dr) : elemArith op dl dr x y = elemArith op dr dl y x := by
  have hc : (isInteger dr = true ∧ isInteger dl = true) ↔ (isInteger dl = true ∧ isInteger dr = true) := and_comm
  unfold elemArith
  rw [later_comm dr dl, max_comm (width dr) (width dl)]
  by_cases hi : isInteger dl = true ∧ isInteger dr = true
  · rw [if_pos hi, if_pos (hc.2 hi)]
    cases x with
    | f x => cases y <;> rfl
    | i a =>
      cases y with
      | f y => rfl
      | i b =>
        have : exact op b a = exact op a b := by
          rcases ho with rfl | rfl
          · simp [exact, Int.add_comm]
          · simp [exact, Int.mul_comm]
        simp only [this]
  · rw [if_neg hi, if_neg (fun h => hi (hc.1 h))]
    rcases ho with rfl | rfl
    · simp only [fop]; rw [FComm.add_comm]
    · simp only [fop]; rw [FComm.mul_comm]

/-- **C17.** With a float arithmetic in which `+` and `*` commute, the order in which the library puts the operands does
not matter: each element is `elemArith op` of the operands' elements as written. -/
theorem C17_operand_order [FComm F] (op : AOp) {dl dr : DType} {x y : Val F} (hx : x.HasType dl) (hy : y.HasType dr) :
    elemBinary op dl dr x y = elemArith op dl dr x y := by
  rw [elemBinary_eq]
  split
  · next hsw => exact elemArith_comm hsw.1 hy hx
  · rfl

/-- **C17** (the only undefined cases). On valid operands of compatible shapes, if for some index the specified element
does not exist (an integer result that does not fit, or a division by zero) then the operation is undefined, and only
in one of these two ways: no out-of-bounds access, no uninitialised read, no element read at another type. The converse
is `C17_undefined`, the case of any two shapes `C60_arith`. -/
theorem C17_no_element {op : AOp} {h : Heap F} {l r : Nat} {dl dr : DType} {sl sr s : List Nat}
    {fl fr : List Nat → Val F}
    (hl : Denotes h l dl sl fl) (hr : Denotes h r dr sr fr) (hs : bshape sl sr = some s) (hst : ¬ stretched sl sr)
    (hsize : vol s * (later dl dr).size < 9223372036854775808)
    (hbad : ∃ idx, InBox s idx ∧ elemBinary op dl dr (fl (project sl idx)) (fr (project sr idx)) = none) :
    arithT op l r h = .ub .overflow ∨ arithT op l r h = .ub .divZero :=
  arith_undefined hl hr hs hst hsize hbad

/-- The hypothesis holds for an integer division of the matrix by itself minus 1 (zero at index [0,0]); here directly:
division of 1..6 by the zero tensor. -/
example : ∃ h : Heap Int, ∃ fl fr, Denotes h 0 .i32 [2] fl ∧ Denotes h 1 .i32 [] fr ∧
    (∃ idx, InBox [2] idx ∧ elemBinary .div .i32 .i32 (fl (project [2] idx)) (fr (project [] idx)) = none) := by
  refine ⟨⟨[⟨.i32, 8, some [some (.i 5), some (.i 6)]⟩, ⟨.i32, 4, some [some (.i 0)]⟩],
    [⟨.i32, ⟨[2], [1], 0⟩, 0, none, false, false, none⟩, ⟨.i32, ⟨[], [], 0⟩, 1, none, false, false, none⟩], 0⟩,
    fun idx => .i (idx.getD 0 0 + 5), fun _ => .i 0, ?_, ?_, [1], by decide, by decide⟩
  · exact ⟨_, rfl, rfl, rfl, reads_of_check (by decide) (by decide) rfl rfl rfl (by decide) (by decide) (by decide)⟩
  · exact ⟨_, rfl, rfl, rfl, reads_of_check (by decide) (by decide) rfl rfl rfl (by decide) (by decide) (by decide)⟩

/-! ### Incompatible shapes -/

/-- **C15.** For shapes without empty axes: if the shapes are not broadcast-compatible, the operation never returns a
tensor. Partial: with an empty axis the claim is false, see `C15_empty_axis_accepted`. -/
theorem C15_incompatible_partial (op : AOp) {h : Heap F} {l r : Nat} {li ri : Impl}
    (hl : h.ts[l]? = some li) (hr : h.ts[r]? = some ri) (hs : bshape li.view.sizes ri.view.sizes = none)
    (h0 : 0 ∉ li.view.sizes) (h0' : 0 ∉ ri.view.sizes) : ∀ t h', arithT op l r h ≠ .ok t h' := by
  intro t h'
  obtain ⟨s, idx, hbr, hb, hor⟩ := broadcastRange_incompatible hs h0 h0'
  obtain ⟨s', idx', hbr', hb', hor'⟩ := broadcastRange_incompatible (by rw [bshape_comm]; exact hs) h0' h0
  rw [arithT_eq]
  unfold Tensor.applyBinary
  rw [M.bind_def]
  have key : ∀ a H, Tensor.applyNoGradBinary (arithKernel (F := F) op) l r (arithOrder op) h ≠ .ok a H := by
    intro a H
    have hss : s' = s := by
      have := broadcastRange_comm li.view.sizes ri.view.sizes
      rw [hbr, hbr'] at this
      simpa using this.symm
    rw [applyNoGradBinary_eq _ _ hl hr hbr, M.bind_def]
    cases hc : create (F := F) (later li.dtype ri.dtype) (Layout.contig s) true h with
    | throw e H1 => simp
    | ub u => simp
    | ok c H1 =>
      obtain ⟨d, hd⟩ := create_inv hc
      simp only
      rw [M.bind_ok (getT_ok hd)]
      refine bind_not_ok_left (fun a H2 => ?_) _ _
      rw [kernelCall_arith]
      split
      · exact arithKernel_not_ok op hbr' hb' (by rw [hss]; rfl) hor' _ _
      · exact arithKernel_not_ok op hbr hb rfl hor _ _
  split
  · next a H e => exact absurd e (key a H)
  · simp
  · simp

/-- **C15** (how it is rejected). If moreover no pair of elements makes the element operation itself undefined, the
operation throws a `runtime_error`, and no tensor or storage that existed before has changed. -/
theorem C15_incompatible_throws_partial {op : AOp} {h : Heap F} {l r : Nat} {dl dr : DType} {sl sr : List Nat}
    {fl fr : List Nat → Val F}
    (hl : Denotes h l dl sl fl) (hr : Denotes h r dr sr fr) (hs : bshape sl sr = none)
    (h0 : 0 ∉ sl) (h0' : 0 ∉ sr) (hsize : vol sl * vol sr * (later dl dr).size < 9223372036854775808)
    (hg : ∀ i j, InBox sl i → InBox sr j → elemBinary op dl dr (fl i) (fr j) ≠ none) :
    ∃ h', arithT op l r h = .throw .runtime h' ∧ Extends h h' := by
  obtain ⟨li, hli, rfl, rfl, hlr⟩ := hl
  obtain ⟨ri, hri, rfl, rfl, hrr⟩ := hr
  obtain ⟨s, idx0, hbr, hb0, hor⟩ := broadcastRange_incompatible hs h0 h0'
  have hsize' : vol s * (later li.dtype ri.dtype).size < 9223372036854775808 :=
    Nat.lt_of_le_of_lt (Nat.mul_le_mul_right _ (broadcastRange_vol hbr h0 h0')) hsize
  have hslen := broadcastRange_length hbr
  have hslots := slots_alloc (dt := later li.dtype ri.dtype) hsize' h
  have hext := extends_alloc h (later li.dtype ri.dtype) s
  have hne1 : li.data ≠ h.st.length := by have := hlr.data_lt; omega
  have hne2 : ri.data ≠ h.st.length := by have := hrr.data_lt; omega
  let bad : List Nat → Prop := fun idx => ¬ (Reaches li idx ∧ Reaches ri idx)
  let g : List Nat → Val F := fun idx =>
    (elemBinary op li.dtype ri.dtype (fl (project li.view.sizes idx)) (fr (project ri.view.sizes idx))).getD (.i 0)
  have hgood : ∀ idx, ¬ bad idx → elemBinary op li.dtype ri.dtype (fl (project li.view.sizes idx))
      (fr (project ri.view.sizes idx)) = some (g idx) := by
    intro idx hnb
    simp only [bad, not_not] at hnb
    have := hg _ _ hnb.1.2 hnb.2.2
    simp only [g]
    cases he : elemBinary op li.dtype ri.dtype (fl (project li.view.sizes idx)) (fr (project ri.view.sizes idx)) with
    | none => exact absurd he this
    | some z => rfl
  have hexbad : ∃ idx, InBox s idx ∧ bad idx := by
    refine ⟨idx0, hb0, fun hc => ?_⟩
    rcases hor with hor | hor
    · have := cntFromAugIndex_not_ok hor
      rw [cntFromAugIndex_project hc.1.1 hc.1.2, cntFromIndex_eq hc.1.2.length (by rw [hlr.strides]) hlr.offset] at this
      exact this _ rfl
    · have := cntFromAugIndex_not_ok hor
      rw [cntFromAugIndex_project hc.2.1 hc.2.2, cntFromIndex_eq hc.2.2.length (by rw [hrr.strides]) hrr.offset] at this
      exact this _ rfl
  let Q : Out (Heap F) Unit → Prop := fun o => ∃ H, o = .throw .runtime H ∧ Extends h H
  have hlens : ∀ idx, InBox s idx → li.view.sizes.length ≤ idx.length ∧ ri.view.sizes.length ≤ idx.length := by
    intro idx hb
    have := hb.length
    omega
  have hE : ∀ H' : Heap F, (∃ c, H' = (h.alloc (later li.dtype ri.dtype) s).setCells h.st.length c) → Extends h H' := by
    rintro _ ⟨c, rfl⟩
    exact hext.setCells (Nat.le_refl _) c
  have hk : Q (kernelCall (arithKernel op) (arithOrder op) li ri (newImpl (later li.dtype ri.dtype) s h.st.length)
        (h.alloc (later li.dtype ri.dtype) s)) := by
    rw [kernelCall_arith]
    by_cases hsw : swaps op li.dtype ri.dtype
    · rw [if_pos hsw, arithKernel_eq op (fun _ => later_of_swaps hsw)
        (by rw [broadcastRange_comm]; exact hbr) rfl]
      refine zipLoop_stop (g := g) hslots rfl (later_comm _ _) (hrr.of_extends hext) (hlr.of_extends hext) rfl rfl
        hne2 hne1 bad ?_ Q ?_ hexbad
      · intro idx hb hnb
        have := hgood idx hnb
        simp only [bad, not_not] at hnb
        rw [elemBinary_eq, if_pos hsw] at this
        exact ⟨hnb.2, hnb.1, (kernelElem_ok (hrr.typed _ hnb.2.2) (hlr.typed _ hnb.1.2) this).1⟩
      · intro idx hb hbd H' hr1 hl1 hH
        rw [zipBody_throw hr1 rfl (hlens idx hb).2 (hlens idx hb).1 (fun hc => hbd ⟨hc.2, hc.1⟩)]
        exact ⟨⟨H', rfl, hE H' hH⟩, by simp⟩
    · rw [if_neg hsw, arithKernel_eq op (fun ho => later_of_not_swaps hsw ho) hbr rfl]
      refine zipLoop_stop (g := g) hslots rfl rfl (hlr.of_extends hext) (hrr.of_extends hext) rfl rfl
        hne1 hne2 bad ?_ Q ?_ hexbad
      · intro idx hb hnb
        have := hgood idx hnb
        simp only [bad, not_not] at hnb
        rw [elemBinary_eq, if_neg hsw] at this
        exact ⟨hnb.1, hnb.2, (kernelElem_ok (hlr.typed _ hnb.1.2) (hrr.typed _ hnb.2.2) this).1⟩
      · intro idx hb hbd H' hl1 hr1 hH
        rw [zipBody_throw hl1 rfl (hlens idx hb).1 (hlens idx hb).2 hbd]
        exact ⟨⟨H', rfl, hE H' hH⟩, by simp⟩
  rw [arithT_eq]
  refine applyBinary_stop (Q := Q) (Q' := fun o => ∃ h', o = .throw .runtime h' ∧ Extends h h') hli hri hbr hsize' hk
    (by simp [Q]) (fun e H hq => ?_) (by simp [Q])
  obtain ⟨H', e1, e2⟩ := hq
  exact ⟨H', by simpa using e1, e2⟩

/-- The hypotheses of both C15 theorems hold for the 2x3 matrix and its transpose. -/
example : (∀ t h', arithT .mul 0 2 exHeap ≠ .ok t h') ∧ ∃ h', arithT .mul 0 2 exHeap = .throw .runtime h' ∧ Extends exHeap h' := by
  refine ⟨C15_incompatible_partial .mul (h := exHeap) rfl rfl (by decide) (by decide) (by decide), ?_⟩
  refine C15_incompatible_throws_partial exHeap_a exHeap_aT (by decide) (by decide) (by decide) (by decide) ?_
  intro i j hi hj
  exact forall_inBox (s := [2, 3]) (P := fun i => ∀ j ∈ rowMajor [3, 2], elemBinary .mul .i16 .i16 (exA i)
    (exA [j.getD 1 0, j.getD 0 0]) ≠ none) (by decide) i hi j (mem_rowMajor.2 hj)

/-- Violation of **C15**: shapes {2,0} and {3,0} are not broadcast-compatible, but their sum is computed (its shape is
{3,0}). -/
theorem C15_empty_axis_accepted : bshape [2, 0] [3, 0] = none ∧
    ∃ h : Heap Int, Denotes h 0 .f32 [2, 0] (fun _ => .f 0) ∧ Denotes h 1 .f32 [3, 0] (fun _ => .f 0) ∧
      ∃ t h' i, arithT .add 0 1 h = .ok t h' ∧ h'.ts[t]? = some i ∧ i.view.sizes = [3, 0] := by
  refine ⟨by decide, ⟨[⟨.f32, 0, some []⟩, ⟨.f32, 0, some []⟩],
    [⟨.f32, ⟨[2, 0], [0, 1], 0⟩, 0, none, false, false, none⟩, ⟨.f32, ⟨[3, 0], [0, 1], 0⟩, 1, none, false, false, none⟩], 0⟩,
    ?_, ?_, 2, ⟨[⟨.f32, 0, some []⟩, ⟨.f32, 0, some []⟩, ⟨.f32, 0, some []⟩],
    [⟨.f32, ⟨[2, 0], [0, 1], 0⟩, 0, none, false, false, none⟩, ⟨.f32, ⟨[3, 0], [0, 1], 0⟩, 1, none, false, false, none⟩,
     ⟨.f32, ⟨[3, 0], [0, 1], 0⟩, 2, none, false, false, none⟩], 0⟩, _, by decide, rfl, rfl⟩
  · exact ⟨_, rfl, rfl, rfl, reads_of_check (by decide) (by decide) rfl rfl rfl (by decide) (by decide) (by decide)⟩
  · exact ⟨_, rfl, rfl, rfl, reads_of_check (by decide) (by decide) rfl rfl rfl (by decide) (by decide) (by decide)⟩

/-! ### Result type -/

/-- **C16.** Whenever an arithmetic operation returns, the result has the later of the two operand types, for any
operands in any state (with `C14_arith_partial`, whose result is well typed: every element is stored as that type). -/
theorem C16_result_type (op : AOp) {h h' : Heap F} {l r t : Nat} {li ri : Impl}
    (hl : h.ts[l]? = some li) (hr : h.ts[r]? = some ri) (hok : arithT op l r h = .ok t h') :
    ∃ j, h'.ts[t]? = some j ∧ j.dtype = later li.dtype ri.dtype := by
  obtain ⟨s, hbr⟩ := broadcastRange_total li.view.sizes ri.view.sizes
  rw [arithT_eq] at hok
  unfold Tensor.applyBinary at hok
  rw [M.bind_def, applyNoGradBinary_eq _ _ hl hr hbr, M.bind_def] at hok
  cases hc : create (F := F) (later li.dtype ri.dtype) (Layout.contig s) true h with
  | throw e H1 => rw [hc] at hok; simp at hok
  | ub u => rw [hc] at hok; simp at hok
  | ok c H1 =>
    rw [hc] at hok
    simp only at hok
    obtain ⟨d, hd⟩ := create_inv hc
    rw [M.bind_ok (getT_ok hd), M.bind_def] at hok
    have hk : Keeps (Writes fun _ => True) (kernelCall (F := F) (arithKernel op) (arithOrder op) li ri
        ⟨later li.dtype ri.dtype, Layout.contig s, d, none, false, false, none⟩) := by
      rw [kernelCall_arith]
      split
      · cases op
        · exact keeps_tensorAdd (D := fun _ => True) trivial _ _ _ _
        · exact keeps_tensorSub (D := fun _ => True) trivial _ _ _ _
        · exact keeps_tensorMul (D := fun _ => True) trivial _ _ _ _
        · exact keeps_tensorDiv (D := fun _ => True) trivial _ _ _ _
      · cases op
        · exact keeps_tensorAdd (D := fun _ => True) trivial _ _ _ _
        · exact keeps_tensorSub (D := fun _ => True) trivial _ _ _ _
        · exact keeps_tensorMul (D := fun _ => True) trivial _ _ _ _
        · exact keeps_tensorDiv (D := fun _ => True) trivial _ _ _ _
    cases hk2 : kernelCall (F := F) (arithKernel op) (arithOrder op) li ri
        ⟨later li.dtype ri.dtype, Layout.contig s, d, none, false, false, none⟩ H1 with
    | throw e H2 => rw [hk2] at hok; simp at hok
    | ub u => rw [hk2] at hok; simp at hok
    | ok u H2 =>
      rw [hk2] at hok
      simp only [M.pure_run] at hok
      have hw := hk H1
      rw [hk2] at hw
      have hts : H2.ts[c]? = some ⟨later li.dtype ri.dtype, Layout.contig s, d, none, false, false, none⟩ := by
        rw [hw.ts]; exact hd
      rw [M.bind_def] at hok
      cases h1 : getT (F := F) l H2 with
      | throw e H3 => rw [h1] at hok; simp at hok
      | ub u => rw [h1] at hok; simp at hok
      | ok a H3 =>
        have e3 : H3 = H2 := by
          unfold getT at h1
          split at h1
          · simp at h1; exact h1.2.symm
          · simp at h1
        subst e3
        rw [h1] at hok
        simp only at hok
        rw [M.bind_def] at hok
        cases h2 : getT (F := F) r H3 with
        | throw e H4 => rw [h2] at hok; simp at hok
        | ub u => rw [h2] at hok; simp at hok
        | ok b H4 =>
          have e4 : H4 = H3 := by
            unfold getT at h2
            split at h2
            · simp at h2; exact h2.2.symm
            · simp at h2
          subst e4
          rw [h2] at hok
          simp only at hok
          by_cases hg : (!a.requiresGrad && !b.requiresGrad) = true
          · rw [if_pos hg] at hok
            simp only [M.pure_run, Out.ok.injEq] at hok
            obtain ⟨rfl, rfl⟩ := hok
            exact ⟨_, hts, rfl⟩
          · rw [if_neg hg, M.bind_ok (setGradFn_ok hts _ _)] at hok
            simp only [M.pure_run, Out.ok.injEq] at hok
            obtain ⟨rfl, rfl⟩ := hok
            exact ⟨_, List.getElem?_set_self (getElem?_lt hts), rfl⟩

/-- **C16** (consistency). The later type is independent of operand order and grouping, and is the operands' type if
they agree. -/
theorem C16_later_lattice (a b c : DType) : later a a = a ∧ later a b = later b a ∧
    later (later a b) c = later a (later b c) ∧ order a ≤ order (later a b) ∧ (later a b = a ∨ later a b = b) := by
  cases a <;> cases b <;> cases c <;> decide

example : ∃ t h', arithT .div 1 0 exHeap = .ok t h' ∧ ∃ j, h'.ts[t]? = some j ∧ j.dtype = .i32 := by
  obtain ⟨t, h', e, d, _⟩ := C14_arith_partial (op := .div) (s := [2, 3])
    (g := fun idx => .i ((10 * idx.getD 1 0 + 10 : Int).tdiv (3 * idx.getD 0 0 + idx.getD 1 0 + 1)))
    exHeap_b exHeap_a (by decide) (by simp [stretched, stretchRev]) (by decide) (forall_inBox (by decide))
  have := C16_result_type .div (h := exHeap) (l := 1) (r := 0) rfl rfl e
  exact ⟨t, h', e, this⟩

/-! ### Commutativity -/

end INNC
