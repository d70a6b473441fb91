import Verif.Lemmas.Accum
import Verif.Lemmas.Examples
import Verif.Lemmas.Runs
import Verif.Props.Slice
/-
C32 (in-place addition), C09 (writes through a view reach exactly the elements it denotes).
-/
namespace INNC
open Spec Tensor
variable {F : Type} [FOps F]

/-! ### C32 -/

/-- **C32.** `a += b`, on different storages and with compatible shapes, adds to each element of `a` the elements of
`b` that broadcasting pairs with it, in row-major order; no tensor object and no element outside `a` changes. -/
theorem C32_add {h : Heap F} {a b : Nat} {da db : DType} {sa sb s : List Nat} {fa fb g : List Nat → Val F}
    (ha : Denotes h a da sa fa) (hb : Denotes h b db sb fb) (hne : ¬ SameStorage h a b)
    (hgr : ∀ i, h.ts[a]? = some i → i.requiresGrad = false) (hs : bshape sa sb = some s) (hstr : ¬ stretched sa sb)
    (hinj : Distinct h a) (hg : ∀ idx, InBox sa idx → accumAt da db sa sb s fa fb idx = some (g idx)) :
    ∃ h', addAssign a b h = .ok () h' ∧ h'.ts = h.ts ∧ Denotes h' a da sa g ∧
      ∀ t dt st f, ¬ SameStorage h t a → Denotes h t dt st f → Denotes h' t dt st f := by
  obtain ⟨h', e, hts, hd, hall⟩ := add_effect ha hb hne hgr hs hstr hinj hg
  refine ⟨h', e, hts, hd, fun t dt st f hn ht => ?_⟩
  obtain ⟨f', hf', hv⟩ := hall t dt st f ht
  obtain ⟨i, hi, h1, h2, hr⟩ := hf'
  refine ⟨i, hi, h1, h2, hr.congr fun idx hb => ?_⟩
  rw [h2] at hb
  refine (hv idx hb).2 fun k hk => hn ?_
  obtain ⟨x, y, hx, hy, hxy, _⟩ := hk
  exact ⟨x, y, hx, hy, hxy⟩

/-- **C32**: if `b` broadcasts to the shape of `a`, exactly one element of `b` is added to each element of `a`. -/
theorem C32_one (da db : DType) {sa sb : List Nat} (fa fb : List Nat → Val F) (hs : bshape sa sb = some sa)
    (idx : List Nat) (hb : InBox sa idx) :
    accumAt da db sa sb sa fa fb idx = elemAccum da db (fa idx) (fb (project sb idx)) := by
  have hp : ∀ k, InBox sa k → project sa k = k := fun k hk => project_self hk
  have : ((rowMajor sa).filter fun k => project sa k = idx) = [idx] := by
    refine filter_eq_singleton (nodup_rowMajor sa) (mem_rowMajor.2 hb) _ fun k hk => ?_
    rw [hp k (mem_rowMajor.1 hk), decide_eq_true_iff]
  unfold accumAt
  rw [this, List.foldlM_cons]
  cases elemAccum da db (fa idx) (fb (project sb idx)) <;> rfl

/-- **C32**: if `a` requires grad, `a += b` throws `std::runtime_error` and changes nothing. -/
theorem C32_requires_grad {h : Heap F} {a b : Nat} {i : Impl} (hi : h.ts[a]? = some i) (hg : i.requiresGrad = true) :
    addAssign a b h = .throw .runtime h := by
  unfold addAssign
  rw [M.bind_ok (getT_ok hi), hg]
  rfl

/-! ### C09 -/

/-- **C09.** Let `a` be any tensor whose elements are at different places, for instance a slice or a transpose of
another. After `a += b` (with `b` on another storage), every element of every tensor `t` that is the same place as an
element `k` of `a` has the new value of that element, and every other element of every tensor is unchanged. -/
theorem C09_alias {h : Heap F} {a b : Nat} {da db : DType} {sa sb s : List Nat} {fa fb g : List Nat → Val F}
    (ha : Denotes h a da sa fa) (hb : Denotes h b db sb fb) (hne : ¬ SameStorage h a b)
    (hgr : ∀ i, h.ts[a]? = some i → i.requiresGrad = false) (hs : bshape sa sb = some s) (hstr : ¬ stretched sa sb)
    (hinj : Distinct h a) (hg : ∀ idx, InBox sa idx → accumAt da db sa sb s fa fb idx = some (g idx)) :
    ∃ h', addAssign a b h = .ok () h' ∧ ∀ t dt st f, Denotes h t dt st f →
      ∃ f', Denotes h' t dt st f' ∧ ∀ idx, InBox st idx →
        (∀ k, SamePlace h t idx a k → f' idx = g k) ∧ ((∀ k, ¬ SamePlace h t idx a k) → f' idx = f idx) := by
  obtain ⟨h', e, _, _, hall⟩ := add_effect ha hb hne hgr hs hstr hinj hg
  exact ⟨h', e, hall⟩

/-- **C09** for a slice or a transpose `r` of `t` (see `C05_index`, `C06_range_partial`, `C07_slice_partial`,
`C10_transpose` for `σ`): after `r += b` exactly the elements `σ idx` of `t` have changed, to the new values of `r`. -/
theorem C09_view {h : Heap F} {o : Out (Heap F) Nat} {t b : Nat} {dt db : DType} {st sr sb s : List Nat}
    {f fb g : List Nat → Val F} {σ : List Nat → List Nat} (ht : Denotes h t dt st f) (hto : Distinct h t)
    (hview : ReturnsView o h t dt sr f σ) (hσ : ∀ x y, InBox sr x → InBox sr y → σ x = σ y → x = y)
    (hb : Denotes h b db sb fb) (hne : ¬ SameStorage h t b) (hs : bshape sr sb = some s) (hstr : ¬ stretched sr sb)
    (hg : ∀ idx, InBox sr idx → accumAt dt db sr sb s (fun k => f (σ k)) fb idx = some (g idx)) :
    ∃ r h', o = .ok r h' ∧ ((∀ i, h'.ts[r]? = some i → i.requiresGrad = false) →
      ∃ h'' f', addAssign r b h' = .ok () h'' ∧ Denotes h'' r dt sr g ∧ Denotes h'' t dt st f' ∧
        (∀ idx, InBox sr idx → f' (σ idx) = g idx) ∧
        ∀ k, InBox st k → (∀ idx, InBox sr idx → σ idx ≠ k) → f' k = f k) := by
  obtain ⟨r, h', e, hd, hp, ⟨ti, ri, hti, hri, htr⟩, hpr, hle, hv⟩ := hview
  refine ⟨r, h', e, fun hgr => ?_⟩
  obtain ⟨i, hi, rfl, rfl, hri0⟩ := ht
  obtain ⟨j, hj, rfl, rfl, hrj⟩ := hb
  obtain ⟨i', hi', e1, e2, e3⟩ := hpr.ts _ _ hi
  obtain ⟨j', hj', q1, q2, q3⟩ := hpr.ts _ _ hj
  rw [hi'] at hti
  obtain rfl := Option.some.inj hti
  have ht' : Denotes h' t i.dtype i.view.sizes f :=
    preserves_denotes hpr ⟨i, hi, rfl, rfl, hri0⟩
  have hb' : Denotes h' b j.dtype j.view.sizes fb :=
    preserves_denotes hpr ⟨j, hj, rfl, rfl, hrj⟩
  have hnrb : ¬ SameStorage h' r b := by
    rintro ⟨x, y, hx, hy, hxy⟩
    rw [hri] at hx; obtain rfl := Option.some.inj hx
    rw [hj'] at hy; obtain rfl := Option.some.inj hy
    exact hne ⟨i, j, hi, hj, by rw [← e3, htr, hxy, q3]⟩
  have hdi : Distinct h' r := by
    intro x hx a c ha hc hac
    rw [hri] at hx; obtain rfl := Option.some.inj hx
    obtain ⟨y, hy, _, hys, _⟩ := hd
    rw [hri] at hy; obtain rfl := Option.some.inj hy
    rw [hys] at ha hc
    obtain ⟨a1, a2, a3, a4, a5, a6, a7, a8⟩ := hp a ha
    obtain ⟨c1, c2, c3, c4, c5, c6, c7, c8⟩ := hp c hc
    rw [hri] at a3 c3
    rw [hi'] at a4 c4
    obtain rfl := Option.some.inj a3
    obtain rfl := Option.some.inj a4
    obtain rfl := Option.some.inj c3
    obtain rfl := Option.some.inj c4
    refine hσ a c ha hc (hto i hi _ _ (by rw [← e2]; exact a7) (by rw [← e2]; exact c7) ?_)
    rw [← e2, ← a8, hac, c8]
  obtain ⟨h'', ee, _, hdr, hall⟩ := add_effect hd hb' hnrb hgr hs hstr hdi hg
  obtain ⟨f', hf', hv'⟩ := hall _ _ _ _ ht'
  refine ⟨h'', f', ee, hdr, hf', fun idx hb => ?_, fun k hk hno => (hv' k hk).2 fun x hx => ?_⟩
  · have h1 := hp idx hb
    obtain ⟨a1, a2, a3, a4, a5, a6, a7, a8⟩ := h1
    have : InBox i.view.sizes (σ idx) := by
      rw [hi'] at a4; obtain rfl := Option.some.inj a4
      rw [← e2]; exact a7
    exact (hv' _ this).1 idx ⟨a2, a1, a4, a3, a5.symm, a7, a6, a8.symm⟩
  · obtain ⟨a1, a2, a3, a4, a5, a6, a7, a8⟩ := hx
    rw [hi'] at a3; obtain rfl := Option.some.inj a3
    rw [hri] at a4; obtain rfl := Option.some.inj a4
    obtain ⟨y, hy, _, hys, _⟩ := hd
    rw [hri] at hy; obtain rfl := Option.some.inj hy
    rw [hys] at a7
    obtain ⟨c1, c2, c3, c4, c5, c6, c7, c8⟩ := hp x a7
    rw [hri] at c3; obtain rfl := Option.some.inj c3
    rw [hi'] at c4; obtain rfl := Option.some.inj c4
    refine hno x a7 (hto i hi _ _ (by rw [← e2]; exact c7) hk ?_)
    rw [← e2, ← c8, a8]

/-! ### Non-vacuity -/

theorem exHeap_distinct : ∀ t < 3, Distinct exHeap t := by
  intro t ht i hi
  have : ∀ t < 3, ∀ i, exHeap.ts[t]? = some i → ∀ a ∈ rowMajor i.view.sizes, ∀ b ∈ rowMajor i.view.sizes,
      position i.view a = position i.view b → a = b := by
    intro t ht
    match t, ht with
    | 0, _ => intro i hi; obtain rfl := Option.some.inj hi; decide
    | 1, _ => intro i hi; obtain rfl := Option.some.inj hi; decide
    | 2, _ => intro i hi; obtain rfl := Option.some.inj hi; decide
  exact fun a b ha hb => this t ht i hi a (mem_rowMajor.2 ha) b (mem_rowMajor.2 hb)

/-- `a += b` for the 2x3 matrix 1..6 and the row [10, 20, 30]. -/
def exSum (idx : List Nat) : Val Int := .i (3 * idx.getD 0 0 + 11 * idx.getD 1 0 + 11)

example : ∃ h', addAssign 0 1 exHeap = .ok () h' ∧ h'.ts = exHeap.ts ∧ Denotes h' 0 .i16 [2, 3] exSum ∧
    ∀ t dt st f, ¬ SameStorage exHeap t 0 → Denotes exHeap t dt st f → Denotes h' t dt st f := by
  refine C32_add exHeap_a exHeap_b ?_ ?_ (s := [2, 3]) (by decide) (by simp [stretched, stretchRev]) (exHeap_distinct 0 (by decide))
    (forall_inBox (by decide))
  · rintro ⟨i, j, hi, hj, hij⟩
    obtain rfl := Option.some.inj hi
    obtain rfl := Option.some.inj hj
    exact absurd hij (by decide)
  · intro i hi
    obtain rfl := Option.some.inj hi
    rfl

/-- A larger right operand is summed over the broadcast: [10, 20, 30] += the 2x3 matrix 1..6. -/
example : accumAt .i32 .i16 [3] [2, 3] [2, 3] exB exA [1] = some (.i (20 + 2 + 5)) := by decide

/-- `C09_view` for the transpose of the matrix and the 0-dimensional right operand 100. -/
def exHeap2 : Heap Int where
  st := exHeap.st ++ [⟨.i16, 2, some [some (.i 100)]⟩]
  ts := exHeap.ts ++ [⟨.i16, ⟨[], [], 0⟩, 2, none, false, false, none⟩]
  gver := 0

example : ∃ r h', Tensor.transpose 0 0 1 exHeap2 = .ok r h' ∧ ((∀ i, h'.ts[r]? = some i → i.requiresGrad = false) →
      ∃ h'' f', addAssign r 3 h' = .ok () h'' ∧
        Denotes h'' r .i16 [3, 2] (fun idx => .i (3 * idx.getD 1 0 + idx.getD 0 0 + 101)) ∧
        Denotes h'' 0 .i16 [2, 3] f' ∧
        (∀ idx, InBox [3, 2] idx → f' (swapped idx 0 1) = .i (3 * idx.getD 1 0 + idx.getD 0 0 + 101)) ∧
        ∀ k, InBox [2, 3] k → (∀ idx, InBox [3, 2] idx → swapped idx 0 1 ≠ k) → f' k = exA k) := by
  have ha : Denotes exHeap2 0 .i16 [2, 3] exA :=
    ⟨_, rfl, rfl, rfl, reads_of_check (by decide) (by decide) rfl rfl rfl (by decide) (by decide) (by decide)⟩
  have hb : Denotes exHeap2 3 .i16 [] (fun _ => .i 100) :=
    ⟨_, rfl, rfl, rfl, reads_of_check (by decide) (by decide) rfl rfl rfl (by decide) (by decide) (by decide)⟩
  refine C09_view (σ := fun idx => swapped idx 0 1) (s := [3, 2]) ha ?_
    (C10_transpose ha ⟨_, rfl, by simp [Tame, IsI64], by simp⟩ (by decide) (by decide) (by decide)) ?_ hb ?_ (by decide)
    (by simp [stretched, stretchRev]) (forall_inBox (by decide))
  · intro i hi
    obtain rfl := Option.some.inj hi
    have : ∀ a ∈ rowMajor [2, 3], ∀ b ∈ rowMajor [2, 3], position ⟨[2, 3], [3, 1], 0⟩ a = position ⟨[2, 3], [3, 1], 0⟩ b → a = b := by
      decide
    exact fun a b ha hb => this a (mem_rowMajor.2 ha) b (mem_rowMajor.2 hb)
  · intro x y hx hy hxy
    have := congrArg (fun l => swapped l 0 1) hxy
    simpa only [swapped_swapped] using this
  · rintro ⟨i, j, hi, hj, hij⟩
    obtain rfl := Option.some.inj hi
    obtain rfl := Option.some.inj hj
    exact absurd hij (by decide)

/-- Along a history: the column of a matrix is changed through a slice; the other elements stay. -/
example : result ((do
      let a ← Tensor.full [2, 3] .i16 (.i 7) .i16
      let b ← Tensor.full [1] .i32 (.i 5) .i32
      let r ← Tensor.slice a ",1".toList
      addAssign r b
      Tensor.toString a : M Int (List Char)) Heap.empty) = some "[[7, 12, 7], [7, 12, 7]]".toList := by decide +kernel

end INNC
