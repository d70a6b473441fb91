import Verif.Lemmas.Abs
/-
`all`.
-/
namespace INNC
open Spec Tensor
variable {F : Type} [FOps F]

theorem byteOf_i8 (n : Int) : byteOf (F := F) .i8 (.i n) 0 = (n % 256).toNat := by
  show ((n % (2 ^ 8)) / (256 ^ 0) % 256).toNat = _
  congr 1
  omega

/-- The outcome of reading a byte `n` as a truth value. -/
def boolOut (h : Heap F) : Option Bool → Out (Heap F) Bool
  | some b => .ok b h
  | none => .ub .badBool

theorem loadBool_eq {h : Heap F} {i : Impl} {f : List Nat → Val F} (hr : Reads h i f) (hdt : i.dtype = .i8)
    {idx : List Nat} (hb : InBox i.view.sizes idx) {n : Int} (hn : f idx = .i n) :
    (do loadBoolByte i (← M.lift (cntFromIndex i.view idx)) : M F Bool) h = boolOut h (scanAll [n]) := by
  obtain ⟨s, cells, hs, hd, hbl, hlen, hc⟩ := hr.cells
  obtain ⟨p, hp, hcp⟩ := hc idx hb
  have hpl : p < cells.length := getElem?_lt hcp
  have ht := hr.typed idx hb
  rw [hn, hdt, hasType_i] at ht
  have hrg : -128 ≤ n ∧ n ≤ 127 := by
    have h8 : InRange 8 n := ht.2
    unfold InRange at h8
    norm_num at h8
    constructor <;> omega
  rw [cntFromIndex_eq hb.length (by rw [hr.strides]) hr.offset, M.bind_ok (M.lift_ok _ _)]
  rw [Layout.pos_eq, hp, wrapU_natCast (by omega)]
  unfold loadBoolByte
  rw [M.bind_ok (getS_ok hs)]
  rw [hbl]
  have hsz : s.dt.size = 1 := by rw [hd, hdt]; rfl
  simp only [hsz, Nat.div_one, Nat.mod_one, hcp, hn]
  rw [hd, hdt, byteOf_i8 n]
  by_cases h1 : n = 1
  · subst h1; rfl
  by_cases h0 : n = 0
  · subst h0; rfl
  simp only [scanAll, if_neg h1, if_neg h0]
  obtain ⟨m, hm⟩ : ∃ m, (n % 256).toNat = m + 2 := ⟨(n % 256).toNat - 2, by omega⟩
  rw [hm]
  rfl

theorem allGo_scan {h : Heap F} {i : Impl} (v : List Nat → Int)
    (hv : ∀ idx, InBox i.view.sizes idx → (do loadBoolByte i (← M.lift (cntFromIndex i.view idx)) : M F Bool) h = boolOut h (scanAll [v idx])) :
    ∀ (l : List (List Nat)) (sv : List Nat) (n : Nat), Walk i.view.sizes sv l → l.length < n →
      (∀ x ∈ l, InBox i.view.sizes x) → allGo i n sv h = boolOut h (scanAll (l.map v)) := by
  intro l
  induction l with
  | nil =>
    intro sv n hw hn _
    obtain ⟨n, rfl⟩ : ∃ k, n = k + 1 := ⟨n - 1, by simp at hn; omega⟩
    simp only [allGo]
    rw [show carry i.view.sizes (i.view.sizes.length - 1) sv = none from hw]
    rfl
  | cons x l ih =>
    intro sv n hw hn hin
    obtain ⟨n, rfl⟩ : ∃ k, n = k + 1 := ⟨n - 1, by simp at hn; omega⟩
    simp only [allGo]
    rw [hw.1]
    have e1 := hv x (hin x (by simp))
    simp only
    rw [← bind_assoc]
    by_cases h1 : v x = 1
    · rw [h1] at e1
      rw [M.bind_ok (a := true) (h' := h) e1]
      simp only [Bool.not_true, Bool.false_eq_true, if_false, List.map_cons, scanAll, h1, if_true]
      exact ih _ n hw.2 (by simp at hn; omega) fun y hy => hin y (by simp [hy])
    · by_cases h0 : v x = 0
      · rw [h0] at e1
        rw [M.bind_ok (a := false) (h' := h) e1]
        simp only [Bool.not_false, if_true, List.map_cons, scanAll, h0, if_neg (show ¬ (0 : Int) = 1 by decide)]
        rfl
      · have e2 : scanAll [v x] = none := by simp only [scanAll, if_neg h1, if_neg h0]
        rw [e2] at e1
        rw [M.bind_ub (u := .badBool) e1]
        simp only [List.map_cons, scanAll, if_neg h1, if_neg h0]
        rfl

theorem allT_scan {h : Heap F} {t : Nat} {i : Impl} (hi : h.ts[t]? = some i) (v : List Nat → Int)
    (hv : ∀ idx, InBox i.view.sizes idx → (do loadBoolByte i (← M.lift (cntFromIndex i.view idx)) : M F Bool) h = boolOut h (scanAll [v idx])) :
    Tensor.allT t h = boolOut h (scanAll ((rowMajor i.view.sizes).map v)) := by
  unfold Tensor.allT
  rw [M.bind_ok (getT_ok hi)]
  by_cases h0 : 0 ∈ i.view.sizes
  · have : i.view.sizes.any (fun r => r == 0) = true := by simpa using h0
    rw [if_pos this, rowMajor_of_zero_mem h0]
    rfl
  · have : ¬ (i.view.sizes.any (fun r => r == 0) = true) := by simpa using h0
    rw [if_neg this]
    by_cases hnil : i.view.sizes = []
    · rw [if_neg (by simp [hnil])]
      have hb : InBox i.view.sizes [] := by rw [hnil]; trivial
      rw [hv [] hb, hnil]
      rfl
    · rw [if_pos (by simpa using hnil)]
      refine allGo_scan v hv _ _ _ (walk_rowMajor _ hnil h0) ?_ fun x hx => mem_rowMajor.1 hx
      rw [odoFuel_eq, length_rowMajor]; omega

theorem allT_eq {h : Heap F} {t : Nat} {i : Impl} {f : List Nat → Val F} (hi : h.ts[t]? = some i) (hr : Reads h i f)
    (hdt : i.dtype = .i8)
    (v : List Nat → Int) (hv : ∀ idx, InBox i.view.sizes idx → f idx = .i (v idx)) :
    Tensor.allT t h = boolOut h (scanAll ((rowMajor i.view.sizes).map v)) :=
  allT_scan hi v fun idx hb => loadBool_eq hr hdt hb (hv idx hb)

theorem scanAll_bool : ∀ l : List Int, (∀ n ∈ l, n = 0 ∨ n = 1) → scanAll l = some (l.all fun n => decide (n = 1))
  | [], _ => rfl
  | n :: l, h => by
    rcases h n (by simp) with rfl | rfl
    · rfl
    · simp only [scanAll, if_true, List.all_cons, decide_true, Bool.true_and]
      exact scanAll_bool l fun m hm => h m (by simp [hm])

theorem allT_ok {h : Heap F} {t : Nat} {i : Impl} {f : List Nat → Val F} (hi : h.ts[t]? = some i) (hr : Reads h i f)
    (hdt : i.dtype = .i8)
    (v : List Nat → Int) (hv : ∀ idx, InBox i.view.sizes idx → f idx = .i (v idx) ∧ (v idx = 0 ∨ v idx = 1)) :
    Tensor.allT t h = .ok ((rowMajor i.view.sizes).all fun x => decide (v x = 1)) h := by
  rw [allT_eq hi hr hdt v fun idx hb => (hv idx hb).1, scanAll_bool]
  · simp only [boolOut, List.all_map]
    rfl
  · intro n hn
    obtain ⟨x, hx, rfl⟩ := List.mem_map.1 hn
    exact (hv x (mem_rowMajor.1 hx)).2

end INNC
