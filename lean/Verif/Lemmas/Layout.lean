import Verif.Model.Layout
import Verif.Lemmas.Arith
import Verif.Lemmas.Box
/-
Layout arithmetic: `numel`, contiguous strides, positions, broadcasting.
-/
namespace INNC
open Spec

@[simp] theorem Res.pure_eq {α : Type} (a : α) : (pure a : Res α) = .ok a := rfl
@[simp] theorem Res.ok_bind {α β : Type} (a : α) (f : α → Res β) : (Res.ok a >>= f) = f a := rfl
@[simp] theorem Res.throw_bind {α β : Type} (e : Exc) (f : α → Res β) : (Res.throw e >>= f) = .throw e := rfl
@[simp] theorem Res.ub_bind {α β : Type} (u : UB) (f : α → Res β) : (Res.ub u >>= f) = .ub u := rfl

theorem runExpect_true : runExpect true = .ok () := rfl
theorem runExpect_decide {p : Prop} [Decidable p] (h : p) : runExpect (decide p) = .ok () := by simp [runExpect, h]
theorem runExpect_not {p : Prop} [Decidable p] (h : ¬ p) : runExpect (decide p) = .throw .runtime := by
  simp [runExpect, h]

theorem numel_foldl : ∀ (sizes : List Nat) (a : Nat), a < 18446744073709551616 →
    sizes.foldl (fun (num s : Nat) => wrapU (num * s)) a = wrapU (a * vol sizes)
  | [], a, h => by simp [vol, wrapU_natCast h]
  | n :: ns, a, h => by
    rw [List.foldl_cons, numel_foldl ns _ (wrapU_lt _), wrapU_wrapU_mul, vol]
    push_cast; rw [mul_assoc]

theorem numel_eq (sizes : List Nat) : numel sizes = wrapU (vol sizes) := by
  rw [numel, numel_foldl _ _ (by decide)]; simp

theorem numel_eq_vol {sizes : List Nat} (h : vol sizes < 18446744073709551616) : numel sizes = vol sizes := by
  rw [numel_eq, wrapU_natCast h]

theorem contigStrides_eq : ∀ sizes : List Nat, contigStrides sizes = (rmStrides sizes).map wrapS
  | [] => rfl
  | [_] => rfl
  | a :: s :: rest => by
    rw [contigStrides, contigStrides_eq (s :: rest)]
    simp only [rmStrides, List.map_cons, vol]
    rw [wrapS_wrapS_mul]
    congr 2
    push_cast; ring

theorem length_contigStrides (sizes : List Nat) : (contigStrides sizes).length = sizes.length := by
  rw [contigStrides_eq]; simp [length_rmStrides]

/-- Without zero sizes and with fewer than 2^63 elements nothing wraps around. -/
theorem rmStrides_map_wrapS : ∀ {sizes : List Nat}, 0 ∉ sizes → vol sizes < 9223372036854775808 →
    (rmStrides sizes).map wrapS = rmStrides sizes
  | [], _, _ => rfl
  | n :: ns, h0, h => by
    have hn : 1 ≤ n := Nat.one_le_iff_ne_zero.2 fun hc => h0 (by simp [hc])
    simp only [vol] at h
    have hv : vol ns < 9223372036854775808 :=
      Nat.lt_of_le_of_lt (Nat.le_mul_of_pos_left _ hn) h
    simp only [rmStrides, List.map_cons]
    rw [rmStrides_map_wrapS (fun hc => h0 (by simp [hc])) hv, wrapS_eq_self (by omega) (by omega)]

theorem contigStrides_eq_rm {sizes : List Nat} (h0 : 0 ∉ sizes) (h : vol sizes < 9223372036854775808) :
    contigStrides sizes = rmStrides sizes := by
  rw [contigStrides_eq, rmStrides_map_wrapS h0 h]

theorem dot_map_wrapS : ∀ (sts : List Int) (idx : List Nat),
    dot (sts.map wrapS) idx % 18446744073709551616 = dot sts idx % 18446744073709551616
  | [], idx => by simp [dot]
  | st :: sts, [] => by simp [dot]
  | st :: sts, i :: is => by
    simp only [List.map_cons, dot]
    rw [Int.add_emod, dot_map_wrapS sts is, Int.mul_emod, wrapS_emod, ← Int.mul_emod, ← Int.add_emod]

theorem cntGo_eq : ∀ (sts : List Int) (idx : List Nat) (pos : Nat), idx.length ≤ sts.length →
    pos < 18446744073709551616 → cntGo sts idx pos = .ok (wrapU (pos + dot sts idx))
  | sts, [], pos, _, h => by
    have : dot sts [] = 0 := by cases sts <;> rfl
    simp [cntGo, this, wrapU_natCast h]
  | [], _ :: _, _, h, _ => by simp at h
  | st :: sts, i :: is, pos, h, hp => by
    rw [cntGo, cntGo_eq sts is _ (by simpa using h) (wrapU_lt _), wrapU_wrapU_add, dot, add_assoc]

/-- Exact integer position of an index in a view. -/
def Layout.pos (v : Layout) (idx : List Nat) : Int := v.offset + dot v.strides idx

theorem cntFromIndex_eq {v : Layout} {idx : List Nat} (h : idx.length = v.sizes.length)
    (hs : v.sizes.length ≤ v.strides.length) (ho : v.offset < 18446744073709551616) :
    cntFromIndex v idx = .ok (wrapU (v.pos idx)) := by
  simp only [cntFromIndex, runExpect_decide h, Res.ok_bind]
  exact cntGo_eq _ _ _ (by omega) ho

theorem cntFromIndex_throw {v : Layout} {idx : List Nat} (h : idx.length ≠ v.sizes.length) :
    cntFromIndex v idx = .throw .runtime := by
  simp only [cntFromIndex, runExpect_not h]; rfl

/-! ### Broadcast indices -/

theorem augRev_ok : ∀ (ss is : List Nat), ss.length ≤ is.length →
    InBox ss (List.zipWith (fun n i => if n = 1 then 0 else i) ss is) →
    augRev ss is = .ok (List.zipWith (fun n i => if n = 1 then 0 else i) ss is)
  | [], is, _, _ => by simp [augRev]
  | s :: ss, [], h, _ => by simp at h
  | s :: ss, i :: is, h, hb => by
    simp only [List.zipWith_cons_cons, InBox] at hb
    have ih := augRev_ok ss is (by simpa using h) hb.2
    rw [augRev]
    by_cases h1 : s = 1
    · simp [h1, ih]
    · have hi : i < s := by simpa [h1] using hb.1
      rw [if_pos h1]
      simp only [runExpect_decide hi, Res.ok_bind, ih, List.zipWith_cons_cons, if_neg h1, Res.pure_eq]

theorem inBox_append : ∀ {a b x y : List Nat}, x.length = a.length →
    (InBox (a ++ b) (x ++ y) ↔ InBox a x ∧ InBox b y)
  | [], b, [], y, _ => by simp [InBox]
  | n :: a, b, i :: x, y, h => by
    simp only [List.cons_append, InBox, inBox_append (a := a) (x := x) (b := b) (y := y) (by simpa using h), and_assoc]
  | [], _, _ :: _, _, h => by simp at h
  | _ :: _, _, [], _, h => by simp at h

theorem inBox_reverse {a x : List Nat} : InBox a.reverse x.reverse ↔ InBox a x := by
  have key : ∀ (a x : List Nat), InBox a x → InBox a.reverse x.reverse := by
    intro a
    induction a with
    | nil => intro x h; match x, h with | [], _ => trivial
    | cons n a ih =>
      intro x h
      match x, h with
      | i :: x, h =>
        rw [List.reverse_cons, List.reverse_cons]
        exact (inBox_append (by simp [h.2.length])).2 ⟨ih x h.2, h.1, trivial⟩
  exact ⟨fun h => by simpa using key _ _ h, key a x⟩

theorem length_project {sizes idx : List Nat} (h : sizes.length ≤ idx.length) :
    (project sizes idx).length = sizes.length := by
  simp [project]; omega

theorem zipWith_take_left {α β γ : Type} (f : α → β → γ) : ∀ (l : List α) (m : List β),
    List.zipWith f l m = List.zipWith f l (m.take l.length)
  | [], m => by simp
  | a :: l, [] => by simp
  | a :: l, b :: m => by simp [← zipWith_take_left f l m]

theorem cntFromAugIndex_project {v : Layout} {idx : List Nat} (h : v.sizes.length ≤ idx.length)
    (hb : InBox v.sizes (project v.sizes idx)) :
    cntFromAugIndex v idx = cntFromIndex v (project v.sizes idx) := by
  have e : List.zipWith (fun n i => if n = 1 then 0 else i) v.sizes.reverse idx.reverse =
      (project v.sizes idx).reverse := by
    rw [zipWith_take_left, List.length_reverse, List.take_reverse, project, ← List.reverse_zipWith]
    simp; omega
  have hb' : InBox v.sizes.reverse (List.zipWith (fun n i => if n = 1 then 0 else i) v.sizes.reverse idx.reverse) := by
    rw [e]; exact inBox_reverse.2 hb
  rw [cntFromAugIndex, augRev_ok _ _ (by simpa using h) hb', e]
  simp

theorem stretchRev_comm : ∀ u v : List Nat, stretchRev u v ↔ stretchRev v u
  | a :: u, b :: v => by simp only [stretchRev, stretchRev_comm u v]; tauto
  | [], [] => by simp [stretchRev]
  | [], _ :: _ => by simp [stretchRev]
  | _ :: _, [] => by simp [stretchRev]

theorem bdim_comm (a b : Nat) : bdim a b = bdim b a := by
  unfold bdim; split_ifs <;> simp_all

theorem bshapeRev_comm : ∀ u v : List Nat, bshapeRev u v = bshapeRev v u
  | [], [] => rfl
  | [], _ :: _ => rfl
  | _ :: _, [] => rfl
  | a :: u, b :: v => by simp only [bshapeRev, bdim_comm a b, bshapeRev_comm u v]

theorem bshape_comm (u v : List Nat) : bshape u v = bshape v u := by
  unfold bshape; rw [bshapeRev_comm]

theorem bcastRev_nil_right : ∀ u : List Nat, bcastRev u [] = .ok u
  | [] => rfl
  | a :: u => by simp [bcastRev, bcastRev_nil_right u]

theorem bcast_expect (a b : Nat) : runExpect (decide (a ≠ 1) || decide (b ≠ 1) || decide (a = b)) = .ok () := by
  by_cases h : a = 1
  · by_cases h' : b = 1
    · simp [h, h', runExpect]
    · simp [h', runExpect]
  · simp [h, runExpect]

theorem bcastRev_eq : ∀ u v r : List Nat, v.length ≤ u.length → bshapeRev u v = some r → ¬ stretchRev u v →
    bcastRev u v = .ok r
  | [], [], r, _, h, _ => by simp [bshapeRev] at h; simp [bcastRev, h]
  | [], _ :: _, _, h, _, _ => by simp at h
  | a :: u, [], r, _, h, _ => by
    simp [bshapeRev] at h; rw [bcastRev_nil_right, h]
  | a :: u, b :: v, r, hl, h, hs => by
    simp only [bshapeRev] at h
    cases hd : bdim a b with
    | none => simp [hd] at h
    | some d =>
      cases hr : bshapeRev u v with
      | none => simp [hd, hr] at h
      | some r' =>
        simp only [hd, hr, Option.some.injEq] at h
        simp only [stretchRev, not_or] at hs
        rw [bcastRev, bcast_expect, Res.ok_bind, bcastRev_eq u v r' (by simpa using hl) hr hs.2.2]
        simp only [Res.ok_bind, Res.pure_eq, ← h]
        congr 2
        unfold bdim at hd
        split_ifs at hd <;> simp at hd <;> omega

theorem broadcastRange_eq {u v r : List Nat} (h : bshape u v = some r) (hs : ¬ stretchRev u.reverse v.reverse) :
    broadcastRange u v = .ok r := by
  simp only [bshape, Option.map_eq_some_iff] at h
  obtain ⟨r', hr', rfl⟩ := h
  unfold broadcastRange
  by_cases hl : u.length < v.length
  · simp only [hl, if_true]
    rw [bcastRev_eq v.reverse u.reverse r' (by simp; omega) (by rw [bshapeRev_comm]; exact hr')
      (by rwa [stretchRev_comm])]
    rfl
  · simp only [hl, if_false]
    rw [bcastRev_eq u.reverse v.reverse r' (by simp; omega) hr' hs]
    rfl

theorem bshapeRev_length_left : ∀ {u v r : List Nat}, bshapeRev u v = some r → u.length ≤ r.length
  | [], _, _, _ => by simp
  | a :: u, [], r, h => by simp [bshapeRev] at h; simp [← h]
  | a :: u, b :: v, r, h => by
    simp only [bshapeRev] at h
    cases hd : bdim a b <;> cases hr : bshapeRev u v <;> simp [hd, hr] at h
    subst h
    have := bshapeRev_length_left hr
    simpa using this

theorem bshape_length_left {u v r : List Nat} (h : bshape u v = some r) : u.length ≤ r.length := by
  simp only [bshape, Option.map_eq_some_iff] at h
  obtain ⟨r', hr', rfl⟩ := h
  simpa using bshapeRev_length_left hr'

theorem bshape_length_right {u v r : List Nat} (h : bshape u v = some r) : v.length ≤ r.length := by
  rw [bshape_comm] at h; exact bshape_length_left h

theorem projectRev_inBox : ∀ {u v r idx : List Nat}, bshapeRev u v = some r → InBox r idx →
    InBox u (List.zipWith (fun n i => if n = 1 then 0 else i) u idx)
  | [], _, _, idx, _, _ => by simp [InBox]
  | a :: u, [], r, idx, h, hb => by
    simp [bshapeRev] at h; subst h
    match idx, hb with
    | i :: is, hb =>
      rw [List.zipWith_cons_cons]
      refine ⟨by split <;> first | (have := hb.1; omega) | exact hb.1, ?_⟩
      exact projectRev_inBox (v := []) (r := u) (by cases u <;> rfl) hb.2
  | a :: u, b :: v, r, idx, h, hb => by
    simp only [bshapeRev] at h
    cases hd : bdim a b <;> cases hr : bshapeRev u v <;> simp [hd, hr] at h
    subst h
    rename_i d r'
    match idx, hb with
    | i :: is, hb =>
      rw [List.zipWith_cons_cons]
      refine ⟨?_, projectRev_inBox hr hb.2⟩
      have := hb.1
      unfold bdim at hd
      split_ifs at hd ⊢ <;> simp at hd <;> omega

/-- Projected indices are indices of the operand. -/
theorem project_inBox_left {u v r idx : List Nat} (h : bshape u v = some r) (hb : InBox r idx) :
    InBox u (project u idx) := by
  have hlen := bshape_length_left h
  simp only [bshape, Option.map_eq_some_iff] at h
  obtain ⟨r', hr', rfl⟩ := h
  have hb' : InBox r' idx.reverse := by
    have := inBox_reverse.2 hb; simpa using this
  have := projectRev_inBox hr' hb'
  rw [← inBox_reverse]
  have hl := hb.length
  have e : (project u idx).reverse = List.zipWith (fun n i => if n = 1 then 0 else i) u.reverse idx.reverse := by
    rw [zipWith_take_left _ u.reverse, List.length_reverse, List.take_reverse, project, ← List.reverse_zipWith]
    simp only [List.length_drop]
    simp only [List.length_reverse] at hlen hl
    omega
  rw [e]; exact this

theorem project_inBox_right {u v r idx : List Nat} (h : bshape u v = some r) (hb : InBox r idx) :
    InBox v (project v idx) := by
  rw [bshape_comm] at h; exact project_inBox_left h hb

/-- Projection is the identity on indices of the operand's own shape. -/
theorem project_self {sizes idx : List Nat} (h : InBox sizes idx) : project sizes idx = idx := by
  have key : ∀ (s i : List Nat), InBox s i → List.zipWith (fun n i => if n = 1 then 0 else i) s i = i := by
    intro s
    induction s with
    | nil => intro i h; match i, h with | [], _ => rfl
    | cons n s ih =>
      intro i h
      match i, h with
      | j :: i, h =>
        rw [List.zipWith_cons_cons, ih i h.2]
        have := h.1
        split_ifs with hn
        · congr 1; omega
        · rfl
  rw [project, h.length]; simpa using key _ _ h

theorem bshape_self (s : List Nat) : bshape s s = some s := by
  have key : ∀ s : List Nat, bshapeRev s s = some s := by
    intro s; induction s with
    | nil => rfl
    | cons a s ih => simp [bshapeRev, ih, bdim]
  simp [bshape, key]

theorem stretchRev_self : ∀ s : List Nat, ¬ stretchRev s s
  | [] => by simp [stretchRev]
  | a :: s => by simp only [stretchRev, not_or]; exact ⟨by omega, by omega, stretchRev_self s⟩

/-! ### Contiguity -/

theorem isContigRev_iff : ∀ (ss : List Nat) (sts : List Int) (k : Nat), sts.length = ss.length →
    (isContigRev (wrapS k) ss sts = true ↔
      sts.reverse = (rmStrides ss.reverse).map (fun z => wrapS (z * k)))
  | [], [], k, _ => by simp [isContigRev, rmStrides]
  | s :: ss, st :: sts, k, h => by
    have ih := isContigRev_iff ss sts (k * s) (by simpa using h)
    rw [isContigRev]
    have e : wrapS (wrapS (k : Int) * s) = wrapS ((k * s : Nat) : Int) := by
      rw [wrapS_wrapS_mul]; push_cast; rfl
    have rm_append : ∀ (a : List Nat) (s : Nat), rmStrides (a ++ [s]) = (rmStrides a).map (fun z => z * (s : Int)) ++ [1] := by
      intro a s
      induction a with
      | nil => simp [rmStrides, vol]
      | cons n a ih => simp [rmStrides, ih, vol_append, vol]
    rw [List.reverse_cons, List.reverse_cons, rm_append, List.map_append, List.map_map]
    rw [e]
    have hl : sts.reverse.length = (List.map ((fun z => wrapS (z * (k : Int))) ∘ fun z => z * (s : Int)) (rmStrides ss.reverse)).length := by
      simp [length_rmStrides]; simpa using h
    constructor
    · intro hc
      split_ifs at hc with hst
      rw [ih] at hc
      rw [hc]
      have h2 : wrapS (k : Int) = st := not_not.1 hst
      refine congrArg₂ (· ++ ·) ?_ ?_
      · apply List.map_congr_left; intro z _; simp only [Function.comp]; exact congrArg wrapS (by push_cast; ring)
      · simp only [List.map_cons, List.map_nil, one_mul, h2]
    · intro hc
      have := List.append_inj hc hl
      have h2 : st = wrapS k := by simpa using this.2
      rw [if_neg (by simp [h2]), ih, this.1]
      apply List.map_congr_left; intro z _; simp only [Function.comp]; exact congrArg wrapS (by push_cast; ring)
  | [], _ :: _, _, h => by simp at h
  | _ :: _, [], _, h => by simp at h

theorem isContiguous_iff {v : Layout} (h : v.strides.length = v.sizes.length) :
    isContiguous v = true ↔ v.strides = contigStrides v.sizes := by
  have := isContigRev_iff v.sizes.reverse v.strides.reverse 1 (by simp [h])
  unfold isContiguous
  rw [List.take_of_length_le (by omega)]
  have e : wrapS ((1 : Nat) : Int) = 1 := by decide
  rw [e] at this
  rw [this, contigStrides_eq]
  simp

end INNC
