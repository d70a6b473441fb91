import Verif.Model.Layout
import Verif.Lemmas.Box
/-
The odometer loop visits the row-major list.
-/
namespace INNC
open Spec

/-- Run an operation on the elements of a list, in order. -/
def runAll {m : Type → Type} [Monad m] {α : Type} (op : α → m Unit) : List α → m Unit
  | [] => pure ()
  | x :: xs => do
    op x
    runAll op xs

/-- Advance the last counter. -/
def incLast (range sv : List Nat) : List Nat := sv.set (range.length - 1) (sv.getD (range.length - 1) 0 + 1)

/-- `l` is the sequence of counters visited from the state `sv`. -/
def Walk (range : List Nat) : List Nat → List (List Nat) → Prop
  | sv, [] => carry range (range.length - 1) sv = none
  | sv, x :: l => carry range (range.length - 1) sv = some x ∧ Walk range (incLast range x) l

theorem odo_eq_runAll {m : Type → Type} [Monad m] (stuck : m Unit) (range : List Nat) (op : List Nat → m Unit) :
    ∀ (l : List (List Nat)) (sv : List Nat) (n : Nat), Walk range sv l → l.length < n →
      odo stuck range op n sv = runAll op l := by
  intro l
  induction l with
  | nil =>
    intro sv n h hn
    obtain ⟨n, rfl⟩ : ∃ k, n = k + 1 := ⟨n - 1, by simp at hn; omega⟩
    simp only [odo, runAll]
    rw [show carry range (range.length - 1) sv = none from h]
  | cons x l ih =>
    intro sv n h hn
    obtain ⟨n, rfl⟩ : ∃ k, n = k + 1 := ⟨n - 1, by simp at hn; omega⟩
    simp only [odo, runAll]
    rw [h.1]
    simp only
    have := ih (incLast range x) n h.2 (by simp at hn; omega)
    rw [← this]; rfl

/-- One more axis in front: the inner axes carry first. -/
theorem carry_cons (r : Nat) (rs : List Nat) (s : Nat) : ∀ (p k : Nat) (ss : List Nat),
    ss.length = p + 1 → rs.length = p + 1 + k →
    carry (r :: rs) (p + 1) (s :: (ss ++ List.replicate k 0)) =
      match carry rs p (ss ++ List.replicate k 0) with
      | some x => some (s :: x)
      | none => if s + 1 = r then none else some ((s + 1) :: List.replicate rs.length 0) := by
  intro p
  induction p with
  | zero =>
    intro k ss hs hr
    match ss, hs with
    | [x], _ =>
      simp only [carry, List.getD_cons_succ, List.cons_append, List.nil_append, List.getD_cons_zero]
      have e : List.replicate rs.length 0 = 0 :: List.replicate k 0 := by
        rw [hr, Nat.zero_add, Nat.add_comm 1 k, List.replicate_succ]
      by_cases hx : x = rs.getD 0 0
      · rw [if_pos hx, if_pos hx, e]
        simp
      · rw [if_neg hx, if_neg hx]
  | succ p ih =>
    intro k ss hs hr
    rw [carry.eq_2 (r :: rs), carry.eq_2 rs]
    simp only [List.getD_cons_succ]
    by_cases hx : (ss ++ List.replicate k 0).getD (p + 1) 0 = rs.getD (p + 1) 0
    · rw [if_pos hx, if_pos hx]
      obtain ⟨ss', y, z, rfl⟩ : ∃ ss' y z, ss = ss' ++ [y, z] := by
        refine ⟨ss.take p, ss.getD p 0, ss.getD (p+1) 0, ?_⟩
        apply List.ext_getElem?
        intro i
        rcases Nat.lt_trichotomy i p with h | h | h
        · rw [List.getElem?_append_left (by simp; omega)]; simp [List.getElem?_take, h]
        · subst h
          rw [List.getElem?_append_right (by simp)]
          have e : i - (List.take i ss).length = 0 := by simp; omega
          rw [e]; simp [List.getD_eq_getElem?_getD, List.getElem?_eq_getElem (show i < ss.length by omega)]
        · rcases Nat.eq_or_lt_of_le h with h' | h'
          · subst h'
            rw [List.getElem?_append_right (by simp)]
            have e : p + 1 - (List.take p ss).length = 1 := by simp; omega
            rw [Nat.succ_eq_add_one, e]
            simp [List.getD_eq_getElem?_getD, List.getElem?_eq_getElem (show p + 1 < ss.length by omega)]
          · rw [List.getElem?_eq_none (by omega), List.getElem?_eq_none (by simp; omega)]
      have hl : ss'.length = p := by simp at hs; omega
      have e1 : ((s :: (ss' ++ [y, z] ++ List.replicate k 0)).set (p + 1 + 1) 0).set (p + 1)
          ((s :: (ss' ++ [y, z] ++ List.replicate k 0)).getD (p + 1) 0 + 1) =
          s :: ((ss' ++ [y + 1]) ++ List.replicate (k + 1) 0) := by
        simp [List.set_cons_succ, List.set_append, hl, List.replicate_succ, List.getD_eq_getElem?_getD]
      have e2 : ((ss' ++ [y, z] ++ List.replicate k 0).set (p + 1) 0).set p
          ((ss' ++ [y, z] ++ List.replicate k 0).getD p 0 + 1) = (ss' ++ [y + 1]) ++ List.replicate (k + 1) 0 := by
        simp [List.set_append, hl, List.replicate_succ, List.getD_eq_getElem?_getD]
      have e3 : (s :: (ss' ++ [y, z] ++ List.replicate k 0)).getD (p + 1) 0 =
        (ss' ++ [y, z] ++ List.replicate k 0).getD p 0 := by simp
      rw [e3] at e1
      rw [e1, e2]
      exact ih (k + 1) (ss' ++ [y + 1]) (by simp [hl]) (by omega)
    · rw [if_neg hx, if_neg hx]

theorem carry_cons' (r : Nat) (rs : List Nat) (s : Nat) (ss : List Nat) (h : ss.length = rs.length) (hr : rs ≠ []) :
    carry (r :: rs) ((r :: rs).length - 1) (s :: ss) =
      match carry rs (rs.length - 1) ss with
      | some x => some (s :: x)
      | none => if s + 1 = r then none else some ((s + 1) :: List.replicate rs.length 0) := by
  have h0 : 0 < rs.length := List.length_pos_iff.2 hr
  have := carry_cons r rs s (rs.length - 1) 0 ss (by omega) (by omega)
  simpa [show rs.length - 1 + 1 = rs.length by omega] using this

theorem carry_length : ∀ (range : List Nat) (p : Nat) (sv x : List Nat), carry range p sv = some x →
    x.length = sv.length
  | range, 0, sv, x, h => by
    simp only [carry] at h
    split at h <;> simp_all
  | range, p + 1, sv, x, h => by
    simp only [carry] at h
    split at h
    · have := carry_length range p _ x h; simpa using this
    · simp at h; rw [h]

theorem incLast_cons (r : Nat) (rs : List Nat) (s : Nat) (ss : List Nat) (hr : rs ≠ []) :
    incLast (r :: rs) (s :: ss) = s :: incLast rs ss := by
  have h0 : 0 < rs.length := List.length_pos_iff.2 hr
  obtain ⟨k, hk⟩ : ∃ k, rs.length = k + 1 := ⟨rs.length - 1, by omega⟩
  simp [incLast, hk]

theorem length_incLast (range sv : List Nat) : (incLast range sv).length = sv.length := by simp [incLast]

theorem carry_zeros : ∀ (range : List Nat) (p : Nat) (n : Nat), p < range.length → 0 ∉ range →
    carry range p (List.replicate n 0) = some (List.replicate n 0)
  | range, 0, n, hp, h0 => by
    have : range.getD 0 0 ≠ 0 := by
      intro hc
      rw [List.getD_eq_getElem?_getD, List.getElem?_eq_getElem hp] at hc
      exact h0 (hc ▸ List.getElem_mem hp)
    have e : (List.replicate n 0).getD 0 0 = 0 := by
      simp [List.getD_eq_getElem?_getD, List.getElem?_replicate]; split <;> simp
    simp only [carry, e]
    rw [if_neg (fun hc => this hc.symm)]
  | range, p + 1, n, hp, h0 => by
    have : range.getD (p + 1) 0 ≠ 0 := by
      intro hc
      rw [List.getD_eq_getElem?_getD, List.getElem?_eq_getElem hp] at hc
      exact h0 (hc ▸ List.getElem_mem hp)
    have e : (List.replicate n 0).getD (p + 1) 0 = 0 := by simp [List.getD_eq_getElem?_getD, List.getElem?_replicate]; split <;> simp
    simp only [carry, e]
    rw [if_neg (fun hc => this hc.symm)]

theorem walk_one (r : Nat) : ∀ (d s : Nat), s + d = r → Walk [r] [s] ((List.range' s d).map fun i => [i]) := by
  intro d
  induction d with
  | zero => intro s h; simp [Walk, carry]; omega
  | succ d ih =>
    intro s h
    rw [List.range'_succ, List.map_cons, Walk]
    refine ⟨by simp [carry]; omega, ?_⟩
    have := ih (s + 1) (by omega)
    simpa [incLast] using this

theorem walk_inner (r : Nat) (rs : List Nat) (hr : rs ≠ []) (s : Nat) (rest : List (List Nat))
    (hrest : ∀ ss, ss.length = rs.length → carry rs (rs.length - 1) ss = none → Walk (r :: rs) (s :: ss) rest) :
    ∀ (l : List (List Nat)) (ss : List Nat), ss.length = rs.length → Walk rs ss l →
      Walk (r :: rs) (s :: ss) (l.map (s :: ·) ++ rest) := by
  intro l
  induction l with
  | nil => intro ss hs h; exact hrest ss hs h
  | cons x l ih =>
    intro ss hs h
    rw [List.map_cons, List.cons_append, Walk]
    refine ⟨by rw [carry_cons' r rs s ss hs hr, h.1], ?_⟩
    rw [incLast_cons _ _ _ _ hr]
    exact ih _ (by rw [length_incLast, carry_length _ _ _ _ h.1, hs]) h.2

theorem walk_outer (r : Nat) (rs : List Nat) (hr : rs ≠ []) (h0 : 0 ∉ rs)
    (hz : Walk rs (List.replicate rs.length 0) (rowMajor rs)) :
    ∀ (d s : Nat) (l : List (List Nat)) (ss : List Nat), s + d + 1 = r → ss.length = rs.length → Walk rs ss l →
      Walk (r :: rs) (s :: ss)
        (l.map (s :: ·) ++ (List.range' (s + 1) d).flatMap fun i => (rowMajor rs).map (i :: ·)) := by
  intro d
  induction d with
  | zero =>
    intro s l ss hs hl hw
    apply walk_inner r rs hr s _ _ l ss hl hw
    intro ss' hl' hn
    simp only [List.range'_zero, List.flatMap_nil, Walk]
    rw [carry_cons' r rs s ss' hl' hr, hn]
    simp; omega
  | succ d ih =>
    intro s l ss hs hl hw
    apply walk_inner r rs hr s _ _ l ss hl hw
    intro ss' hl' hn
    -- the next state is the first index of block s+1
    have hlen : 0 < rs.length := List.length_pos_iff.2 hr
    have hcz := carry_zeros rs (rs.length - 1) rs.length (by omega) h0
    have hnext := ih (s + 1) (rowMajor rs) (List.replicate rs.length 0) (by omega) (by simp) hz
    rw [List.range'_succ, List.flatMap_cons]
    -- compare the first step of hnext
    revert hz hnext
    cases hrm : rowMajor rs with
    | nil =>
      intro hz; simp only [Walk] at hz; rw [hcz] at hz; cases hz
    | cons x l' =>
      intro hz hnext
      rw [List.map_cons, List.cons_append] at hnext ⊢
      rw [Walk] at hnext hz ⊢
      refine ⟨?_, hnext.2⟩
      rw [hcz] at hz
      have hx : x = List.replicate rs.length 0 := by simpa using hz.1.symm
      rw [carry_cons' r rs s ss' hl' hr, hn, hx]
      simp; omega

theorem walk_rowMajor : ∀ range : List Nat, range ≠ [] → 0 ∉ range →
    Walk range (List.replicate range.length 0) (rowMajor range)
  | [], h, _ => (h rfl).elim
  | [r], _, h0 => by
    have := walk_one r r 0 (by omega)
    have e : ∀ l : List Nat, (l.flatMap fun i => [[i]]) = l.map fun i => [i] := by
      intro l; induction l with
      | nil => rfl
      | cons a l ih => simp [ih]
    simpa [rowMajor, List.range_eq_range', e] using this
  | r :: r' :: rs, _, h0 => by
    have h0' : 0 ∉ r' :: rs := fun h => h0 (by simp at h ⊢; tauto)
    have hr : 0 < r := Nat.pos_of_ne_zero fun h => h0 (by simp [h])
    have ih := walk_rowMajor (r' :: rs) (by simp) h0'
    have := walk_outer r (r' :: rs) (by simp) h0' ih (r - 1) 0 _ _ (by omega) (by simp) ih
    rw [rowMajor, List.range_eq_range', show r = (r - 1) + 1 by omega, List.range'_succ, List.flatMap_cons]
    simpa [List.replicate_succ, show r - 1 + 1 = r by omega] using this

theorem odoFuel_eq (range : List Nat) : odoFuel range = vol range + 1 := by
  unfold odoFuel
  congr 1
  induction range with
  | nil => rfl
  | cons n ns ih => simp [vol, ih]

theorem odo_rowMajor {m : Type → Type} [Monad m] (stuck : m Unit) (range : List Nat) (op : List Nat → m Unit)
    (hr : range ≠ []) (h0 : 0 ∉ range) :
    odo stuck range op (odoFuel range) (List.replicate range.length 0) = runAll op (rowMajor range) := by
  apply odo_eq_runAll stuck range op _ _ _ (walk_rowMajor range hr h0)
  rw [length_rowMajor, odoFuel_eq]; omega

theorem rowMajor_of_zero_mem {range : List Nat} (h : 0 ∈ range) : rowMajor range = [] := by
  apply List.eq_nil_of_length_eq_zero
  rw [length_rowMajor]; exact vol_eq_zero.2 h

/-- `for_each_sizevec` runs its body on the row-major list of indices. -/
theorem forEachWith_eq {m : Type → Type} [Monad m] [LawfulMonad m] (stuck : m Unit) (range : List Nat)
    (op : List Nat → m Unit) : forEachWith stuck range op = runAll op (rowMajor range) := by
  unfold forEachWith
  by_cases h0 : 0 ∈ range
  · have : range.any (fun r => r == 0) = true := by simpa using h0
    rw [if_pos this, rowMajor_of_zero_mem h0]; rfl
  · have : ¬ (range.any (fun r => r == 0) = true) := by simpa using h0
    rw [if_neg this]
    by_cases hr : range = []
    · subst hr; simp [rowMajor, runAll]
    · rw [if_pos (by simpa using hr)]
      exact odo_rowMajor stuck range op hr h0

end INNC
