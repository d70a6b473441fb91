import Verif.Model.Parse
import Verif.Lemmas.Slice
import Verif.Lemmas.Layout
/- Lemmas: resolving the shape given to `reshape`. -/
namespace INNC
open Spec

theorem findMinusOne_skip : ∀ (a : List Nat) (rest : List Int) (i : Nat) (o : Option Nat),
    findMinusOne (a.map (fun n : Nat => (n : Int)) ++ rest) i o = findMinusOne rest (i + a.length) o
  | [], rest, i, o => by simp
  | n :: a, rest, i, o => by
    simp only [List.map_cons, List.cons_append, findMinusOne]
    rw [if_neg (by omega), findMinusOne_skip a rest (i + 1) o]
    congr 1
    simp only [List.length_cons]
    omega

theorem findMinusOne_none (a : List Nat) (o : Option Nat) (i : Nat) :
    findMinusOne (a.map (fun n : Nat => (n : Int))) i o = .ok o := by
  have := findMinusOne_skip a [] i o
  rw [List.append_nil] at this
  rw [this]
  rfl

theorem findMinusOne_one (a b : List Nat) :
    findMinusOne (a.map (fun n : Nat => (n : Int)) ++ -1 :: b.map (fun n : Nat => (n : Int))) 0 none = .ok (some a.length) := by
  rw [findMinusOne_skip]
  simp only [findMinusOne, if_true]
  have : runExpect (!(none : Option Nat).isSome) = .ok () := rfl
  rw [this]
  show findMinusOne (b.map _) _ _ = _
  rw [findMinusOne_none]
  simp

theorem findMinusOne_found : ∀ (zs : List Int) (i k : Nat), (-1 : Int) ∈ zs → findMinusOne zs i (some k) = .throw .runtime
  | z :: zs, i, k, h => by
    simp only [findMinusOne]
    by_cases hz : z = -1
    · rw [if_pos hz]
      rfl
    · rw [if_neg hz]
      exact findMinusOne_found zs _ _ ((List.mem_cons.1 h).resolve_left fun e => hz e.symm)

/-- Two entries `-1` are rejected, whatever the other entries are. -/
theorem findMinusOne_two (b c : List Int) : ∀ (a : List Int) (i : Nat) (o : Option Nat),
    findMinusOne (a ++ -1 :: (b ++ -1 :: c)) i o = .throw .runtime
  | [], i, o => by
    simp only [List.nil_append, findMinusOne, if_true]
    cases o with
    | some k => rfl
    | none => exact findMinusOne_found _ _ _ (by simp)
  | z :: a, i, o => by
    cases o with
    | some k => exact findMinusOne_found _ _ _ (by simp)
    | none =>
      simp only [List.cons_append, findMinusOne]
      by_cases hz : z = -1
      · rw [if_pos hz]
        exact findMinusOne_found _ _ _ (by simp)
      · rw [if_neg hz]
        exact findMinusOne_two b c a _ _

theorem wrapU_mul (x y : Int) : wrapU (wrapU x * y) = wrapU (x * y) := by
  unfold wrapU
  have h0 : (0 : Int) ≤ x % 18446744073709551616 := Int.emod_nonneg _ (by decide)
  rw [Int.toNat_of_nonneg h0, Int.mul_emod, Int.emod_emod_of_dvd _ (by decide : (18446744073709551616 : Int) ∣ 18446744073709551616), ← Int.mul_emod]

theorem prodExcept_eq (mi : Nat) : ∀ (b : List Nat) (i s : Nat) (_ : mi < i ∨ i + b.length ≤ mi),
    wrapU s = s → prodExcept mi (b.map (fun n : Nat => (n : Int))) i s = wrapU (s * vol b)
  | [], i, s, _, hs => by simp only [List.map_nil, prodExcept, vol]; simpa using hs.symm
  | n :: b, i, s, hi, hs => by
    simp only [List.length_cons] at hi
    simp only [List.map_cons, prodExcept]
    rw [if_pos (by omega), prodExcept_eq mi b (i + 1) _ (by omega) (by have := wrapU_mul (s * n) 1; simpa using this),
      wrapU_mul]
    congr 1
    rw [show vol (n :: b) = n * vol b from rfl]
    push_cast
    ring

theorem prodExcept_append (mi : Nat) (rest : List Int) : ∀ (a : List Nat) (i s : Nat), i + a.length ≤ mi →
    wrapU s = s → prodExcept mi (a.map (fun n : Nat => (n : Int)) ++ rest) i s = prodExcept mi rest (i + a.length) (wrapU (s * vol a))
  | [], i, s, _, hs => by simp [vol]; rw [show wrapU (s : Int) = s from hs]
  | n :: a, i, s, hi, hs => by
    simp only [List.length_cons] at hi
    simp only [List.map_cons, List.cons_append, prodExcept]
    rw [if_pos (by omega), prodExcept_append mi rest a (i + 1) _ (by omega)
      (by have := wrapU_mul (s * n) 1; simpa using this), wrapU_mul]
    rw [show vol (n :: a) = n * vol a from rfl]
    have e1 : i + 1 + a.length = i + (n :: a).length := by simp only [List.length_cons]; omega
    have e2 : (s : Int) * n * (vol a : Nat) = s * ((n * vol a : Nat) : Int) := by push_cast; ring
    rw [e1, e2]

theorem vol_append : ∀ (a b : List Nat), vol (a ++ b) = vol a * vol b
  | [], b => by simp [vol]
  | n :: a, b => by
    show n * vol (a ++ b) = n * vol a * vol b
    rw [vol_append a b, Nat.mul_assoc]

theorem prodExcept_infer (a b : List Nat) :
    prodExcept a.length (a.map (fun n : Nat => (n : Int)) ++ -1 :: b.map (fun n : Nat => (n : Int))) 0 1 = wrapU ((vol (a ++ b) : Nat) : Int) := by
  rw [prodExcept_append _ _ a 0 1 (by omega) (by decide)]
  simp only [Nat.zero_add, prodExcept]
  rw [if_neg (by simp), prodExcept_eq _ b _ _ (by omega) (by have := wrapU_mul ((1 : Nat) * vol a) 1; simpa using this),
    wrapU_mul, vol_append]
  congr 1
  push_cast
  ring

theorem map_wrapU_nat {s : List Nat} (hs : ∀ n ∈ s, n < 18446744073709551616) :
    (s.map (fun n : Nat => (n : Int))).map wrapU = s := by
  rw [List.map_map]
  conv => rhs; rw [← List.map_id s]
  refine List.map_congr_left fun n hn => ?_
  have := hs n hn
  simp only [Function.comp, id, wrapU]
  omega

/-- A request without `-1` is the shape itself. -/
theorem regularizeSize_known {s : List Nat} {n : Nat} (hs : ∀ k ∈ s, k < 18446744073709551616) (hn : s = [] → n = 1) :
    regularizeSize (s.map (fun n : Nat => (n : Int))) n = .ok s := by
  unfold regularizeSize
  by_cases h0 : s = []
  · subst h0
    simp [hn rfl, runExpect]
  · rw [if_neg (by simpa using h0), findMinusOne_none]
    show Res.ok _ = _
    rw [map_wrapU_nat hs]

/-- One `-1` stands for the size that makes the number of elements right. -/
theorem regularizeSize_infer {a b : List Nat} {m n : Nat} (hs : ∀ k ∈ a ++ b, k < 18446744073709551616)
    (hv : 0 < vol (a ++ b)) (hvl : vol (a ++ b) < 18446744073709551616) (hn : m * vol (a ++ b) = n)
    (hm : m < 18446744073709551616) :
    regularizeSize (a.map (fun n : Nat => (n : Int)) ++ -1 :: b.map (fun n : Nat => (n : Int))) n = .ok (a ++ m :: b) := by
  unfold regularizeSize
  rw [if_neg (by simp), findMinusOne_one]
  show (if prodExcept _ _ _ _ = 0 then _ else _) = _
  rw [prodExcept_infer, show wrapU ((vol (a ++ b) : Nat) : Int) = vol (a ++ b) by unfold wrapU; omega, if_neg (by omega)]
  have hmod : n % vol (a ++ b) = 0 := by rw [← hn]; exact Nat.mul_mod_left _ _
  have hdiv : n / vol (a ++ b) = m := by rw [← hn]; exact Nat.mul_div_cancel _ hv
  rw [hmod, hdiv]
  show Res.ok _ = _
  congr 1
  rw [List.set_append_right _ _ (by simp)]
  simp only [List.length_map, Nat.sub_self, List.set_cons_zero]
  rw [show a.map (fun n : Nat => (n : Int)) ++ (m : Int) :: b.map (fun n : Nat => (n : Int)) = (a ++ m :: b).map (fun n : Nat => (n : Int)) by simp]
  apply map_wrapU_nat
  intro k hk
  simp only [List.mem_append, List.mem_cons] at hk hs
  rcases hk with h | h | h
  · exact hs k (.inl h)
  · omega
  · exact hs k (.inr h)

/-- If the known sizes do not divide the number of elements the request is rejected. -/
theorem regularizeSize_indivisible {a b : List Nat} {n : Nat} (hv : 0 < vol (a ++ b))
    (hvl : vol (a ++ b) < 18446744073709551616) (hn : ¬ vol (a ++ b) ∣ n) :
    regularizeSize (a.map (fun n : Nat => (n : Int)) ++ -1 :: b.map (fun n : Nat => (n : Int))) n = .throw .runtime := by
  unfold regularizeSize
  rw [if_neg (by simp), findMinusOne_one]
  show (if prodExcept _ _ _ _ = 0 then _ else _) = _
  rw [prodExcept_infer, show wrapU ((vol (a ++ b) : Nat) : Int) = vol (a ++ b) by unfold wrapU; omega, if_neg (by omega)]
  have : ¬ n % vol (a ++ b) = 0 := fun h => hn (Nat.dvd_of_mod_eq_zero h)
  simp [this, runExpect]

/-- Two entries `-1` are rejected. -/
theorem regularizeSize_two (a b c : List Int) (n : Nat) :
    regularizeSize (a ++ -1 :: (b ++ -1 :: c)) n = .throw .runtime := by
  unfold regularizeSize
  rw [if_neg (by simp), findMinusOne_two]
  rfl

end INNC
