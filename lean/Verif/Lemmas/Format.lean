import Verif.Spec.Format
import Verif.Lemmas.LinkedRun
import Verif.Spec.IeeeRounding
/-
Sets of floats that programs do not leave (from the theory of linked runs), and rounding to a format.
-/
namespace INNC
open Spec Tensor
section
variable {F : Type} [FOps F] {N : DType → F → Prop}

/-- Equal floats of the set. -/
def Among (N : DType → F → Prop) : DType → F → F → Prop := fun t x y => x = y ∧ N t x

theorem among_preserved (K : Closed N) : Preserved (Among N) where
  zero t := ⟨rfl, K.zero t⟩
  ofInt t n := ⟨rfl, K.ofInt t n⟩
  cvt s t x y := by rintro ⟨rfl, h⟩; exact ⟨rfl, K.cvt s t x h⟩
  add t a a' b b' := by rintro ⟨rfl, h⟩ ⟨rfl, h'⟩; exact ⟨rfl, K.add t _ _ h h'⟩
  sub t a a' b b' := by rintro ⟨rfl, h⟩ ⟨rfl, h'⟩; exact ⟨rfl, K.sub t _ _ h h'⟩
  mul t a a' b b' := by rintro ⟨rfl, h⟩ ⟨rfl, h'⟩; exact ⟨rfl, K.mul t _ _ h h'⟩
  div t a a' b b' := by rintro ⟨rfl, h⟩ ⟨rfl, h'⟩; exact ⟨rfl, K.div t _ _ h h'⟩
  neg t x y := by rintro ⟨rfl, h⟩; exact ⟨rfl, K.neg t _ h⟩
  toInt t x y n := by rintro ⟨rfl, _⟩ h; exact h

theorem among_compared : ComparedAlike (Among N) where
  lt t a a' b b' := by rintro ⟨rfl, _⟩ ⟨rfl, _⟩; rfl
  le t a a' b b' := by rintro ⟨rfl, _⟩ ⟨rfl, _⟩; rfl
  eq t a a' b b' := by rintro ⟨rfl, _⟩ ⟨rfl, _⟩; rfl

theorem among_shown : ShownAlike (Among N) where
  byte t x y k := by rintro ⟨rfl, _⟩; rfl
  toStr t x y := by rintro ⟨rfl, _⟩; rfl

omit [FOps F] in
theorem among_val {t : DType} {v : Val F} (h : ElementIn N t v) : LinkedVal (Among N) t v v := by
  cases v with
  | i n => exact rfl
  | f x => exact ⟨h.1, rfl, h.2⟩

omit [FOps F] in
theorem forall₂_self {α : Type} {P : α → α → Prop} {l : List α} (h : ∀ x ∈ l, P x x) : List.Forall₂ P l l := by
  induction l with
  | nil => exact .nil
  | cons x l ih => exact .cons (h x (by simp)) (ih fun y hy => h y (by simp [hy]))

omit [FOps F] in
theorem among_tree {x : InitTree F} (h : TreeIn N x) : LinkedTree (Among N) x x := by
  induction h with
  | leaf h => exact .leaf (forall₂_self fun v hv => among_val (h v hv))
  | nil => exact .nil
  | cons _ _ h1 h2 => exact .cons h1 h2

theorem among_call {c : Call F} (h : NumbersIn N c) : LinkedCall (Among N) c c := by
  cases c <;> first
    | exact .scalar (among_val h)
    | exact .init (among_tree h)
    | exact .fullReal ⟨rfl, h⟩
    | exact .fromBlob (forall₂_self fun v hv => among_val (h v hv))
    | exact .randn fun k => ⟨rfl, h k⟩
    | exact .randnLike fun k => ⟨rfl, h k⟩
    | exact .cmp _ _ _ among_compared
    | exact .abs _ among_compared
    | exact .max _ among_compared
    | exact .min _ among_compared
    | exact .all _ among_shown
    | exact .toString _ among_shown
    | constructor

end

namespace Ieee
open Spec.Ieee

theorem inFormat_fin {t : DType} {s : Bool} {k : Nat} :
    InFormat t (.fin s k) ↔ k < 2 ^ high t ∧ ∃ m e, m < 2 ^ digits t ∧ low t ≤ e ∧ k = m * 2 ^ e := by
  show (if t = .f32 then _ else _) ↔ _
  unfold high digits low
  by_cases h : t = .f32
  · simp only [if_pos h]
  · simp only [if_neg h, Nat.zero_le, true_and]

theorem nearest_le (a b : Nat) : nearest a b ≤ a / b + 1 := by
  unfold nearest
  split
  · omega
  · split
    · exact le_rfl
    · split <;> omega

theorem div_place_lt (t : DType) (a b : Nat) : a / (b * 2 ^ place t a b) < 2 ^ digits t := by
  rw [← Nat.div_div_eq_div_mul]
  refine Nat.div_lt_of_lt_mul ?_
  rw [← Nat.pow_add]
  by_cases h0 : a / b = 0
  · rw [h0]; exact Nat.two_pow_pos _
  · refine (Nat.log2_lt h0).1 ?_
    unfold place
    omega

theorem roundUnits_format (t : DType) (a b : Nat) : ∃ m e, m < 2 ^ digits t ∧ low t ≤ e ∧ roundUnits t a b = m * 2 ^ e := by
  have hp : low t ≤ place t a b := le_max_right _ _
  have h1 := nearest_le a (b * 2 ^ place t a b)
  have h2 := div_place_lt t a b
  rcases Nat.lt_or_ge (nearest a (b * 2 ^ place t a b)) (2 ^ digits t) with h | h
  · exact ⟨_, _, h, hp, rfl⟩
  · refine ⟨1, digits t + place t a b, ?_, by omega, ?_⟩
    · exact Nat.one_lt_two_pow (by have := digits_pos t; omega)
    · unfold roundUnits
      rw [show nearest a (b * 2 ^ place t a b) = 2 ^ digits t by omega, Nat.one_mul, Nat.pow_add]

theorem pack_format (t : DType) (s : Bool) (a b : Nat) : InFormat t (pack t s a b) := by
  unfold pack
  split
  · exact inFormat_fin.2 ⟨‹_›, roundUnits_format t a b⟩
  · exact trivial

theorem decimal_format (t : DType) (s : Bool) (a b : Nat) : InFormat t (decimal t s a b) := pack_format _ _ _ _

theorem zero_format (t : DType) (s : Bool) : InFormat t (.fin s 0) :=
  inFormat_fin.2 ⟨Nat.two_pow_pos _, 0, low t, Nat.two_pow_pos _, le_rfl, by rw [Nat.zero_mul]⟩

theorem opposite_format (t : DType) (x : Ieee) (h : InFormat t x) : InFormat t (opposite x) := by
  cases x with
  | fin s k => exact inFormat_fin.2 (inFormat_fin.1 h)
  | inf s => exact trivial
  | nan => exact trivial

theorem plus_format (t : DType) (x y : Ieee) : InFormat t (plus t x y) := by
  cases x <;> cases y <;> first | exact trivial | skip
  · rw [plus_fin]
    split
    · exact zero_format _ _
    · exact pack_format _ _ _ _
  · unfold plus
    dsimp only
    split <;> exact trivial

theorem times_format (t : DType) (x y : Ieee) : InFormat t (times t x y) := by
  cases x <;> cases y <;> first | exact trivial | exact pack_format _ _ _ _ | skip
  · unfold times; dsimp only; split <;> exact trivial
  · unfold times; dsimp only; split <;> exact trivial

theorem over_format (t : DType) (x y : Ieee) : InFormat t (over t x y) := by
  cases x <;> cases y <;> first | exact trivial | exact zero_format _ _ | skip
  show InFormat t (if _ = 0 then (if _ = 0 then Ieee.nan else Ieee.inf _) else pack t _ _ _)
  split
  · split <;> exact trivial
  · exact pack_format _ _ _ _

theorem format_closed : Closed InFormat where
  zero t := zero_format t _
  ofInt t n := pack_format _ _ _ _
  cvt s t x _ := by
    cases x with
    | fin s k => exact pack_format _ _ _ _
    | inf s => exact trivial
    | nan => exact trivial
  add t x y _ _ := plus_format t x y
  sub t x y _ _ := plus_format t x _
  mul t x y _ _ := times_format t x y
  div t x y _ _ := over_format t x y
  neg t x h := opposite_format t x h

theorem roundUnits_self {t : DType} {k m e : Nat} (hm : m < 2 ^ digits t) (he : low t ≤ e) (hk : k = m * 2 ^ e) : roundUnits t k 1 = k := by
  have hd : 2 ^ place t k 1 ∣ k := by
    by_cases h0 : k = 0
    · rw [h0]; exact Nat.dvd_zero _
    · rw [hk]
      refine Nat.dvd_mul_left_of_dvd (Nat.pow_dvd_pow _ ?_) _
      have h1 : k.log2 < digits t + e := by
        rw [Nat.log2_lt h0, Nat.pow_add, hk]
        exact Nat.mul_lt_mul_of_pos_right hm (Nat.two_pow_pos _)
      unfold place
      rw [Nat.div_one, ← hk]
      omega
  unfold roundUnits
  rw [Nat.one_mul]
  generalize hq : 2 ^ place t k 1 = q at hd
  have hq0 : 0 < q := hq ▸ Nat.two_pow_pos _
  obtain ⟨c, hc⟩ := hd
  unfold nearest
  rw [if_pos (by rw [hc, Nat.mul_mod_right]; simpa using hq0)]
  rw [hc, Nat.mul_div_cancel_left _ hq0, Nat.mul_comm]

/-- Numbers of a format are not changed by conversion to it. -/
theorem cvt_format {t : DType} {x : Ieee} (h : InFormat t x) : FOps.cvt t x = x := by
  cases x with
  | inf s => rfl
  | nan => rfl
  | fin s k =>
    obtain ⟨hk, m, e, hm, he, rfl⟩ := inFormat_fin.1 h
    show pack t s (m * 2 ^ e) 1 = _
    unfold pack
    rw [roundUnits_self hm he rfl, if_pos hk]

/-- `f64` has all numbers of `f32`. -/
theorem format_widen {x : Ieee} (h : InFormat .f32 x) : InFormat .f64 x := by
  cases x with
  | inf s => exact trivial
  | nan => exact trivial
  | fin s k =>
    obtain ⟨hk, m, e, hm, he, rfl⟩ := inFormat_fin.1 h
    refine inFormat_fin.2 ⟨lt_of_lt_of_le hk (Nat.pow_le_pow_right (by decide) (by decide)), m, e, ?_, Nat.zero_le _, rfl⟩
    exact lt_of_lt_of_le hm (Nat.pow_le_pow_right (by decide) (by decide))

end Ieee
end INNC
