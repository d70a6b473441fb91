import Verif.Lemmas.Exact
import Verif.Lemmas.GraphOrder
import Verif.Spec.Tangent
import Mathlib.Algebra.BigOperators.Group.List.Basic
/-
Sums over shapes, and the tensor on whose gradient a view lives.
-/
namespace INNC
open Spec Tensor
variable {F : Type}

/-! ### Sums -/
section
variable {R : Type}

theorem boxSum_congr [AddCommMonoid R] {s : List Nat} {f g : List Nat → R} (h : ∀ idx, InBox s idx → f idx = g idx) :
    boxSum s f = boxSum s g := by
  unfold boxSum
  congr 1
  exact List.map_congr_left fun k hk => h k (mem_rowMajor.1 hk)

theorem boxSum_add [AddCommMonoid R] (s : List Nat) (f g : List Nat → R) :
    boxSum s (fun k => f k + g k) = boxSum s f + boxSum s g := List.sum_map_add

theorem boxSum_zero [AddCommMonoid R] {s : List Nat} {f : List Nat → R} (h : ∀ idx, InBox s idx → f idx = 0) :
    boxSum s f = 0 := by
  rw [boxSum_congr h]
  unfold boxSum
  simp

theorem boxSum_mul_left [Semiring R] (s : List Nat) (c : R) (f : List Nat → R) :
    boxSum s (fun k => c * f k) = c * boxSum s f := by
  unfold boxSum; exact List.sum_map_mul_left ..

theorem list_sum_swap [AddCommMonoid R] {α β : Type} (f : α → β → R) : ∀ (l : List α) (m : List β),
    (l.map fun a => (m.map (f a)).sum).sum = (m.map fun b => (l.map fun a => f a b).sum).sum
  | [], m => by simp
  | a :: l, m => by
    simp only [List.map_cons, List.sum_cons]
    rw [list_sum_swap f l m, ← List.sum_map_add]

theorem boxSum_swap [AddCommMonoid R] (s r : List Nat) (f : List Nat → List Nat → R) :
    boxSum s (fun a => boxSum r (f a)) = boxSum r fun b => boxSum s fun a => f a b := list_sum_swap f _ _

theorem sum_filter [AddCommMonoid R] {α : Type} (q : α → Prop) [DecidablePred q] (w : α → R) (l : List α) :
    ((l.filter fun k => q k).map w).sum = (l.map fun k => if q k then w k else 0).sum := by
  induction l with
  | nil => rfl
  | cons a l ih =>
    rw [List.filter_cons]
    by_cases h : q a
    · simp [h, ih]
    · simp [h, ih]

theorem list_sum_single [AddCommMonoid R] {α : Type} [DecidableEq α] {l : List α} (hn : l.Nodup) {a : α} (ha : a ∈ l)
    (f : α → R) (h : ∀ b ∈ l, b ≠ a → f b = 0) : (l.map f).sum = f a := by
  induction l with
  | nil => simp at ha
  | cons b l ih =>
    rw [List.nodup_cons] at hn
    rw [List.map_cons, List.sum_cons]
    by_cases hb : b = a
    · subst hb
      rw [List.sum_eq_zero, add_zero]
      intro y hy
      obtain ⟨c, hc, rfl⟩ := List.mem_map.1 hy
      exact h c (by simp [hc]) fun e => hn.1 (e ▸ hc)
    · rw [h b (by simp) hb, zero_add]
      exact ih hn.2 ((List.mem_cons.1 ha).resolve_left fun e => hb e.symm) fun c hc => h c (by simp [hc])

theorem boxSum_single [AddCommMonoid R] {s idx : List Nat} (hi : InBox s idx) (f : List Nat → R)
    (h : ∀ k, InBox s k → k ≠ idx → f k = 0) : boxSum s f = f idx :=
  list_sum_single (nodup_rowMajor _) (mem_rowMajor.2 hi) f fun b hb => h b (mem_rowMajor.1 hb)

/-- Adding `w k` to the cell `q k` for each `k`, paired with `e`: every `q k` is one of the positions `p idx`, and the pairing
grows by the sum of `w k * e (q k)`. -/
theorem pair_scatter [CommRing R] {s rg : List Nat} {p q : List Nat → Nat} (w a e : List Nat → R) (e' : List Nat → R)
    (hinj : ∀ x y, InBox s x → InBox s y → p x = p y → x = y)
    (hq : ∀ k, InBox rg k → ∃ idx, InBox s idx ∧ p idx = q k ∧ e' k = e idx) :
    boxSum s (fun idx => (a idx + (((rowMajor rg).filter fun k => q k = p idx).map w).sum) * e idx) =
      boxSum s (fun idx => a idx * e idx) + boxSum rg fun k => w k * e' k := by
  rw [show (fun idx => (a idx + (((rowMajor rg).filter fun k => q k = p idx).map w).sum) * e idx) =
    fun idx => a idx * e idx + (((rowMajor rg).filter fun k => q k = p idx).map w).sum * e idx from
      funext fun idx => add_mul _ _ _, boxSum_add]
  congr 1
  have : ∀ idx, (((rowMajor rg).filter fun k => q k = p idx).map w).sum * e idx =
      boxSum rg fun k => if q k = p idx then w k * e idx else 0 := fun idx => by
    rw [sum_filter, ← List.sum_map_mul_right]
    unfold boxSum
    congr 1
    refine List.map_congr_left fun k _ => ?_
    split
    · rfl
    · rw [zero_mul]
  rw [boxSum_congr fun idx _ => this idx, boxSum_swap]
  refine boxSum_congr fun k hk => ?_
  obtain ⟨idx, hi, hp, he⟩ := hq k hk
  rw [boxSum_single hi, if_pos hp.symm, he]
  intro j hj hne
  rw [if_neg]
  intro h
  exact hne (hinj j idx hj hi (by rw [hp, h]))

theorem boxSum_cons [AddCommMonoid R] (k : Nat) (s : List Nat) (g : List Nat → R) :
    boxSum (k :: s) g = ((List.range k).map fun i => boxSum s fun idx => g (i :: idx)).sum := by
  show ((rowMajor (k :: s)).map g).sum = _
  rw [rowMajor, List.map_flatMap, List.flatMap_def, List.sum_flatten]
  simp only [List.map_map]
  rfl

/-- Splitting a shape along an axis. -/
theorem boxSum_split [AddCommMonoid R] : ∀ (s : List Nat) (d m n : Nat) (f : List Nat → R), d < s.length →
    boxSum (s.set d (m + n)) f = boxSum (s.set d m) f + boxSum (s.set d n) fun idx => f (idx.modify d (· + m))
  | [], d, m, n, f, h => by simp at h
  | a :: s, 0, m, n, f, _ => by
    simp only [List.set_cons_zero]
    rw [boxSum_cons, boxSum_cons, boxSum_cons, List.range_add, List.map_append, List.sum_append, List.map_map]
    congr 2
    refine List.map_congr_left fun i _ => ?_
    simp only [Function.comp, List.modify_zero_cons, Nat.add_comm]
  | a :: s, d + 1, m, n, f, h => by
    simp only [List.set_cons_succ]
    rw [boxSum_cons, boxSum_cons, boxSum_cons, ← List.sum_map_add]
    congr 1
    refine List.map_congr_left fun i _ => ?_
    rw [boxSum_split s d m n _ (by simpa using h)]
    rfl
end

/-! ### The tensor that owns the gradient of a view -/

/-- The tensor a view was made of. -/
def baseOf (h : Heap F) (x : Nat) : Option Nat :=
  match opOf h x with
  | some g => if g.kind = .noBack then g.inputs.head? else none
  | none => none

/-- The first tensor on the way from a view to the tensor it was made of that is not a view. -/
def owner (h : Heap F) (x : Nat) : Nat :=
  match baseOf h x with
  | some b => if _hb : b < x then owner h b else x
  | none => x
termination_by x

theorem owner_self {h : Heap F} {x : Nat} (hx : ¬ IsView h x) : owner h x = x := by
  have : baseOf h x = none := by
    unfold baseOf
    split
    · next g hg => exact if_neg fun hk => hx ⟨g, hg, hk⟩
    · rfl
  unfold owner
  rw [this]

theorem Spec.IsView.base {h : Heap F} (hg : Graph h) {x : Nat} (hx : IsView h x) :
    ∃ b g, opOf h x = some g ∧ g.kind = .noBack ∧ g.inputs = [b] ∧ Uses h x b ∧ b < x ∧ owner h x = owner h b := by
  obtain ⟨g, hgx, hk⟩ := hx
  have ha := hg.arity x g hgx
  rw [hk] at ha
  obtain ⟨b, hb⟩ := length_one ha
  have hu : Uses h x b := by unfold Uses operands; rw [hgx]; simp [hb]
  have hlt := hg.older x b hu
  refine ⟨b, g, hgx, hk, hb, hu, hlt, ?_⟩
  conv_lhs => unfold owner
  have : baseOf h x = some b := by unfold baseOf; rw [hgx]; simp [hk, hb]
  rw [this]
  simp [hlt]

theorem owner_le {h : Heap F} (hg : Graph h) : ∀ x, owner h x ≤ x := by
  intro x
  induction x using Nat.strong_induction_on with
  | _ x ih =>
    by_cases hx : IsView h x
    · obtain ⟨b, g, _, _, _, _, hlt, e⟩ := hx.base hg
      rw [e]; have := ih b hlt; omega
    · rw [owner_self hx]

theorem owner_not_view {h : Heap F} (hg : Graph h) : ∀ x, ¬ IsView h (owner h x) := by
  intro x
  induction x using Nat.strong_induction_on with
  | _ x ih =>
    by_cases hx : IsView h x
    · obtain ⟨b, g, _, _, _, _, hlt, e⟩ := hx.base hg
      rw [e]; exact ih b hlt
    · rw [owner_self hx]; exact hx

theorem owner_owner {h : Heap F} (hg : Graph h) (x : Nat) : owner h (owner h x) = owner h x :=
  owner_self (owner_not_view hg x)

section
variable [Field F]

theorem shapeOf_some {h : Heap F} {x : Nat} {i : Impl} (hi : h.ts[x]? = some i) : shapeOf h x = i.view.sizes := by
  unfold shapeOf; rw [hi]; rfl

/-- The owner of a tensor that requires grad. -/
theorem owner_needs {h : Heap F} {t : Nat} (hg : Graph h) (hp : Prepared h t) : ∀ {x : Nat}, Needs h t x →
    Needs h t (owner h x) ∧ gradStore h (owner h x) = gradStore h x ∧
    (h.ts[x]?).map (·.dtype) = (h.ts[owner h x]?).map (·.dtype) := by
  intro x
  induction x using Nat.strong_induction_on with
  | _ x ih =>
    intro hn
    by_cases hx : IsView h x
    · obtain ⟨b, g, _, _, _, hu, hlt, e⟩ := hx.base hg
      obtain ⟨h1, h2, h3, h4⟩ := hp.view x b hn hx hu
      obtain ⟨k1, k2, k3⟩ := ih b hlt h1
      rw [e]
      exact ⟨k1, k2.trans h3.symm, h4.trans k3⟩
    · rw [owner_self hx]; exact ⟨hn, rfl, rfl⟩

/-- The elements of a view are elements of its owner. -/
theorem owner_elems [FOps F] {h : Heap F} {t : Nat} {u : Nat → List Nat → DualNumber F} (hg : Graph h) (hp : Prepared h t)
    (hl : Tangent h t u) : ∀ {x : Nat}, Needs h t x → ∀ {i o : Impl}, h.ts[x]? = some i → h.ts[owner h x]? = some o →
    ∀ idx, InBox i.view.sizes idx → ∃ idx', InBox o.view.sizes idx' ∧ position o.view idx' = position i.view idx ∧
      (u x idx).snd = (u (owner h x) idx').snd := by
  intro x
  induction x using Nat.strong_induction_on with
  | _ x ih =>
    intro hn i o hi ho idx hb
    by_cases hx : IsView h x
    · obtain ⟨b, g, hgx, hk, hin, hu, hlt, e⟩ := hx.base hg
      have hc := hl.op x g hn.1 hgx fun _ ⟨_, g', h1, h2, _⟩ => by rw [hgx] at h1; injection h1 with h1; subst h1; rw [hk] at h2; cases h2
      rw [hk, hin] at hc
      obtain ⟨i', j, hi', hj, hall⟩ := (hc : ViewOf h (fun y k => (u y k).snd) x b)
      rw [hi] at hi'; injection hi' with hi'; subst hi'
      obtain ⟨k, hk1, hk2, hk3⟩ := hall idx hb
      rw [e] at ho ⊢
      obtain ⟨k', q1, q2, q3⟩ := ih b hlt (hp.view x b hn hx hu).1 hj ho k hk1
      exact ⟨k', q1, q2.trans hk2, hk3.trans q3⟩
    · rw [owner_self hx] at ho ⊢
      rw [hi] at ho; injection ho with ho; subst ho
      exact ⟨idx, hb, rfl, rfl⟩

/-- Views lie inside their owners. -/
theorem owner_closed {h : Heap F} {t : Nat} (hg : Graph h) (hp : Prepared h t) {P : List Nat}
    (hcl : ∀ b ∈ P, ∀ y, From h t y → Uses h y b → y ∈ P) : ∀ {x : Nat}, Needs h t x → x ∉ P → owner h x ∉ P := by
  intro x
  induction x using Nat.strong_induction_on with
  | _ x ih =>
    intro hn hxP
    by_cases hx : IsView h x
    · obtain ⟨b, g, _, _, _, hu, hlt, e⟩ := hx.base hg
      rw [e]
      exact ih b hlt (hp.view x b hn hx hu).1 fun hb => hxP (hcl b hb x hn.1 hu)
    · rw [owner_self hx]; exact hxP

end
end INNC
