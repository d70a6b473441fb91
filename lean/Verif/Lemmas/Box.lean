import Verif.Spec.Index
import Mathlib.Tactic.Ring
import Mathlib.Tactic.Linarith
/-
Facts about multi-indices and row-major order.
-/
namespace INNC.Spec

instance decInBox : (sizes idx : List Nat) → Decidable (InBox sizes idx)
  | [], [] => isTrue trivial
  | n :: ns, i :: is =>
    match decInBox ns is with
    | isTrue h => if hi : i < n then isTrue ⟨hi, h⟩ else isFalse fun h' => hi h'.1
    | isFalse h => isFalse fun h' => h h'.2
  | [], _ :: _ => isFalse id
  | _ :: _, [] => isFalse id

theorem InBox.length : ∀ {sizes idx : List Nat}, InBox sizes idx → idx.length = sizes.length
  | [], [], _ => rfl
  | n :: ns, i :: is, h => by simp [InBox.length h.2]
  | [], _ :: _, h => h.elim
  | _ :: _, [], h => h.elim

theorem mem_rowMajor : ∀ {sizes idx : List Nat}, idx ∈ rowMajor sizes ↔ InBox sizes idx
  | [], [] => by simp [rowMajor, InBox]
  | [], _ :: _ => by simp [rowMajor, InBox]
  | n :: ns, [] => by simp [rowMajor, InBox]
  | n :: ns, i :: is => by
    simp only [rowMajor, List.mem_flatMap, List.mem_range, List.mem_map, List.cons.injEq, InBox]
    constructor
    · rintro ⟨j, hj, x, hx, rfl, rfl⟩; exact ⟨hj, mem_rowMajor.1 hx⟩
    · rintro ⟨h1, h2⟩; exact ⟨i, h1, is, mem_rowMajor.2 h2, rfl, rfl⟩

theorem length_flatMap_const {α β : Type} (l : List α) (f : α → List β) (k : Nat) (h : ∀ a ∈ l, (f a).length = k) :
    (l.flatMap f).length = l.length * k := by
  induction l with
  | nil => simp
  | cons a l ih =>
    rw [List.flatMap_cons, List.length_append, h a (by simp), ih (fun b hb => h b (by simp [hb]))]
    simp; ring

theorem length_rowMajor : ∀ sizes : List Nat, (rowMajor sizes).length = vol sizes
  | [] => rfl
  | n :: ns => by
    rw [rowMajor, length_flatMap_const _ _ (vol ns) (fun a _ => by simp [length_rowMajor ns])]
    simp [vol]

/-- Lexicographic order of indices. -/
theorem pairwise_rowMajor : ∀ sizes : List Nat, (rowMajor sizes).Pairwise (· < ·)
  | [] => by simp [rowMajor]
  | n :: ns => by
    rw [rowMajor, List.pairwise_flatMap]
    refine ⟨fun a _ => ?_, ?_⟩
    · rw [List.pairwise_map]
      exact (pairwise_rowMajor ns).imp fun {x y} h => by simpa using h
    · refine (List.pairwise_lt_range).imp fun {x y} h => ?_
      intro a ha b hb
      simp only [List.mem_map] at ha hb
      obtain ⟨a', _, rfl⟩ := ha
      obtain ⟨b', _, rfl⟩ := hb
      exact List.cons_lt_cons_iff.2 (Or.inl h)

theorem nodup_rowMajor (sizes : List Nat) : (rowMajor sizes).Nodup :=
  (pairwise_rowMajor sizes).imp fun {a b} h => by
    intro hab; subst hab; exact List.lt_irrefl a h

theorem rank_lt : ∀ {sizes idx : List Nat}, InBox sizes idx → rank sizes idx < vol sizes
  | [], [], _ => by simp [rank, vol]
  | n :: ns, i :: is, h => by
    have := rank_lt h.2
    have h1 := h.1
    simp only [rank, vol]
    calc i * vol ns + rank ns is < i * vol ns + vol ns := by omega
      _ = (i + 1) * vol ns := by ring
      _ ≤ n * vol ns := Nat.mul_le_mul_right _ h1
  | [], _ :: _, h => h.elim
  | _ :: _, [], h => h.elim

theorem rank_inj : ∀ {sizes idx idx' : List Nat}, InBox sizes idx → InBox sizes idx' →
    rank sizes idx = rank sizes idx' → idx = idx'
  | [], [], [], _, _, _ => rfl
  | n :: ns, i :: is, j :: js, h, h', he => by
    simp only [rank] at he
    have hi := rank_lt h.2
    have hj := rank_lt h'.2
    have : i = j := by
      have h1 := congrArg (· / vol ns) he
      have e1 : (i * vol ns + rank ns is) / vol ns = i := by
        rw [Nat.mul_comm, Nat.mul_add_div (by omega), Nat.div_eq_of_lt hi, Nat.add_zero]
      have e2 : (j * vol ns + rank ns js) / vol ns = j := by
        rw [Nat.mul_comm, Nat.mul_add_div (by omega), Nat.div_eq_of_lt hj, Nat.add_zero]
      simpa [e1, e2] using h1
    subst this
    have : rank ns is = rank ns js := by omega
    rw [rank_inj h.2 h'.2 this]
  | [], _ :: _, _, h, _, _ => h.elim
  | _ :: _, [], _, h, _, _ => h.elim
  | [], [], _ :: _, _, h, _ => h.elim
  | _ :: _, _ :: _, [], _, h, _ => h.elim

/-- The index of a given rank. -/
def unrank : List Nat → Nat → List Nat
  | [], _ => []
  | _ :: ns, k => k / vol ns :: unrank ns (k % vol ns)

theorem unrank_inBox : ∀ {sizes : List Nat} {k : Nat}, k < vol sizes → InBox sizes (unrank sizes k)
  | [], _, _ => trivial
  | n :: ns, k, h => by
    simp only [vol] at h
    have hp : 0 < vol ns := Nat.pos_of_ne_zero fun h0 => by simp [h0] at h
    exact ⟨Nat.div_lt_of_lt_mul (by rwa [Nat.mul_comm]), unrank_inBox (Nat.mod_lt _ hp)⟩

theorem rank_unrank : ∀ {sizes : List Nat} {k : Nat}, k < vol sizes → rank sizes (unrank sizes k) = k
  | [], k, h => by simp [vol] at h; simp [rank, h]
  | n :: ns, k, h => by
    simp only [vol] at h
    have hp : 0 < vol ns := Nat.pos_of_ne_zero fun h0 => by simp [h0] at h
    simp only [unrank, rank, rank_unrank (Nat.mod_lt _ hp)]
    rw [Nat.mul_comm]; exact Nat.div_add_mod k (vol ns)

theorem unrank_rank {sizes idx : List Nat} (h : InBox sizes idx) : unrank sizes (rank sizes idx) = idx :=
  rank_inj (unrank_inBox (rank_lt h)) h (rank_unrank (rank_lt h))

theorem rowMajor_eq_map_unrank : ∀ sizes : List Nat,
    rowMajor sizes = (List.range (vol sizes)).map (unrank sizes)
  | [] => by simp [rowMajor, vol, unrank, List.range_succ]
  | n :: ns => by
    have key : ∀ n, ((List.range n).flatMap fun i => (rowMajor ns).map (i :: ·)) =
        (List.range (n * vol ns)).map (unrank (n :: ns)) := by
      intro n
      induction n with
      | zero => simp
      | succ m ih =>
        rw [List.range_succ, List.flatMap_append, ih]
        simp only [List.flatMap_cons, List.flatMap_nil, List.append_nil]
        rw [Nat.succ_mul, List.range_add, List.map_append, rowMajor_eq_map_unrank ns]
        congr 1
        rw [List.map_map, List.map_map]
        apply List.map_congr_left
        intro k hk
        rw [List.mem_range] at hk
        have hp : 0 < vol ns := by omega
        simp only [Function.comp, unrank]
        rw [Nat.mul_comm m, Nat.mul_add_div hp, Nat.div_eq_of_lt hk, Nat.mul_add_mod, Nat.mod_eq_of_lt hk]
        simp
    simpa [rowMajor, vol] using key n

theorem rowMajor_getElem? {sizes idx : List Nat} (h : InBox sizes idx) :
    (rowMajor sizes)[rank sizes idx]? = some idx := by
  rw [rowMajor_eq_map_unrank, List.getElem?_map, List.getElem?_range (rank_lt h)]
  simp [unrank_rank h]

theorem vol_eq_zero {sizes : List Nat} : vol sizes = 0 ↔ 0 ∈ sizes := by
  induction sizes with
  | nil => simp [vol]
  | cons n ns ih => simp [vol, ih, eq_comm]

theorem vol_pos_iff {sizes : List Nat} : 0 < vol sizes ↔ 0 ∉ sizes := by
  rw [Nat.pos_iff_ne_zero, ne_eq, vol_eq_zero]

theorem InBox.vol_pos {sizes idx : List Nat} (h : InBox sizes idx) : 0 < vol sizes := by
  have := rank_lt h; omega

theorem vol_append (a b : List Nat) : vol (a ++ b) = vol a * vol b := by
  induction a with
  | nil => simp [vol]
  | cons n ns ih => simp [vol, ih]; ring

theorem vol_reverse (a : List Nat) : vol a.reverse = vol a := by
  induction a with
  | nil => rfl
  | cons n ns ih => simp [vol, vol_append, ih]; ring

theorem length_rmStrides (sizes : List Nat) : (rmStrides sizes).length = sizes.length := by
  induction sizes with
  | nil => rfl
  | cons n ns ih => simp [rmStrides, ih]

theorem dot_rmStrides : ∀ {sizes idx : List Nat}, idx.length = sizes.length →
    dot (rmStrides sizes) idx = rank sizes idx
  | [], [], _ => rfl
  | n :: ns, i :: is, h => by
    simp only [rmStrides, dot, rank, dot_rmStrides (sizes := ns) (idx := is) (by simpa using h)]
    push_cast; ring
  | [], _ :: _, h => by simp at h
  | _ :: _, [], h => by simp at h

end INNC.Spec
