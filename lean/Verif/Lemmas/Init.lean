import Verif.Lemmas.Build
import Verif.Spec.Init
import Mathlib.Data.List.Forall2
/-
Lemmas on nested initialiser lists.
-/
namespace INNC
open Spec Tensor
variable {F : Type}

theorem getElem?_flatMap_const {α β : Type} (f : α → List β) (n : Nat) : ∀ (l : List α) (_ : ∀ a ∈ l, (f a).length = n) (k j : Nat) (a : α),
    l[k]? = some a → j < n → (l.flatMap f)[k * n + j]? = (f a)[j]?
  | x :: l, hl, 0, j, a, ha, hj => by
    obtain rfl : x = a := by simpa using ha
    rw [List.flatMap_cons, Nat.zero_mul, Nat.zero_add, List.getElem?_append_left (by rw [hl x (by simp)]; exact hj)]
  | x :: l, hl, k + 1, j, a, ha, hj => by
    have hx := hl x (by simp)
    rw [List.flatMap_cons, List.getElem?_append_right (by rw [hx, Nat.add_mul]; omega), hx,
      show (k + 1) * n + j - n = k * n + j by rw [Nat.add_mul]; omega]
    exact getElem?_flatMap_const f n l (fun b hb => hl b (by simp [hb])) k j a (by simpa using ha) hj
  | [], _, _, _, _, ha, _ => by simp at ha

/-- What a successful evaluation yields. -/
structure Good (tree : InitTree F) (x : TInit F) (dt : DType) : Prop where
  uniform : Uniform dt x.shape tree
  type : x.dtype = some dt
  len : x.data.length = vol x.shape
  entries : ∀ idx, InBox x.shape idx → entry idx tree = x.data[rank x.shape idx]?

/-- Either a uniform tensor or a mismatch. -/
def Evals (tree : InitTree F) : Prop :=
  (∃ x dt, initEval tree = .ok x ∧ Good tree x dt) ∨
    (initEval tree = .throw .invalidArgument ∧ ∀ dt s, ¬ Uniform dt s tree)

theorem uniform_shape : ∀ {s s' : List Nat} {dt dt' : DType} {t : InitTree F}, Uniform dt s t → Uniform dt' s' t →
    s = s' ∧ dt = dt'
  | [], _, _, _, .leaf _ _, h, _ => by simp [Uniform] at h
  | [], _, _, _, .node _, h, _ => by simp [Uniform] at h
  | _, [], _, _, .leaf _ _, _, h => by simp [Uniform] at h
  | _, [], _, _, .node _, _, h => by simp [Uniform] at h
  | n :: s, n' :: s', dt, dt', .leaf t vals, h, h' => by
    cases s with
    | cons => simp [Uniform] at h
    | nil =>
      cases s' with
      | cons => simp [Uniform] at h'
      | nil => simp only [Uniform] at h h'; exact ⟨by rw [← h.2, ← h'.2], by rw [← h.1, ← h'.1]⟩
  | n :: s, n' :: s', dt, dt', .node args, h, h' => by
    have h : args.length = n ∧ n ≠ 0 ∧ ∀ a ∈ args, Uniform dt s a := by cases s <;> exact h
    have h' : args.length = n' ∧ n' ≠ 0 ∧ ∀ a ∈ args, Uniform dt' s' a := by cases s' <;> exact h'
    cases args with
    | nil => simp only [List.length_nil] at h; exact absurd h.1.symm h.2.1
    | cons a args =>
      obtain ⟨rfl, rfl⟩ := uniform_shape (h.2.2 a (by simp)) (h'.2.2 a (by simp))
      exact ⟨by rw [← h.1, ← h'.1], rfl⟩

theorem sameSpec_some {a b : TInit F} {x y : DType} (ha : a.dtype = some x) (hb : b.dtype = some y) :
    sameSpec a b = .ok (decide (a.shape = b.shape ∧ x = y)) := by
  unfold sameSpec
  split
  · rename_i h
    rw [ha, hb]; simp [h]
  · rename_i h
    simp [h]

theorem allSame_some {first : TInit F} {dt : DType} (hf : first.dtype = some dt) : ∀ (l : List (TInit F)),
    (∀ x ∈ l, ∃ d, x.dtype = some d) →
    allSame first l = .ok (l.all fun x => decide (x.shape = first.shape ∧ x.dtype = first.dtype))
  | [], _ => rfl
  | x :: l, hl => by
    obtain ⟨d, hd⟩ := hl x (by simp)
    unfold allSame
    rw [sameSpec_some hd hf]
    have ih := allSame_some hf l fun y hy => hl y (by simp [hy])
    simp only [List.all_cons, hd, hf, Option.some.injEq] at ih ⊢
    by_cases hc : x.shape = first.shape ∧ d = dt
    · simp only [hc, and_self, decide_true, Bool.true_and]
      exact ih
    · rw [decide_eq_false hc]
      rfl

theorem forall₂_get {α β : Type} {R : α → β → Prop} {l : List α} {m : List β} (h : List.Forall₂ R l m) :
    ∀ {k : Nat} {a : α}, l[k]? = some a → ∃ b, m[k]? = some b ∧ R a b := by
  induction h with
  | nil => intro k a ha; simp at ha
  | cons hab _ ih =>
    intro k a ha
    cases k with
    | zero => simp at ha; subst ha; exact ⟨_, rfl, hab⟩
    | succ k => simpa using ih (by simpa using ha)

theorem forall₂_mem_right {α β : Type} {R : α → β → Prop} {l : List α} {m : List β} (h : List.Forall₂ R l m) :
    ∀ {b : β}, b ∈ m → ∃ a ∈ l, R a b := by
  induction h with
  | nil => intro b hb; simp at hb
  | cons hab _ ih =>
    intro b hb
    rcases List.mem_cons.1 hb with rfl | hb
    · exact ⟨_, by simp, hab⟩
    · obtain ⟨a, ha, hr⟩ := ih hb
      exact ⟨a, by simp [ha], hr⟩

theorem uniform_node {dt : DType} {n : Nat} {s : List Nat} {args : List (InitTree F)} :
    Uniform dt (n :: s) (.node args) ↔ args.length = n ∧ n ≠ 0 ∧ ∀ a ∈ args, Uniform dt s a := by
  cases s <;> exact Iff.rfl

theorem entry_node {k : Nat} {idx : List Nat} {args : List (InitTree F)} :
    entry (k :: idx) (.node args) = (args[k]?).bind (entry idx) := by cases idx <;> rfl

/-- The node case: the entries have been evaluated. -/
theorem initNode_cases {a : InitTree F} {as : List (InitTree F)} {x : TInit F} {xs : List (TInit F)} {dt : DType}
    (hx : Good a x dt) (hf : List.Forall₂ (fun a x => ∃ dt, Good a x dt) (a :: as) (x :: xs)) :
    (∃ y dt, initNode (x :: xs) = .ok y ∧ Good (.node (a :: as)) y dt) ∨
      (initNode (x :: xs) = .throw .invalidArgument ∧ ∀ dt s, ¬ Uniform dt s (.node (a :: as))) := by
  have hs := allSame_some hx.type (x :: xs) fun y hy => by
    obtain ⟨_, _, d, hg⟩ := forall₂_mem_right hf hy
    exact ⟨d, hg.type⟩
  unfold initNode
  simp only
  rw [hs]
  cases hall : (x :: xs).all fun y => decide (y.shape = x.shape ∧ y.dtype = x.dtype) with
  | true =>
    have hall' : ∀ y ∈ x :: xs, y.shape = x.shape ∧ y.dtype = x.dtype := by
      intro y hy
      have := (List.all_eq_true.1 hall) y hy
      simpa using this
    have hlen : (a :: as).length = (x :: xs).length := hf.length_eq
    have hgood : ∀ {k : Nat} {b : InitTree F}, (a :: as)[k]? = some b → ∃ y, (x :: xs)[k]? = some y ∧ y.shape = x.shape ∧ Good b y dt := by
      intro k b hb
      obtain ⟨y, hy, d, hg⟩ := forall₂_get hf hb
      have := hall' y (List.mem_of_getElem? hy)
      refine ⟨y, hy, this.1, ?_⟩
      have hd := hg.type
      rw [this.2, hx.type] at hd
      obtain rfl := Option.some.inj hd
      exact hg
    refine .inl ⟨⟨(x :: xs).flatMap (·.data), (xs.length + 1) :: x.shape, x.dtype⟩, dt, rfl, ?_, hx.type, ?_, ?_⟩
    · refine uniform_node.2 ⟨by simpa using hlen, by omega, fun b hb => ?_⟩
      obtain ⟨k, hk⟩ := List.getElem?_of_mem hb
      obtain ⟨y, _, e, hg⟩ := hgood hk
      rw [← e]; exact hg.uniform
    · rw [length_flatMap_const _ _ (vol x.shape)]
      · simp [vol]
      · intro y hy
        obtain ⟨_, _, d, hg⟩ := forall₂_mem_right hf hy
        rw [hg.len, (hall' y hy).1]
    · intro idx hb
      match idx, hb with
      | k :: idx, hb =>
        obtain ⟨hk, hb⟩ := hb
        obtain ⟨b, hbk⟩ : ∃ b, (a :: as)[k]? = some b := ⟨_, List.getElem?_eq_getElem (by rw [hlen]; simpa using hk)⟩
        obtain ⟨y, hy, e, hg⟩ := hgood hbk
        have hent : entry (k :: idx) (.node (a :: as)) = entry idx b := by
          rw [entry_node, hbk]; rfl
        rw [hent, hg.entries idx (by rw [e]; exact hb)]
        show _ = ((x :: xs).flatMap (·.data))[k * vol x.shape + rank x.shape idx]?
        rw [getElem?_flatMap_const (·.data) (vol x.shape) _ (fun z hz => ?_) k _ y hy (rank_lt hb), e]
        obtain ⟨_, _, d, hg⟩ := forall₂_mem_right hf hz
        rw [hg.len, (hall' z hz).1]
  | false =>
    refine .inr ⟨rfl, fun d s hu => ?_⟩
    obtain ⟨y, hy, hne⟩ := List.all_eq_false.1 hall
    apply hne
    cases s with
    | nil => simp [Uniform] at hu
    | cons n s =>
      have hu := (uniform_node.1 hu).2.2
      obtain ⟨b, hb, d', hg⟩ := forall₂_mem_right hf hy
      obtain ⟨e1, e2⟩ := uniform_shape hg.uniform (hu b hb)
      obtain ⟨e3, e4⟩ := uniform_shape hx.uniform (hu a (by simp))
      rw [decide_eq_true_iff]
      exact ⟨by rw [e1, e3], by rw [hg.type, hx.type, e2, e4]⟩

mutual
theorem initEval_cases : ∀ (t : InitTree F), Proper t → Evals t
  | .leaf dt vals, _ => .inl ⟨⟨vals, [vals.length], some dt⟩, dt, by unfold initEval; rfl, ⟨rfl, rfl⟩, rfl, by simp [vol], by
      intro idx hb
      match idx, hb with
      | [k], _ => simp [entry, rank, vol]⟩
  | .node args, hp => by
    have hp' : args ≠ [] ∧ ∀ a ∈ args, Proper a := by cases hp with | node _ h1 h2 => exact ⟨h1, h2⟩
    rcases evalList_cases args hp'.2 with ⟨xs, e, hg⟩ | ⟨e, hu⟩
    · cases hg with
      | nil => exact absurd rfl hp'.1
      | @cons a x as xs hax hrest =>
        obtain ⟨dt, hgx⟩ := hax
        unfold Evals initEval
        rw [e]
        exact initNode_cases hgx (.cons ⟨dt, hgx⟩ hrest)
    · refine .inr ⟨by unfold initEval; rw [e]; rfl, fun dt s hn => ?_⟩
      obtain ⟨a, ha, hu⟩ := hu
      cases s with
      | nil => simp [Uniform] at hn
      | cons n s => exact hu dt s ((uniform_node.1 hn).2.2 a ha)
theorem evalList_cases : ∀ (l : List (InitTree F)), (∀ a ∈ l, Proper a) →
    (∃ xs, initEval.evalList l = .ok xs ∧ List.Forall₂ (fun a x => ∃ dt, Good a x dt) l xs) ∨
      (initEval.evalList l = .throw .invalidArgument ∧ ∃ a ∈ l, ∀ dt s, ¬ Uniform dt s a)
  | [], _ => .inl ⟨[], by unfold initEval.evalList; rfl, .nil⟩
  | a :: l, hp => by
    unfold initEval.evalList
    rcases initEval_cases a (hp a (by simp)) with ⟨x, dt, e, hg⟩ | ⟨e, hu⟩
    · rcases evalList_cases l fun b hb => hp b (by simp [hb]) with ⟨xs, e', hg'⟩ | ⟨e', hu⟩
      · exact .inl ⟨x :: xs, by rw [e, e']; rfl, .cons ⟨dt, hg⟩ hg'⟩
      · exact .inr ⟨by rw [e, e']; rfl, by obtain ⟨b, hb, hn⟩ := hu; exact ⟨b, by simp [hb], hn⟩⟩
    · exact .inr ⟨by rw [e]; rfl, a, by simp, hu⟩
end

theorem uniform_proper : ∀ {s : List Nat} {dt : DType} {t : InitTree F}, Uniform dt s t → Proper t
  | [], _, .leaf _ _, h => by simp [Uniform] at h
  | [], _, .node _, h => by simp [Uniform] at h
  | _ :: _, _, .leaf dt vals, _ => .leaf dt vals
  | n :: s, _, .node args, h => by
    have h := uniform_node.1 h
    refine .node args ?_ fun a ha => uniform_proper (h.2.2 a ha)
    rintro rfl
    exact h.2.1 h.1.symm

theorem entry_typed : ∀ {s : List Nat} {dt : DType} {t : InitTree F} {idx : List Nat} {v : Val F}, Uniform dt s t → Typed t →
    entry idx t = some v → v.HasType dt
  | [], _, .leaf _ _, _, _, h, _, _ => by simp [Uniform] at h
  | [], _, .node _, _, _, h, _, _ => by simp [Uniform] at h
  | n :: s, dt, .leaf t vals, idx, v, h, ht, he => by
    cases s with
    | cons => simp [Uniform] at h
    | nil =>
      obtain ⟨rfl, _⟩ := h
      cases ht with
      | leaf _ _ ht =>
        match idx, he with
        | [k], he => exact ht v (List.mem_of_getElem? he)
  | n :: s, dt, .node args, idx, v, h, ht, he => by
    have h := uniform_node.1 h
    cases ht with
    | node _ ht =>
      match idx, he with
      | k :: idx, he =>
        rw [entry_node] at he
        obtain ⟨a, ha, he⟩ := Option.bind_eq_some_iff.1 he
        have hm := List.mem_of_getElem? ha
        exact entry_typed (h.2.2 a hm) (ht a hm) he

theorem ofInit_ok {tree : InitTree F} {dt : DType} {s : List Nat} (hu : Uniform dt s tree) (ht : Typed tree)
    (hsz : vol s * dt.size < 9223372036854775808) (h : Heap F) (g : List Nat → Val F)
    (hg : ∀ idx, InBox s idx → entry idx tree = some (g idx)) :
    ∃ h', ofInit tree h = .ok (some h.ts.length) h' ∧ Built h h' h.ts.length dt s g none ∧
      Sized h' h.ts.length (vol s) := by
  rcases initEval_cases tree (uniform_proper hu) with ⟨x, dt', e, hx⟩ | ⟨_, hn⟩
  swap
  · exact absurd hu (hn dt s)
  obtain ⟨e1, rfl⟩ := uniform_shape hx.uniform hu
  have hv := vol_lt_of_bytes hsz
  have hne : x.shape ≠ [] := by
    intro hc
    have := hx.uniform
    rw [hc] at this
    cases tree <;> simp [Uniform] at this
  unfold ofInit
  rw [e, M.bind_ok (M.lift_ok _ _)]
  unfold createImpl
  rw [if_neg hne, hx.type]
  subst e1
  have hc : create dt' (Layout.contig x.shape) false h = .ok h.ts.length
      { st := h.st ++ [⟨dt', wrapU (dt'.size * numel x.shape), none⟩], ts := h.ts ++ [newImpl dt' x.shape h.st.length], gver := h.gver } := rfl
  simp only
  rw [M.bind_ok hc, M.bind_ok (getT_ok (i := newImpl dt' x.shape h.st.length) (by simp)),
    M.bind_ok (getS_ok (s := ⟨dt', wrapU (dt'.size * numel x.shape), none⟩) (by simp [newImpl]))]
  refine ⟨_, rfl, ⟨?_, ?_, ?_, ?_, rfl⟩, newImpl dt' x.shape h.st.length,
    ⟨dt', wrapU (dt'.size * numel x.shape), some (x.data.map some)⟩, x.data.map some, by simp, by simp [newImpl], rfl,
    by rw [List.length_map, hx.len]⟩
  · refine ⟨newImpl dt' x.shape h.st.length, by simp, rfl, rfl, length_contigStrides _, by show (0:Nat) < _; decide,
      ⟨⟨dt', wrapU (dt'.size * numel x.shape), some (x.data.map some)⟩, x.data.map some, by simp [newImpl], rfl, rfl, ?_, ?_⟩, ?_⟩
    · rw [List.length_map, hx.len]; exact hv
    · intro idx hb
      refine ⟨rank x.shape idx, contig_position hv hb, ?_⟩
      rw [List.getElem?_map, ← hx.entries idx hb, hg idx hb]; rfl
    · intro idx hb
      exact entry_typed hu ht (hg idx hb)
  · refine ⟨fun t i hi => ?_, fun d s hs => ?_⟩
    · show (h.ts ++ _)[t]? = _
      rw [List.getElem?_append_left (getElem?_lt hi)]; exact hi
    · show ((h.st ++ _).set h.st.length _)[d]? = _
      rw [List.getElem?_set_ne (by have := getElem?_lt hs; omega), List.getElem?_append_left (getElem?_lt hs)]; exact hs
  · exact ⟨le_refl _, newImpl dt' x.shape h.st.length, by simp, le_refl _⟩
  · exact ⟨h.st.length, by simp [newImpl], le_refl _⟩

theorem ofInit_throw {tree : InitTree F} (hp : Proper tree) (hn : ∀ dt s, ¬ Uniform dt s tree) (h : Heap F) :
    ofInit tree h = .throw .invalidArgument h := by
  rcases initEval_cases tree hp with ⟨x, dt, _, hg⟩ | ⟨e, _⟩
  · exact absurd hg.uniform (hn _ _)
  · unfold ofInit
    rw [e]; rfl

end INNC
