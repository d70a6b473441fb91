import Verif.Lemmas.Build
import Verif.Model.Print
import Verif.Spec.Print
import Std.Data.String.ToInt
import Mathlib.Data.List.Forall2
/-
Lemmas on `to_string`.
-/
namespace INNC
open Spec Tensor
variable {F : Type} [FOps F]

theorem elemText_eq (v : Val F) : valToString v = elemText v := by cases v <;> rfl

theorem strLoop_ok {sub : Int → M F Str} {e : Nat} {st off : Int} {n : Nat} {H : Heap F} {T : Nat → List Char}
    (hsub : ∀ k, k < n → sub (wrapS (off + wrapU (k * st * e))) H = .ok (T k) H) : ∀ k, k ≤ n →
    strLoop sub e st off n k H = .ok ((if n - k = 0 then [] else if k = 0 then [] else [',', ' ']) ++
      commas ((List.range' (n - k) k).map T)) H
  | 0, _ => by simp [strLoop, commas, M.pure_run]
  | k + 1, hk => by
    unfold strLoop
    have hs := hsub (n - (k + 1)) (by omega)
    have ih := strLoop_ok hsub k (by omega)
    simp only
    rw [M.bind_ok hs, M.bind_ok ih, M.pure_run]
    congr 1
    rw [List.range'_succ, show n - (k + 1) + 1 = n - k by omega]
    cases k with
    | zero =>
      simp only [List.range'_zero, List.map_nil, List.map_cons, commas]
      split <;> simp
    | succ k =>
      rw [List.range'_succ]
      simp only [List.map_cons, commas]
      rw [if_neg (show ¬ n - (k + 1) = 0 by omega), if_neg (show ¬ k + 1 = 0 by omega), if_neg (show ¬ k + 1 + 1 = 0 by omega)]
      split <;> simp

theorem strHelper_ok {t : Impl} {H : Heap F} : ∀ (ns : List Nat) (sts : List Int) (g : List Nat → Val F) (off : Int),
    sts.length = ns.length → wrapS off = off →
    (∀ idx, InBox ns idx → elemToString t (wrapS (off + dot sts idx * t.dtype.size)) H = .ok (elemText (g idx)) H) →
    strHelper t ns sts off H = .ok (listing ns g) H
  | [], [], g, off, _, hoff, hg => by
    have := hg [] trivial
    simp only [dot, Int.zero_mul, Int.add_zero, hoff] at this
    exact this
  | n :: ns, st :: sts, g, off, hl, hoff, hg => by
    unfold strHelper
    have hsub : ∀ k, k < n → strHelper t ns sts (wrapS (off + wrapU (k * st * t.dtype.size))) H =
        .ok (listing ns fun idx => g (k :: idx)) H := by
      intro k hk
      refine strHelper_ok ns sts _ _ (by simpa using hl) ?_ fun idx hb => ?_
      · exact wrapS_congr (wrapS_emod _)
      · rw [← hg (k :: idx) ⟨hk, hb⟩]
        congr 1
        apply wrapS_congr
        rw [Int.add_emod, wrapS_emod, Int.add_emod off, wrapU_cast]
        simp only [dot, Int.add_mul, Int.emod_emod, Int.add_emod_emod, Int.emod_add_emod]
        congr 1
        rw [Int.add_assoc, Int.mul_comm st k]
    rw [M.bind_ok (strLoop_ok hsub n (le_refl n)), M.pure_run]
    simp [listing, List.range_eq_range']
  | [], _ :: _, _, _, hl, _, _ => by simp at hl
  | _ :: _, [], _, _, hl, _, _ => by simp at hl

theorem toString_ok {h : Heap F} {t : Nat} {dt : DType} {sizes : List Nat} {f : List Nat → Val F}
    (hd : Denotes h t dt sizes f) (ha : Addressable h t) : Tensor.toString t h = .ok (listing sizes f) h := by
  obtain ⟨i, hi, rfl, rfl, hr⟩ := hd
  have ha := ha i hi
  have hload : ∀ idx, InBox i.view.sizes idx →
      elemToString i (wrapS ((i.view.offset * i.dtype.size : Int) + dot i.view.strides idx * i.dtype.size)) h =
        .ok (elemText (f idx)) h := by
    intro idx hb
    obtain ⟨s, cells, hs, hd, hbl, hlen, hc⟩ := hr.cells
    obtain ⟨p, hp, hcp⟩ := hc idx hb
    have hlt := ha idx hb
    have hpos : (i.view.offset * i.dtype.size : Int) + dot i.view.strides idx * i.dtype.size = p * i.dtype.size := by
      rw [← hp, position, Int.add_mul]
    rw [hp] at hlt
    have hsz := i.dtype.size_pos
    have hnn : 0 ≤ (p : Int) * i.dtype.size := by positivity
    rw [hpos, wrapS_eq_self (by omega) hlt]
    unfold elemToString loadByteOff
    rw [if_neg (by simp; omega)]
    have : ((p : Int) * i.dtype.size / i.dtype.size).toNat = p := by
      rw [Int.mul_ediv_cancel _ (by omega)]; simp
    rw [this, M.bind_ok (load_ok hs hd hbl hcp), M.pure_run, elemText_eq]
  unfold Tensor.toString
  rw [M.bind_ok (getT_ok hi)]
  split
  · rename_i hlen
    have hnil := List.length_eq_zero_iff.1 hlen
    have hb : InBox i.view.sizes [] := by rw [hnil]; trivial
    have := hload [] hb
    have hst : i.view.strides = [] := List.length_eq_zero_iff.1 (by rw [hr.strides, hlen])
    have hlt := ha [] hb
    rw [position, hst] at hlt
    rw [hst] at this
    simp only [dot, Int.zero_mul, Int.add_zero] at this hlt
    have hnn : 0 ≤ (i.view.offset : Int) * i.dtype.size := by positivity
    rw [wrapS_eq_self (by omega) hlt] at this
    rw [hnil, wrapU_eq_toNat hnn (by omega), Int.toNat_of_nonneg hnn, this]
    rfl
  · refine strHelper_ok _ _ _ _ hr.strides ?_ ?_
    · exact wrapS_congr (wrapS_emod _)
    · intro idx hb
      have e : wrapS (wrapS (wrapU ((i.view.offset : Int) * i.dtype.size)) + dot i.view.strides idx * i.dtype.size) =
          wrapS ((i.view.offset : Int) * i.dtype.size + dot i.view.strides idx * i.dtype.size) := by
        apply wrapS_congr
        rw [Int.add_emod, wrapS_emod, wrapU_cast, Int.emod_emod, ← Int.add_emod]
      rw [e]
      exact hload idx hb

/-! ### The text determines the tensor -/

/-- The characters of a decimal integer. -/
def isNum (c : Char) : Bool := c.isDigit || c == '-'

omit [FOps F] in
theorem int_text (n : Int) : (toString n).toList ≠ [] ∧ ∀ c ∈ (toString n).toList, isNum c = true := by
  have key : ∀ m : Nat, m.repr.toList ≠ [] ∧ ∀ c ∈ m.repr.toList, isNum c = true := by
    intro m
    rw [Nat.toList_repr]
    refine ⟨Nat.toDigits_ne_nil, fun c hc => ?_⟩
    unfold isNum
    rw [Nat.isDigit_of_mem_toDigits (by decide) (by decide) hc]; rfl
  cases n with
  | ofNat m => exact key m
  | negSucc m =>
    have : (toString (Int.negSucc m)).toList = '-' :: (m + 1).repr.toList := by
      show (Int.repr (Int.negSucc m)).toList = _
      simp [Int.repr]
    rw [this]
    refine ⟨by simp, fun c hc => ?_⟩
    rcases List.mem_cons.1 hc with rfl | hc
    · rfl
    · exact (key _).2 c hc

/-- A text that cannot continue a number. -/
def Stop (r : List Char) : Prop := ∀ c l, r = c :: l → isNum c = false

theorem prefix_split : ∀ {a b r r' : List Char}, (∀ c ∈ a, isNum c = true) → (∀ c ∈ b, isNum c = true) → Stop r → Stop r' →
    a ++ r = b ++ r' → a = b ∧ r = r'
  | [], [], _, _, _, _, _, _, h => ⟨rfl, h⟩
  | [], c :: b, r, _, _, hb, hr, _, h => by
    have := hr c (b ++ _) h
    rw [hb c (by simp)] at this; simp at this
  | c :: a, [], _, r', ha, _, _, hr', h => by
    have := hr' c (a ++ _) h.symm
    rw [ha c (by simp)] at this; simp at this
  | c :: a, d :: b, _, _, ha, hb, hr, hr', h => by
    simp only [List.cons_append, List.cons.injEq] at h
    obtain ⟨rfl, h⟩ := h
    obtain ⟨rfl, h2⟩ := prefix_split (fun c hc => ha c (by simp [hc])) (fun c hc => hb c (by simp [hc])) hr hr' h
    exact ⟨rfl, h2⟩

/-- Elements that are integers. -/
def IntElems (s : List Nat) (f : List Nat → Val F) : Prop := ∀ idx, InBox s idx → ∃ n, f idx = .i n

/-- Reading back a list of items of one shape. -/
theorem commas_inj {ns ms : List Nat}
    (ih : ∀ {f g : List Nat → Val F} {r r' : List Char}, IntElems ns f → IntElems ms g → Stop r → Stop r' →
      listing ns f ++ r = listing ms g ++ r' → ns = ms ∧ (∀ idx, InBox ns idx → f idx = g idx) ∧ r = r') :
    ∀ (L M : List (List Nat → Val F)) (r r' : List Char), L ≠ [] → M ≠ [] → (∀ f ∈ L, IntElems ns f) →
      (∀ g ∈ M, IntElems ms g) →
      commas (L.map (listing ns)) ++ ']' :: r = commas (M.map (listing ms)) ++ ']' :: r' →
      ns = ms ∧ List.Forall₂ (fun f g => ∀ idx, InBox ns idx → f idx = g idx) L M ∧ r = r'
  | [], _, _, _, h, _, _, _, _ => absurd rfl h
  | _, [], _, _, _, h, _, _, _ => absurd rfl h
  | [f], [g], r, r', _, _, hL, hM, h => by
    simp only [List.map_cons, List.map_nil, commas] at h
    obtain ⟨h1, h2, h3⟩ := ih (hL f (by simp)) (hM g (by simp)) (by intro c l h; injection h with h _; subst h; rfl)
      (by intro c l h; injection h with h _; subst h; rfl) h
    exact ⟨h1, .cons h2 .nil, by simpa using h3⟩
  | [f], g :: g' :: M, r, r', _, _, hL, hM, h => by
    simp only [List.map_cons, List.map_nil, commas, List.append_assoc] at h
    obtain ⟨_, _, h3⟩ := ih (hL f (by simp)) (hM g (by simp)) (by intro c l h; injection h with h _; subst h; rfl)
      (by intro c l h; simp only [List.cons_append] at h; injection h with h _; subst h; rfl) h
    simp at h3
  | f :: f' :: L, [g], r, r', _, _, hL, hM, h => by
    simp only [List.map_cons, List.map_nil, commas, List.append_assoc] at h
    obtain ⟨_, _, h3⟩ := ih (hL f (by simp)) (hM g (by simp))
      (by intro c l h; simp only [List.cons_append] at h; injection h with h _; subst h; rfl)
      (by intro c l h; injection h with h _; subst h; rfl) h
    simp at h3
  | f :: f' :: L, g :: g' :: M, r, r', _, _, hL, hM, h => by
    simp only [List.map_cons, commas, List.append_assoc] at h
    obtain ⟨h1, h2, h3⟩ := ih (hL f (by simp)) (hM g (by simp))
      (by intro c l h; simp only [List.cons_append] at h; injection h with h _; subst h; rfl)
      (by intro c l h; simp only [List.cons_append] at h; injection h with h _; subst h; rfl) h
    simp only [List.cons_append, List.cons.injEq, true_and, List.nil_append] at h3
    obtain ⟨_, h5, h6⟩ := commas_inj ih (f' :: L) (g' :: M) r r' (by simp) (by simp) (fun x hx => hL x (by simp [hx]))
      (fun x hx => hM x (by simp [hx])) (by simpa only [List.map_cons] using h3)
    exact ⟨h1, .cons h2 h5, h6⟩

theorem listing_inj : ∀ {s s' : List Nat} {f g : List Nat → Val F} {r r' : List Char}, 0 ∉ s → 0 ∉ s' → IntElems s f →
    IntElems s' g → Stop r → Stop r' → listing s f ++ r = listing s' g ++ r' →
    s = s' ∧ (∀ idx, InBox s idx → f idx = g idx) ∧ r = r'
  | [], [], f, g, r, r', _, _, hf, hg, hr, hr', h => by
    obtain ⟨n, hn⟩ := hf [] trivial
    obtain ⟨m, hm⟩ := hg [] trivial
    simp only [listing, hn, hm, elemText] at h
    obtain ⟨e1, e2⟩ := prefix_split (int_text n).2 (int_text m).2 hr hr' h
    refine ⟨rfl, fun idx hb => ?_, e2⟩
    match idx, hb with
    | [], _ =>
      rw [hn, hm]
      have : n = m := Int.repr_injective (String.toList_inj.1 e1)
      rw [this]
  | [], m :: ms, f, g, r, r', _, _, hf, _, _, _, h => by
    obtain ⟨n, hn⟩ := hf [] trivial
    simp only [listing, hn, elemText] at h
    obtain ⟨h1, h2⟩ := int_text n
    cases hl : (toString n).toList with
    | nil => exact absurd hl h1
    | cons c l =>
      rw [hl] at h
      simp only [List.cons_append, List.cons.injEq] at h
      have := h2 c (by rw [hl]; simp)
      rw [h.1] at this
      exact absurd this (by decide)
  | n :: ns, [], f, g, r, r', _, _, _, hg, _, _, h => by
    obtain ⟨m, hm⟩ := hg [] trivial
    simp only [listing, hm, elemText] at h
    obtain ⟨h1, h2⟩ := int_text m
    cases hl : (toString m).toList with
    | nil => exact absurd hl h1
    | cons c l =>
      rw [hl] at h
      simp only [List.cons_append, List.cons.injEq] at h
      have := h2 c (by rw [hl]; simp)
      rw [← h.1] at this
      exact absurd this (by decide)
  | n :: ns, m :: ms, f, g, r, r', h0, h0', hf, hg, hr, hr', h => by
    have hn : n ≠ 0 := fun hc => h0 (by simp [hc])
    have hm : m ≠ 0 := fun hc => h0' (by simp [hc])
    have key : ∀ (n : Nat) (ns : List Nat) (f : List Nat → Val F) (r : List Char), listing (n :: ns) f ++ r =
        '[' :: (commas (((List.range n).map fun k idx => f (k :: idx)).map (listing ns)) ++ ']' :: r) := by
      intro n ns f r
      simp [listing, Function.comp_def]
    rw [key, key] at h
    have h := (List.cons.inj h).2
    obtain ⟨rfl, h2, h3⟩ := commas_inj (ns := ns) (ms := ms)
      (fun hf hg hr hr' h => listing_inj (fun hc => h0 (by simp [hc])) (fun hc => h0' (by simp [hc])) hf hg hr hr' h)
      _ _ r r' (by simpa using hn) (by simpa using hm)
      (by intro x hx; obtain ⟨k, hk, rfl⟩ := List.mem_map.1 hx
          exact fun idx hb => hf (k :: idx) ⟨List.mem_range.1 hk, hb⟩)
      (by intro x hx; obtain ⟨k, hk, rfl⟩ := List.mem_map.1 hx
          exact fun idx hb => hg (k :: idx) ⟨List.mem_range.1 hk, hb⟩) h
    have hlen := h2.length_eq
    simp only [List.length_map, List.length_range] at hlen
    subst hlen
    refine ⟨rfl, fun idx hb => ?_, h3⟩
    match idx, hb with
    | k :: idx, hb =>
      rw [List.forall₂_iff_get] at h2
      have := h2.2 k (by simpa using hb.1) (by simpa using hb.1)
      simpa using this idx hb.2

end INNC
