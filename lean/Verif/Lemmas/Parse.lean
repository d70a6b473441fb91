import Verif.Model.Parse
import Verif.Spec.Slice
import Verif.Lemmas.Arith
import Verif.Lemmas.Layout
/-
Reading slice strings.
-/
namespace INNC
open Spec

/-! ### Splitting -/

theorem ssplitGo_none {d : Char} : ∀ (s cur : Str), d ∉ s → ssplitGo d s cur = [cur.reverse ++ s]
  | [], cur, _ => by simp [ssplitGo]
  | c :: cs, cur, h => by
    have h1 : c ≠ d := fun e => h (by simp [e])
    have h2 : d ∉ cs := fun e => h (by simp [e])
    rw [ssplitGo, if_neg h1, ssplitGo_none cs _ h2]; simp

theorem ssplitGo_cons {d : Char} (t : Str) : ∀ (s cur : Str), d ∉ s →
    ssplitGo d (s ++ d :: t) cur = (cur.reverse ++ s) :: ssplitGo d t []
  | [], cur, _ => by simp [ssplitGo]
  | c :: cs, cur, h => by
    have h1 : c ≠ d := fun e => h (by simp [e])
    have h2 : d ∉ cs := fun e => h (by simp [e])
    rw [List.cons_append, ssplitGo, if_neg h1, ssplitGo_cons t cs _ h2]; simp

theorem ssplit_append {d : Char} (s t : Str) (h : d ∉ s) :
    ssplit (s ++ d :: t) d = s :: ssplitGo d t [] := by
  unfold ssplit
  rw [if_neg (by simp), ssplitGo_cons t s [] h]; simp

theorem ssplit_single {d : Char} (s : Str) (h0 : s ≠ []) (h : d ∉ s) : ssplit s d = [s] := by
  unfold ssplit
  rw [if_neg h0, ssplitGo_none s [] h]; simp

/-! ### White space and numbers -/

theorem isWs_iff {c : Char} : isWs c = true ↔ c ∈ [' ', '\t', '\n', '\r', '\x0c', '\x0b'] := by
  unfold isWs
  have e1 : Char.ofNat 12 = '\x0c' := by decide
  have e2 : Char.ofNat 11 = '\x0b' := by decide
  rw [e1, e2]
  simp [or_assoc]

theorem isDigitC_iff {c : Char} : isDigitC c = true ↔ '0' ≤ c ∧ c ≤ '9' := by simp [isDigitC]

theorem digit_toNat {c : Char} (h : '0' ≤ c ∧ c ≤ '9') : 48 ≤ c.toNat ∧ c.toNat ≤ 57 := by
  have h1 : ('0' : Char).toNat ≤ c.toNat := h.1
  have h2 : c.toNat ≤ ('9' : Char).toNat := h.2
  exact ⟨h1, h2⟩

theorem digit_not_ws {c : Char} (h : '0' ≤ c ∧ c ≤ '9') : isWs c = false := by
  have := digit_toNat h
  cases hw : isWs c with
  | false => rfl
  | true =>
    rw [isWs_iff] at hw
    simp only [List.mem_cons, List.not_mem_nil, or_false] at hw
    rcases hw with rfl | rfl | rfl | rfl | rfl | rfl <;> revert this <;> decide

theorem digit_ne {c d : Char} (h : '0' ≤ c ∧ c ≤ '9') (hd : d.toNat < 48 ∨ 57 < d.toNat) : c ≠ d := by
  have := digit_toNat h
  rintro rfl; omega

theorem Spec.Numeral.ne_nil {k : Int} {s : Str} (h : Numeral k s) : s ≠ [] := by
  obtain ⟨ds, h0, _, ⟨rfl, _⟩ | ⟨rfl, _⟩ | ⟨rfl, _⟩⟩ := h
  · exact h0
  · simp
  · simp

/-- A numeral consists of digits and a sign. -/
theorem Spec.Numeral.mem {k : Int} {s : Str} (h : Numeral k s) {c : Char} (hc : c ∈ s) :
    ('0' ≤ c ∧ c ≤ '9') ∨ c = '+' ∨ c = '-' := by
  obtain ⟨ds, _, h1, ⟨rfl, _⟩ | ⟨rfl, _⟩ | ⟨rfl, _⟩⟩ := h
  · exact Or.inl (h1 c hc)
  · rcases List.mem_cons.1 hc with rfl | hc
    · exact Or.inr (Or.inl rfl)
    · exact Or.inl (h1 c hc)
  · rcases List.mem_cons.1 hc with rfl | hc
    · exact Or.inr (Or.inr rfl)
    · exact Or.inl (h1 c hc)

theorem Spec.Numeral.not_ws {k : Int} {s : Str} (h : Numeral k s) {c : Char} (hc : c ∈ s) : isWs c = false := by
  rcases h.mem hc with h | rfl | rfl
  · exact digit_not_ws h
  · decide
  · decide

theorem Spec.Numeral.not_mem {k : Int} {s : Str} (h : Numeral k s) {d : Char} (hd : d = ',' ∨ d = ':') : d ∉ s := by
  intro hc
  rcases h.mem hc with h | rfl | rfl
  · exact digit_ne h (by rcases hd with rfl | rfl <;> decide) rfl
  · revert hd; decide
  · revert hd; decide

theorem dropWhile_eq_self {s : Str} (h : ∀ c ∈ s, isWs c = false) : s.dropWhile isWs = s := by
  cases s with
  | nil => rfl
  | cons c cs => rw [List.dropWhile_cons_of_neg]; simp [h c (by simp)]

theorem dropWhile_blank_append {a s : Str} (h : Blank a) : (a ++ s).dropWhile isWs = s.dropWhile isWs := by
  induction a with
  | nil => rfl
  | cons c cs ih =>
    rw [List.cons_append, List.dropWhile_cons_of_pos (isWs_iff.2 (h c (by simp)))]
    exact ih fun x hx => h x (by simp [hx])

theorem Spec.Blank.reverse {a : Str} (h : Blank a) : Blank a.reverse := fun c hc => h c (by simpa using hc)

theorem trim_padded {a w b : Str} (ha : Blank a) (hb : Blank b) (hw : ∀ c ∈ w, isWs c = false) :
    trim (a ++ w ++ b) = w := by
  have h1 : rtrim (a ++ w ++ b) = ((a ++ w).reverse.dropWhile isWs).reverse := by
    unfold rtrim
    rw [List.reverse_append, dropWhile_blank_append hb.reverse]
  unfold trim
  rw [h1, List.reverse_append]
  cases w with
  | nil =>
    have : (([] : Str).reverse ++ a.reverse).dropWhile isWs = [] := by
      have := dropWhile_blank_append (s := []) ha.reverse
      simpa using this
    rw [this]; rfl
  | cons c cs =>
    have : ((c :: cs).reverse ++ a.reverse).dropWhile isWs = (c :: cs).reverse ++ a.reverse := by
      cases hr : (c :: cs).reverse with
      | nil => simp at hr
      | cons x xs =>
        rw [List.cons_append, List.dropWhile_cons_of_neg]
        have : x ∈ (c :: cs) := by
          have : x ∈ (c :: cs).reverse := by rw [hr]; simp
          exact List.mem_reverse.1 this
        simp [hw x this]
    rw [this]
    unfold ltrim
    rw [← List.reverse_append, List.reverse_reverse, dropWhile_blank_append ha]
    exact dropWhile_eq_self hw

theorem trim_blank {a : Str} (ha : Blank a) : trim a = [] := by
  have := trim_padded (w := []) ha (b := []) (by intro c hc; simp at hc) (by simp)
  simpa using this

theorem digitsVal_eq (ds : Str) : digitsVal ds = decimal ds := by
  unfold digitsVal decimal
  congr 1
  funext acc c
  rw [Nat.mul_comm]; rfl

theorem takeWhile_digits {ds : Str} (h : ∀ c ∈ ds, '0' ≤ c ∧ c ≤ '9') : ds.takeWhile isDigitC = ds := by
  induction ds with
  | nil => rfl
  | cons c cs ih =>
    rw [List.takeWhile_cons_of_pos (isDigitC_iff.2 (h c (by simp))), ih fun x hx => h x (by simp [hx])]

/-- `stoll` reads a numeral. -/
theorem stoll_numeral {k : Int} {s : Str} (h : Numeral k s) (hk : IsI64 k) : stoll s = .ok k := by
  have hws := dropWhile_eq_self fun c hc => h.not_ws hc
  have hfit : fitsS k = true := fitsS_iff.2 hk
  obtain ⟨ds, h0, h1, h⟩ := h
  unfold stoll
  rw [hws]
  rcases h with ⟨rfl, rfl⟩ | ⟨rfl, rfl⟩ | ⟨rfl, rfl⟩
  · obtain ⟨c, cs, rfl⟩ := List.exists_cons_of_ne_nil h0
    have hc := h1 c (by simp)
    have n1 : c ≠ '-' := digit_ne hc (by decide)
    have n2 : c ≠ '+' := digit_ne hc (by decide)
    have key : ∀ p : Bool × Str, p = (false, c :: cs) →
      (let (neg, s) := p
       let ds := s.takeWhile isDigitC
       if ds = [] then (.throw .invalidArgument : Res Int)
       else
        let v : Int := if neg then -(digitsVal ds : Int) else digitsVal ds
        if fitsS v then .ok v else .throw .outOfRange) = .ok (decimal (c :: cs)) := by
      rintro _ rfl
      simp only [takeWhile_digits h1, digitsVal_eq, if_neg h0, Bool.false_eq_true, if_false, hfit, if_true]
    apply key
    split
    · rename_i t heq; exact absurd (List.cons.inj heq).1 n1
    · rename_i t heq; exact absurd (List.cons.inj heq).1 n2
    · rfl
  · simp only [takeWhile_digits h1, digitsVal_eq, if_neg h0, Bool.false_eq_true, if_false, hfit, if_true]
  · simp only [takeWhile_digits h1, digitsVal_eq, if_neg h0, if_true, hfit]

/-- `stoll` throws on a string that does not start like a number. -/
theorem stoll_not_number {s : Str} (h : ∀ c t, s.dropWhile isWs = c :: t →
      ¬ ('0' ≤ c ∧ c ≤ '9') ∧ ∀ x, (c = '+' ∨ c = '-') → t.head? = some x → ¬ ('0' ≤ x ∧ x ≤ '9')) :
    stoll s = .throw .invalidArgument := by
  unfold stoll
  generalize hs : s.dropWhile isWs = u at h
  have key : ∀ t : Str, (∀ x, t.head? = some x → ¬ ('0' ≤ x ∧ x ≤ '9')) → t.takeWhile isDigitC = [] := by
    intro t ht
    cases t with
    | nil => rfl
    | cons x xs =>
      rw [List.takeWhile_cons_of_neg]
      simpa [isDigitC_iff] using ht x rfl
  have key2 : ∀ p : Bool × Str, (p.2.takeWhile isDigitC = []) →
      (let (neg, s) := p
       let ds := s.takeWhile isDigitC
       if ds = [] then (.throw .invalidArgument : Res Int)
       else
        let v : Int := if neg then -(digitsVal ds : Int) else digitsVal ds
        if fitsS v then .ok v else .throw .outOfRange) = .throw .invalidArgument := by
    rintro ⟨n, t⟩ hp
    simp only at hp ⊢
    rw [hp, if_pos rfl]
  apply key2
  split
  · rename_i t
    exact key t fun x hx => (h _ _ rfl).2 x (Or.inr rfl) hx
  · rename_i t
    exact key t fun x hx => (h _ _ rfl).2 x (Or.inl rfl) hx
  · rename_i t _ _
    refine key _ fun x hx => ?_
    cases u with
    | nil => simp at hx
    | cons c cs => simp at hx; subst hx; exact (h _ _ rfl).1

/-! ### Axis specifications -/

/-- A trimmed optional number. -/
def OptPart : Option Int → Str → Prop
  | none, p => p = []
  | some k, p => Numeral k p

theorem trim_padded' {k : Int} {s : Str} (h : Padded k s) : Numeral k (trim s) := by
  obtain ⟨a, w, b, ha, hw, hb, rfl⟩ := h
  rw [trim_padded ha hb fun c hc => hw.not_ws hc]; exact hw

theorem trim_optional {o : Option Int} {s : Str} (h : Optional o s) : OptPart o (trim s) := by
  cases o with
  | none => exact trim_blank h
  | some k => exact trim_padded' h

theorem Spec.Blank.not_mem {s : Str} (h : Blank s) {d : Char} (hd : d = ',' ∨ d = ':') : d ∉ s := by
  intro hc
  have := h d hc
  rcases hd with rfl | rfl <;> revert this <;> decide

theorem Spec.Padded.not_mem {k : Int} {s : Str} (h : Padded k s) {d : Char} (hd : d = ',' ∨ d = ':') : d ∉ s := by
  obtain ⟨a, w, b, ha, hw, hb, rfl⟩ := h
  simp [ha.not_mem hd, hw.not_mem hd, hb.not_mem hd]

theorem Spec.Padded.ne_nil {k : Int} {s : Str} (h : Padded k s) : s ≠ [] := by
  obtain ⟨a, w, b, ha, hw, hb, rfl⟩ := h
  simp [Numeral.ne_nil hw]

theorem Spec.Optional.not_mem {o : Option Int} {s : Str} (h : Optional o s) {d : Char} (hd : d = ',' ∨ d = ':') : d ∉ s := by
  cases o with
  | none => exact Blank.not_mem h hd
  | some k => exact Padded.not_mem h hd

theorem Spec.SpellsAxis.not_comma {x : AxisSpec} {s : Str} (h : SpellsAxis x s) : ',' ∉ s := by
  cases h with
  | index h => exact h.not_mem (Or.inl rfl)
  | range2 h1 h2 => simp [Optional.not_mem h1 (Or.inl rfl), Optional.not_mem h2 (Or.inl rfl)]
  | range3 h1 h2 h3 =>
    simp [Optional.not_mem h1 (Or.inl rfl), Optional.not_mem h2 (Or.inl rfl), Optional.not_mem h3 (Or.inl rfl)]
  | whole => simp

/-- The trimmed `:`-separated parts of one axis. -/
inductive PartsOf : AxisSpec → List Str → Prop
  | index {k w} : Numeral k w → PartsOf (.index k) [w]
  | range {a b c ps} : ps.length ≠ 1 → OptPart a (ps.getD 0 []) → OptPart b (ps.getD 1 []) → OptPart c (ps.getD 2 []) →
      PartsOf (.range a b c) ps

theorem Spec.SpellsAxis.parts {x : AxisSpec} {s : Str} (h : SpellsAxis x s) : PartsOf x ((ssplit s ':').map trim) := by
  cases h with
  | index h =>
    rw [ssplit_single s (Padded.ne_nil h) (h.not_mem (Or.inr rfl))]
    exact .index (trim_padded' h)
  | range2 h1 h2 =>
    rw [ssplit_append _ _ (Optional.not_mem h1 (Or.inr rfl)), ssplitGo_none _ _ (Optional.not_mem h2 (Or.inr rfl))]
    exact .range (by simp) (by simpa using trim_optional h1) (by simpa using trim_optional h2) rfl
  | range3 h1 h2 h3 =>
    rw [List.append_assoc, List.cons_append, ssplit_append _ _ (Optional.not_mem h1 (Or.inr rfl)),
      ssplitGo_cons _ _ _ (Optional.not_mem h2 (Or.inr rfl)), ssplitGo_none _ _ (Optional.not_mem h3 (Or.inr rfl))]
    exact .range (by simp) (by simpa using trim_optional h1) (by simpa using trim_optional h2)
      (by simpa using trim_optional h3)
  | whole => exact .range (by simp [ssplit]) rfl rfl rfl

/-- The comma-separated parts of a slice string. -/
inductive AxesOf : List AxisSpec → List Str → Prop
  | nil : AxesOf [] []
  | whole : AxesOf [.range none none none] []
  | cons {x xs d ds} : SpellsAxis x d → AxesOf xs ds → AxesOf (x :: xs) (d :: ds)

theorem Spec.Spells.axesGo {xs : List AxisSpec} {s : Str} (h : Spells xs s) (hx : xs ≠ []) :
    AxesOf xs (ssplitGo ',' s []) := by
  induction h with
  | none => exact absurd rfl hx
  | one h =>
    rw [ssplitGo_none _ _ h.not_comma]
    exact .cons (by simpa using h) .nil
  | cons h h1 _ ih =>
    rw [ssplitGo_cons _ _ _ h.not_comma]
    exact .cons (by simpa using h) (ih h1)

theorem Spec.Spells.axes {xs : List AxisSpec} {s : Str} (h : Spells xs s) : AxesOf xs (ssplit s ',') := by
  by_cases hs : s = []
  · subst hs
    have e : ssplit [] ',' = [] := rfl
    rw [e]
    generalize hs : ([] : Str) = s at h
    cases h with
    | none => exact .nil
    | one h =>
      subst hs
      generalize hs : ([] : Str) = s at h
      cases h with
      | index h => exact absurd hs.symm (Padded.ne_nil h)
      | range2 h1 h2 => simp at hs
      | range3 h1 h2 h3 => simp at hs
      | whole => exact .whole
    | cons => simp at hs
  · by_cases hx : xs = []
    · subst hx
      cases h; exact absurd rfl hs
    · unfold ssplit
      rw [if_neg hs]
      exact h.axesGo hx

theorem AxesOf.length {xs : List AxisSpec} {ds : List Str} (h : AxesOf xs ds) : ds.length ≤ xs.length := by
  induction h with
  | nil => simp
  | whole => simp
  | cons _ _ ih => simpa using ih

end INNC
