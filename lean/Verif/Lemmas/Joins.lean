import Verif.Spec.Joins
import Verif.Lemmas.Laws
import Verif.Lemmas.MemViews
import Verif.Props.Slice
import Verif.Props.Reshape
import Verif.Props.Cat
/-
Laws of `cat` and `reshape`.
-/
namespace INNC
open Spec
variable {F : Type} [FOps F]

/-! ### Reshape -/

theorem reindex_reindex {s s1 s2 idx : List Nat} (h1 : vol s1 = vol s) (h2 : vol s2 = vol s) (hb : InBox s2 idx) :
    reindex s s1 (reindex s1 s2 idx) = reindex s s2 idx := by
  unfold reindex
  rw [rank_unrank (by rw [h1, ← h2]; exact rank_lt hb)]

theorem reindex_self {s idx : List Nat} (hb : InBox s idx) : reindex s s idx = idx := by
  unfold reindex
  exact unrank_rank hb

/-- The result of reshape, on which views can be taken. -/
theorem reshape_viewable {h : Heap F} {t : Nat} {dt : DType} {s s' : List Nat} {f : List Nat → Val F} (ht : Denotes h t dt s f)
    (hv : Viewable h t) (h0 : 0 ∉ s) (hm : Modest s dt) (hsm : Moderate h t) (hs' : vol s' = vol s)
    (hns : (s = [] ↔ s' = []) ∨ ∀ i, h.ts[t]? = some i → i.requiresGrad = false) :
    ∃ r h', Tensor.reshape t (request s') h = .ok r h' ∧ Denotes h' r dt s' (fun idx => f (reindex s s' idx)) ∧ Viewable h' r ∧ Preserves h h' ∧ h.ts.length ≤ r ∧
      ((∀ i, h.ts[t]? = some i → i.requiresGrad = false) → ∀ i, h'.ts[r]? = some i → i.requiresGrad = false) := by
  obtain ⟨i, hi, rfl, rfl, hr⟩ := ht
  obtain ⟨i', hi', htm, hg⟩ := hv
  rw [hi] at hi'
  obtain rfl := Option.some.inj hi'
  have hv0 : vol i.view.sizes ≠ 0 := fun hc => h0 (vol_eq_zero.1 hc)
  have hv0' : vol s' ≠ 0 := by rw [hs']; exact hv0
  have hvol := hm.vol
  have hle : ∀ n ∈ s', n ≤ vol s' := fun n hn => mem_le_vol (fun hc => hv0' (vol_eq_zero.2 hc)) hn
  obtain ⟨r, h', e, rs⟩ := reshape_ok (req := request s') hi hr htm hg
    (regularizeSize_known (fun n hn => by have := hle n hn; omega) (fun h0 => by rw [h0] at hs'; exact hs'.symm)) hs' hm.bytes
    (fun hrg => by
      rcases hns with h1 | h1
      · exact h1
      · have := h1 i hi; rw [this] at hrg; simp at hrg)
  obtain ⟨j, hj, d1, d2, d3, d4, d5, d6⟩ := rs.obj
  obtain ⟨j2, hj2, k1, k2⟩ := rs.fit
  rw [hj] at hj2
  obtain rfl := Option.some.inj hj2
  obtain ⟨j3, hj3, l1, l2⟩ := rs.lay
  rw [hj] at hj3
  obtain rfl := Option.some.inj hj3
  have htame : Tame j.view.sizes j.view.strides := by
    by_cases how : ((¬ ∃ c, Scaled c i.view.sizes i.view.strides) ∧ ¬ (vol i.view.sizes = 1 ∧ i.requiresGrad = false))
    · rw [l2 how]
      exact tame_contig (by omega) hv0'
    · obtain ⟨i2, st, c, q1, q2, q3, q4⟩ := hsm
      rw [hi] at q1
      obtain rfl := Option.some.inj q1
      obtain ⟨st', c', p1, p2, p3, p4, p5⟩ := d3.cells
      have p1' := p1
      rw [d5 how, rs.pres.st _ _ q2] at p1'
      obtain rfl := Option.some.inj p1'
      rw [q3] at p3
      obtain rfl := Option.some.inj p3
      refine tame_of (h := h') ⟨d3.strides, d3.offset, st, c, p1, p2, q3, by rw [d1]; exact q4, fun idx hb => ?_⟩ (by rw [d2]; exact hv0')
        (fun n hn => by rw [d2] at hn; have := hle n hn; omega) k1
      obtain ⟨p, e1, e2⟩ := p5 idx hb
      exact ⟨p, e1, getElem?_lt e2⟩
  refine ⟨r, h', e, ⟨j, hj, d1, d2, d3⟩, ⟨j, hj, htame, k2⟩, rs.pres, rs.new, fun hq k hk => ?_⟩
  rw [hj] at hk
  obtain rfl := Option.some.inj hk
  rw [d4]
  exact hq i hi

/-! ### Lists of calls -/

omit [FOps F] in
/-- Calls that only add to the memory (`Le`), one after the other. -/
theorem mapM_calls {α β γ : Type} {K : α → M F β} {Le : Heap F → Heap F → Prop} {R : Heap F → β → γ → Prop}
    {ok : Heap F → α → γ → Prop} (hrefl : ∀ h, Le h h) (htrans : ∀ {a b c}, Le a b → Le b c → Le a c)
    (hmono : ∀ {h h' : Heap F} {b c}, Le h h' → R h b c → R h' b c) (hok : ∀ {h h' : Heap F} {a c}, Le h h' → ok h a c → ok h' a c)
    (step : ∀ {h : Heap F} {a c}, ok h a c → ∃ b h', K a h = .ok b h' ∧ R h' b c ∧ Le h h') :
    ∀ {as : List α} {cs : List γ} {h : Heap F}, List.Forall₂ (ok h) as cs →
      ∃ bs h', as.mapM K h = .ok bs h' ∧ List.Forall₂ (R h') bs cs ∧ Le h h' ∧ bs.length = as.length
  | [], _, h, .nil => ⟨[], h, rfl, .nil, hrefl h, rfl⟩
  | a :: as, c :: cs, h, .cons ha hs => by
    obtain ⟨b, h1, e1, r1, p1⟩ := step ha
    obtain ⟨bs, h2, e2, r2, p2, l2⟩ := mapM_calls (K := K) (Le := Le) (R := R) (ok := ok) hrefl htrans hmono hok step
      (hs.imp fun _ _ => hok p1)
    refine ⟨b :: bs, h2, ?_, .cons (hmono p2 r1) r2, htrans p1 p2, by simp [l2]⟩
    rw [List.mapM_cons, M.bind_ok e1, M.bind_ok e2]
    rfl

/-! ### Concatenation -/

omit [FOps F] in
theorem latest_const {dt : DType} : ∀ {bs : List (Block F)}, bs ≠ [] → (∀ b ∈ bs, b.dt = dt) → latest (bs.map (·.dt)) = dt
  | [b], _, h => by
    rw [List.map_singleton, h b (by simp)]
    cases dt <;> rfl
  | b :: b' :: bs, _, h => by
    have ih := latest_const (bs := b' :: bs) (by simp) (fun x hx => h x (by simp [hx]))
    rw [List.map_cons]
    show later b.dt (latest _) = dt
    rw [ih, h b (by simp)]
    cases dt <;> rfl

theorem latest_append : ∀ (as bs : List DType), latest (as ++ bs) = later (latest as) (latest bs)
  | [], bs => by
    show latest bs = later .i8 (latest bs)
    cases latest bs <;> rfl
  | a :: as, bs => by
    show later a (latest (as ++ bs)) = later (later a (latest as)) (latest bs)
    rw [latest_append as bs, later_assoc]

omit [FOps F] in
theorem axisTotal_append : ∀ (as bs : List (Block F)), axisTotal (as ++ bs) = axisTotal as + axisTotal bs
  | [], bs => by simp [axisTotal]
  | a :: as, bs => by
    show a.n + axisTotal (as ++ bs) = a.n + axisTotal as + axisTotal bs
    rw [axisTotal_append as bs]; omega

theorem catAt_append (d : Nat) (dt : DType) : ∀ (as bs : List (Block F)) {idx : List Nat}, d < idx.length →
    catAt d dt (as ++ bs) idx = if idx.getD d 0 < axisTotal as then catAt d dt as idx else
      catAt d dt bs (idx.set d (idx.getD d 0 - axisTotal as))
  | [], bs, idx, hd => by
    have : idx.set d (idx.getD d 0 - 0) = idx := by
      have : idx.getD d 0 = idx[d] := by simp [hd]
      rw [Nat.sub_zero, this, List.set_getElem_self]
    show catAt d dt bs idx = if idx.getD d 0 < 0 then _ else catAt d dt bs (idx.set d (idx.getD d 0 - 0))
    rw [if_neg (by omega), this]
  | a :: as, bs, idx, hd => by
    have hset : ∀ x, (idx.set d x).getD d 0 = x := fun x => by simp [hd]
    have ih := catAt_append d dt as bs (idx := idx.set d (idx.getD d 0 - a.n)) (by simpa using hd)
    rw [hset, List.set_set] at ih
    show (if idx.getD d 0 < a.n then converted a.dt dt (a.f idx) else catAt d dt (as ++ bs) (idx.set d (idx.getD d 0 - a.n))) =
      if idx.getD d 0 < a.n + axisTotal as then
        (if idx.getD d 0 < a.n then converted a.dt dt (a.f idx) else catAt d dt as (idx.set d (idx.getD d 0 - a.n)))
      else catAt d dt bs (idx.set d (idx.getD d 0 - (a.n + axisTotal as)))
    rw [ih]
    by_cases h1 : idx.getD d 0 < a.n
    · rw [if_pos h1, if_pos (show idx.getD d 0 < a.n + axisTotal as by omega), if_pos h1]
    · rw [if_neg h1, if_neg h1]
      by_cases h2 : idx.getD d 0 < a.n + axisTotal as
      · rw [if_pos (by omega), if_pos h2]
      · rw [if_neg (by omega), if_neg h2, Nat.sub_sub]

/-- Converting an integer, first to a larger integer type. -/
theorem converted_twice {s m t : DType} (hsm : order s ≤ order m) (hmt : order m ≤ order t) (h : m = t ∨ isInteger m = true ∨ s = m)
    {v : Val F} (hv : v.HasType s) : converted m t (converted s m v) = converted s t v := by
  have self : ∀ (q : DType) (w : Val F), w.HasType q → converted q q w = w := by
    intro q w hw
    unfold converted
    rw [convert_self hw]
    rfl
  have hty : (converted s m v).HasType m := convert_hasType (convert_later hsm hv)
  rcases h with rfl | h | rfl
  · exact self _ _ hty
  · have his : isInteger s = true := by
      cases s <;> cases m <;> first | rfl | (exact absurd h (by decide)) | (exact absurd hsm (by decide))
    cases v with
    | f x =>
      have : s.isFloat = true := hv
      cases s <;> first | (exact absurd this (by decide)) | (exact absurd his (by decide))
    | i n =>
      have hn : InRange (width m) n := inRange_mono (by
        cases s <;> cases m <;> first | decide | (exact absurd hsm (by decide)) | (exact absurd h (by decide))) (fitsInt_iff.1 hv.2)
      have : converted s m (.i n : Val F) = .i n := by
        unfold converted convert
        rw [if_pos h]
        show Val.i _ = Val.i n
        rw [reduce_self (by cases m <;> decide) hn]
      rw [this]
      rfl
  · rw [self _ _ hv]

theorem axis_lt {s idx : List Nat} {d n : Nat} (hd : d < s.length) (hi : InBox (s.set d n) idx) : idx.getD d 0 < n := by
  obtain ⟨k, e, hk⟩ := inBox_set_lt hd hi
  simpa [e] using hk

/-- Joining some of the tensors first. -/
theorem catAt_nested {d : Nat} {dt : DType} {xs ys zs : List (Block F)} {shape idx : List Nat} (hd : d < shape.length)
    (hb : InBox (shape.set d (axisTotal (xs ++ ys ++ zs))) idx) (hdt : order (latest (ys.map (·.dt))) ≤ order dt) (h1 : OneStep ys dt)
    (hty : ∀ b ∈ ys, ∀ k, InBox (shape.set d b.n) k → (b.f k).HasType b.dt) :
    catAt d dt (xs ++ ⟨latest (ys.map (·.dt)), axisTotal ys, catAt d (latest (ys.map (·.dt))) ys⟩ :: zs) idx =
      catAt d dt (xs ++ ys ++ zs) idx := by
  have hl : idx.length = shape.length := by rw [hb.length]; simp
  have hset : ∀ x, (idx.set d x).getD d 0 = x := fun x => by
    have : d < idx.length := by omega
    simp [this]
  rw [List.append_assoc, catAt_append d dt xs _ (by omega), catAt_append d dt xs _ (by omega)]
  by_cases hx : idx.getD d 0 < axisTotal xs
  · rw [if_pos hx, if_pos hx]
  · rw [if_neg hx, if_neg hx, catAt_append d dt ys _ (by simpa using (by omega : d < idx.length)), hset, List.set_set]
    show (if (idx.set d _).getD d 0 < axisTotal ys then _ else _) = _
    rw [hset, List.set_set]
    by_cases hy : idx.getD d 0 - axisTotal xs < axisTotal ys
    · rw [if_pos hy, if_pos hy]
      have hb' : InBox (shape.set d (axisTotal ys)) (idx.set d (idx.getD d 0 - axisTotal xs)) := inBox_set_set hb hy
      clear hb
      generalize idx.set d (idx.getD d 0 - axisTotal xs) = k at hb'
      have key : ∀ (bs : List (Block F)) (k : List Nat), InBox (shape.set d (axisTotal bs)) k → (∀ b ∈ bs, b ∈ ys) →
          converted (latest (ys.map (·.dt))) dt (catAt d (latest (ys.map (·.dt))) bs k) = catAt d dt bs k := by
        intro bs
        induction bs with
        | nil =>
          intro k hk _
          exact absurd (axis_lt hd hk) (by simp [axisTotal])
        | cons b bs ih =>
          intro k hk hm
          have hkl : k.length = shape.length := by rw [hk.length]; simp
          unfold catAt
          by_cases hlt : k.getD d 0 < b.n
          · rw [if_pos hlt, if_pos hlt]
            have hkb : InBox (shape.set d b.n) k := by
              have := inBox_set_set hk hlt
              have e : k.set d (k.getD d 0) = k := by
                have : k.getD d 0 = k[d]'(by omega) := by simp [show d < k.length by omega]
                rw [this, List.set_getElem_self]
              rwa [e] at this
            refine converted_twice (order_le_latest (List.mem_map_of_mem (hm b (by simp)))) hdt ?_ (hty b (hm b (by simp)) k hkb)
            rcases h1 with h1 | h1 | h1
            · exact .inl h1
            · exact .inr (.inl h1)
            · exact .inr (.inr (h1 b (hm b (by simp))))
          · rw [if_neg hlt, if_neg hlt]
            refine ih _ ?_ (fun x hx => hm x (by simp [hx]))
            have hlt2 : k.getD d 0 < b.n + axisTotal bs := axis_lt hd hk
            exact inBox_set_set hk (by omega)
      exact key ys k hb' (fun _ h => h)
    · rw [if_neg hy, if_neg hy]

/-- The elements of combined concatenations are the combined elements. -/
theorem catAt_pairs {op : AOp} {d : Nat} {dl dr : DType} {shape : List Nat} (hd : d < shape.length) :
    ∀ {ps : List (Pair F)} {idx : List Nat}, InBox (shape.set d (axisTotal (boths (later dl dr) ps))) idx →
      (∀ p ∈ ps, ∀ k, InBox (shape.set d p.n) k → (p.left k).HasType dl ∧ (p.right k).HasType dr ∧ (p.both k).HasType (later dl dr) ∧
        elemBinary op dl dr (p.left k) (p.right k) = some (p.both k)) →
      elemBinary op dl dr (catAt d dl (lefts dl ps) idx) (catAt d dr (rights dr ps) idx) =
        some (catAt d (later dl dr) (boths (later dl dr) ps) idx)
  | [], idx, hb, _ => absurd (axis_lt hd hb) (by simp [boths, axisTotal])
  | p :: ps, idx, hb, hp => by
    have self : ∀ (q : DType) (w : Val F), w.HasType q → converted q q w = w := by
      intro q w hw
      unfold converted
      rw [convert_self hw]
      rfl
    have hlt2 : idx.getD d 0 < p.n + axisTotal (boths (later dl dr) ps) := axis_lt hd hb
    show elemBinary op dl dr (if idx.getD d 0 < p.n then converted dl dl (p.left idx) else catAt d dl (lefts dl ps) (idx.set d (idx.getD d 0 - p.n)))
      (if idx.getD d 0 < p.n then converted dr dr (p.right idx) else catAt d dr (rights dr ps) (idx.set d (idx.getD d 0 - p.n))) =
      some (if idx.getD d 0 < p.n then converted (later dl dr) (later dl dr) (p.both idx) else
        catAt d (later dl dr) (boths (later dl dr) ps) (idx.set d (idx.getD d 0 - p.n)))
    by_cases hlt : idx.getD d 0 < p.n
    · have hkb : InBox (shape.set d p.n) idx := by
        have hl : d < idx.length := by rw [hb.length]; simpa using hd
        have := inBox_set_set hb hlt
        have e : idx.set d (idx.getD d 0) = idx := by
          have : idx.getD d 0 = idx[d] := by simp [hl]
          rw [this, List.set_getElem_self]
        rwa [e] at this
      obtain ⟨t1, t2, t3, t4⟩ := hp p (by simp) idx hkb
      rw [if_pos hlt, if_pos hlt, if_pos hlt, self _ _ t1, self _ _ t2, self _ _ t3, t4]
    · rw [if_neg hlt, if_neg hlt, if_neg hlt]
      exact catAt_pairs hd (inBox_set_set hb (by omega)) (fun q hq => hp q (by simp [hq]))

theorem swapped_set {l : List Nat} {d e : Nat} (hd : d < l.length) (he : e < l.length) (hde : d ≠ e) (x : Nat) :
    (swapped l d e).set d x = swapped (l.set e x) d e := by
  refine List.ext_getElem? fun k => ?_
  rw [getElem?_swapped (by simpa using hd) (by simpa using he)]
  by_cases hk : k = d
  · subst hk
    rw [List.getElem?_set_self (by rw [length_swapped]; exact hd)]
    simp [he]
  · rw [List.getElem?_set_ne (fun h => hk h.symm), getElem?_swapped hd he]
    by_cases hke : k = e
    · subst hke
      simp [hk, List.getElem?_set_ne (fun h => hde h.symm)]
    · simp [hk, hke, List.getElem?_set_ne (fun h => hke h.symm)]

theorem swapped_getD {l : List Nat} {d e : Nat} (hd : d < l.length) (he : e < l.length) : (swapped l d e).getD d 0 = l.getD e 0 := by
  rw [List.getD_eq_getElem?_getD, List.getD_eq_getElem?_getD, getElem?_swapped hd he]
  simp

/-- The blocks of the transposed tensors. -/
def turned (d e : Nat) (bs : List (Block F)) : List (Block F) := bs.map fun b => ⟨b.dt, b.n, fun k => b.f (swapped k d e)⟩

theorem catAt_turned {d e : Nat} {dt : DType} (hde : d ≠ e) : ∀ {bs : List (Block F)} {idx : List Nat}, d < idx.length → e < idx.length →
    catAt d dt bs (swapped idx d e) = catAt e dt (turned d e bs) idx
  | [], _, _, _ => rfl
  | b :: bs, idx, hd, he => by
    show (if (swapped idx d e).getD d 0 < b.n then converted b.dt dt (b.f (swapped idx d e)) else
      catAt d dt bs ((swapped idx d e).set d ((swapped idx d e).getD d 0 - b.n))) =
      if idx.getD e 0 < b.n then converted b.dt dt (b.f (swapped idx d e)) else
        catAt e dt (turned d e bs) (idx.set e (idx.getD e 0 - b.n))
    rw [swapped_getD hd he, swapped_set hd he hde, catAt_turned hde (by simpa using hd) (by simpa using he)]

omit [FOps F] in
theorem axisTotal_turned (d e : Nat) : ∀ bs : List (Block F), axisTotal (turned d e bs) = axisTotal bs
  | [] => rfl
  | b :: bs => by
    show b.n + axisTotal (turned d e bs) = b.n + axisTotal bs
    rw [axisTotal_turned d e bs]

omit [FOps F] in
theorem types_turned (d e : Nat) (bs : List (Block F)) : (turned d e bs).map (·.dt) = bs.map (·.dt) := by
  simp [turned, Function.comp_def]

theorem vol_set_mono : ∀ {s : List Nat} {d a b : Nat}, a ≤ b → vol (s.set d a) ≤ vol (s.set d b)
  | [], _, _, _, _ => Nat.le_refl _
  | n :: s, 0, a, b, h => Nat.mul_le_mul_right (vol s) h
  | n :: s, d + 1, a, b, h => Nat.mul_le_mul_left n (vol_set_mono (s := s) (d := d) h)

end INNC
