import Verif.Lemmas.All
import Verif.Lemmas.Extreme
import Verif.Lemmas.Outcome
/-
The outcome of `abs`, `max`, `min` and `all` for any view.
-/
namespace INNC
open Spec
variable {F : Type} [FOps F]

/-! ### `abs` -/

theorem absVal_none {t : DType} {v : Val F} (hv : v.HasType t) (h : elemAbs t v = none) :
    absVal t t v = .ub .overflow ∧ absValGrad t t v = .ub .overflow := by
  unfold absVal absValGrad
  rw [nonneg_eq hv, Res.ok_bind, Res.ok_bind]
  unfold elemAbs at h
  cases hn : nonneg t v with
  | true => rw [hn, if_pos rfl] at h; cases h
  | false =>
    rw [hn, if_neg (by simp)] at h
    simp only [Bool.false_eq_true, if_false]
    cases v with
    | i n =>
      rw [hasType_i] at hv
      simp only at h
      by_cases hr : InRange (max 32 (width t)) (-n)
      · rw [if_pos hr] at h; cases h
      · have hneg : cNeg t (.i n : Val F) = .ub .overflow := by
          have : fitsInt (DType.arith t t) (-n) = false := by
            rw [Bool.eq_false_iff]
            intro hc
            rw [fitsInt_iff, (arith_self_int hv.1).1] at hc
            exact hr hc
          simp only [cNeg, this]; rfl
        rw [hneg]
        exact ⟨rfl, rfl⟩
    | f x => cases h

/-- The storage `d` has `n` elements of type `dt`. -/
def Holding (H : Heap F) (d : Nat) (dt : DType) (n : Nat) : Prop :=
  ∃ s cells, H.st[d]? = some s ∧ s.dt = dt ∧ s.blob = some cells ∧ cells.length = n

omit [FOps F] in
theorem Holding.set {H : Heap F} {d : Nat} {dt : DType} {n : Nat} (hh : Holding H d dt n) (e : Nat) {c : List (Option (Val F))}
    (hc : c.length = n) : Holding (H.setCells e c) d dt n := by
  obtain ⟨s, cells, h1, h2, h3, h4⟩ := hh
  by_cases he : d = e
  · subst he
    exact ⟨_, c, Heap.setCells_st_self h1 c, h2, rfl, hc⟩
  · exact ⟨s, cells, by rw [Heap.setCells_st_ne _ he]; exact h1, h2, h3, h4⟩

theorem store_holding {H : Heap F} {i : Impl} {dt : DType} {n p : Nat} {v : Val F} (hh : Holding H i.data dt n) :
    (p < n ∧ ∃ c, c.length = n ∧ store dt i p v H = .ok () (H.setCells i.data c)) ∨ (n ≤ p ∧ store dt i p v H = .ub .oob) := by
  obtain ⟨s, cells, h1, h2, h3, h4⟩ := hh
  by_cases hp : p < n
  · exact .inl ⟨hp, cells.set p (some v), by simpa using h4, store_ok h1 h2 h3 (by omega)⟩
  · refine .inr ⟨by omega, ?_⟩
    simp only [store]
    rw [M.bind_ok (getS_ok h1)]
    simp only [h3, h2, ne_eq, not_true_eq_false, if_false]
    rw [if_neg (by omega)]
    rfl

omit [FOps F] in
/-- A loop that goes on or stops with undefined behaviour, and does stop at some element. -/
theorem runAll_undef {α : Type} {op : α → M F Unit} {Inv : Heap F → Prop} {U : UB → Prop} : ∀ {l : List α},
    (∀ y ∈ l, ∀ H, Inv H → (∃ H', op y H = .ok () H' ∧ Inv H') ∨ ∃ u, op y H = .ub u ∧ U u) →
    (∃ x ∈ l, ∀ H, Inv H → ∃ u, op x H = .ub u ∧ U u) → ∀ H, Inv H → ∃ u, runAll op l H = .ub u ∧ U u
  | [], _, hx, _, _ => by obtain ⟨x, hx, _⟩ := hx; cases hx
  | a :: l, hs, hx, H, hi => by
    rw [runAll]
    rcases hs a (by simp) H hi with ⟨H', e, hi'⟩ | ⟨u, e, hu⟩
    · rw [M.bind_ok e]
      obtain ⟨x, hx1, hx2⟩ := hx
      rcases List.mem_cons.1 hx1 with rfl | hx1
      · obtain ⟨u, e2, _⟩ := hx2 H hi
        rw [e] at e2; cases e2
      · exact runAll_undef (fun y hy => hs y (by simp [hy])) ⟨x, hx1, hx2⟩ H' hi'
    · exact ⟨u, M.bind_ub e, hu⟩

theorem index_of_reads {h : Heap F} {i : Impl} {f : List Nat → Val F} (hr : Reads h i f) {idx : List Nat} (hb : InBox i.view.sizes idx) :
    ∃ p : Nat, position i.view idx = p ∧ cntFromIndex i.view idx = .ok p := by
  obtain ⟨s, cells, hs, hd, hbl, hlen, hc⟩ := hr.cells
  obtain ⟨p, hp, hcp⟩ := hc idx hb
  have := getElem?_lt hcp
  refine ⟨p, hp, ?_⟩
  rw [cntFromIndex_eq hb.length (by rw [hr.strides]) hr.offset, Layout.pos_eq, hp, wrapU_natCast (by omega)]

theorem abs_undefined {h : Heap F} {t : Nat} {i : Impl} {f : List Nat → Val F} (hi : h.ts[t]? = some i) (hr : Reads h i f)
    (hsz : vol i.view.sizes * i.dtype.size < 9223372036854775808)
    (hx : ∃ idx, InBox i.view.sizes idx ∧ ((vol i.view.sizes : Int) ≤ position i.view idx ∨ elemAbs i.dtype (f idx) = none)) :
    Tensor.absT t h = .ub .oob ∨ Tensor.absT t h = .ub .overflow := by
  let U : UB → Prop := fun u => u = .oob ∨ u = .overflow
  obtain ⟨x, hxb, hxx⟩ := hx
  suffices hh : ∃ u, Tensor.absT t h = .ub u ∧ U u by
    obtain ⟨u, e, rfl | rfl⟩ := hh
    · exact .inl e
    · exact .inr e
  have hne : i.data ≠ h.st.length := by have := hr.data_lt; omega
  have hext := extends_allocView h i.dtype i.view
  have hold : Holding (h.allocView i.dtype i.view) h.st.length i.dtype (vol i.view.sizes) :=
    ⟨_, _, allocView_getS h _ _, rfl, rfl, by simp⟩
  unfold Tensor.absT
  rw [M.bind_ok (getT_ok hi), M.bind_ok (create_view hsz h)]
  cases hg : i.requiresGrad with
  | false =>
    simp only [Bool.not_false, if_true]
    rw [M.bind_ok (getT_ok (allocView_getT h i.dtype i.view))]
    have key : ∃ u, tensorAbs i.dtype i.dtype ⟨i.dtype, i.view, h.st.length, none, false, false, none⟩ i none
        (h.allocView i.dtype i.view) = .ub u ∧ U u := by
      unfold tensorAbs
      rw [forEach_eq]
      have hbody : ∀ y, InBox i.view.sizes y → ∀ H : Heap F, Reads H i f ∧ Holding H h.st.length i.dtype (vol i.view.sizes) →
          ((position i.view y < vol i.view.sizes ∧ elemAbs i.dtype (f y) ≠ none) ∧ ∃ H', (do
              let tmp ← load i.dtype i (← M.lift (cntFromIndex i.view y))
              let z ← M.lift (absVal i.dtype i.dtype tmp)
              store i.dtype ⟨i.dtype, i.view, h.st.length, none, false, false, none⟩ (← M.lift (cntFromIndex i.view y)) z : M F Unit) H = .ok () H' ∧
              Reads H' i f ∧ Holding H' h.st.length i.dtype (vol i.view.sizes)) ∨
          ∃ u, (do
              let tmp ← load i.dtype i (← M.lift (cntFromIndex i.view y))
              let z ← M.lift (absVal i.dtype i.dtype tmp)
              store i.dtype ⟨i.dtype, i.view, h.st.length, none, false, false, none⟩ (← M.lift (cntFromIndex i.view y)) z : M F Unit) H = .ub u ∧ U u := by
        intro y hy H hH
        obtain ⟨hH1, hH2⟩ := hH
        obtain ⟨p, hp, hpe⟩ := index_of_reads hH1 hy
        rw [← bind_assoc, M.bind_ok (hH1.load_index hy)]
        cases he : elemAbs i.dtype (f y) with
        | none =>
          rw [(absVal_none (hr.typed y hy) he).1]
          exact .inr ⟨.overflow, rfl, .inr rfl⟩
        | some z =>
          rw [(absVal_ok (hr.typed y hy) he).1, M.bind_ok (M.lift_ok _ _), hpe, M.bind_ok (M.lift_ok _ _)]
          rcases store_holding (p := p) (v := z) (i := ⟨i.dtype, i.view, h.st.length, none, false, false, none⟩) hH2 with
            ⟨hlt, c, hc, e⟩ | ⟨hlt, e⟩
          · exact .inl ⟨⟨by rw [hp]; exact_mod_cast hlt, by simp⟩, _, e, hH1.setCells_ne hne c, hH2.set _ hc⟩
          · exact .inr ⟨.oob, e, .inl rfl⟩
      refine runAll_undef (Inv := fun H => Reads H i f ∧ Holding H h.st.length i.dtype (vol i.view.sizes)) ?_ ⟨x, mem_rowMajor.2 hxb, ?_⟩ _
        ⟨hr.of_extends hext, hold⟩
      · intro y hy H hH
        exact (hbody y (mem_rowMajor.1 hy) H hH).imp (fun hc => hc.2) id
      · intro H hH
        rcases hbody x hxb H hH with ⟨⟨h1, h2⟩, _⟩ | hu
        · rcases hxx with hxx | hxx
          · omega
          · exact absurd hxx h2
        · exact hu
    obtain ⟨u, e, hu⟩ := key
    exact ⟨u, M.bind_ub e, hu⟩
  | true =>
    simp only [Bool.not_true, Bool.false_eq_true, if_false]
    let h1 := h.allocView i.dtype i.view
    have hsl : h1.st.length = h.st.length + 1 := by simp [h1, Heap.allocView]
    let dst : Impl := ⟨i.dtype, i.view, h.st.length, none, false, false, none⟩
    let gi : Impl := ⟨i.dtype, i.view, h1.st.length, none, false, false, none⟩
    have hext2 := extends_allocView h1 i.dtype i.view
    have hobj : (h1.allocView i.dtype i.view).ts[h.ts.length]? = some dst := hext2.ts _ _ (allocView_getT h i.dtype i.view)
    have hobjg : (h1.allocView i.dtype i.view).ts[h1.ts.length]? = some gi := allocView_getT h1 i.dtype i.view
    have hne' : i.data ≠ h1.st.length := by have := hr.data_lt; omega
    have hold1 : Holding (h1.allocView i.dtype i.view) h.st.length i.dtype (vol i.view.sizes) := by
      obtain ⟨s, cells, q, rest⟩ := hold
      exact ⟨s, cells, hext2.st _ _ q, rest⟩
    have hold2 : Holding (h1.allocView i.dtype i.view) h1.st.length i.dtype (vol i.view.sizes) :=
      ⟨_, _, allocView_getS h1 _ _, rfl, rfl, by simp⟩
    rw [M.bind_ok (create_view hsz _), M.bind_ok (getT_ok hobj), M.bind_ok (getT_ok hobjg)]
    let Inv : Heap F → Prop := fun H => Reads H i f ∧ Holding H h.st.length i.dtype (vol i.view.sizes) ∧
      Holding H h1.st.length i.dtype (vol i.view.sizes)
    have key : ∃ u, tensorAbs i.dtype i.dtype dst i (some gi) (h1.allocView i.dtype i.view) = .ub u ∧ U u := by
      unfold tensorAbs
      simp only
      rw [forEach_eq]
      have hbody : ∀ y, InBox i.view.sizes y → ∀ H : Heap F, Inv H →
          ((position i.view y < vol i.view.sizes ∧ elemAbs i.dtype (f y) ≠ none) ∧ ∃ H', (do
              let tmp ← load i.dtype i (← M.lift (cntFromIndex i.view y))
              let s ← M.lift (signVal i.dtype tmp)
              store i.dtype gi (← M.lift (cntFromIndex gi.view y)) s
              let z ← M.lift (absValGrad i.dtype i.dtype tmp)
              store i.dtype dst (← M.lift (cntFromIndex dst.view y)) z : M F Unit) H = .ok () H' ∧ Inv H') ∨
          ∃ u, (do
              let tmp ← load i.dtype i (← M.lift (cntFromIndex i.view y))
              let s ← M.lift (signVal i.dtype tmp)
              store i.dtype gi (← M.lift (cntFromIndex gi.view y)) s
              let z ← M.lift (absValGrad i.dtype i.dtype tmp)
              store i.dtype dst (← M.lift (cntFromIndex dst.view y)) z : M F Unit) H = .ub u ∧ U u := by
        intro y hy H hH
        obtain ⟨hH1, hH2, hH3⟩ := hH
        obtain ⟨p, hp, hpe⟩ := index_of_reads hH1 hy
        have hpg : cntFromIndex gi.view y = .ok p := hpe
        rw [← bind_assoc, M.bind_ok (hH1.load_index hy), (signVal_ok (hr.typed y hy)).1, M.bind_ok (M.lift_ok _ _), hpg,
          M.bind_ok (M.lift_ok _ _)]
        rcases store_holding (p := p) (v := elemSign i.dtype (f y)) (i := gi) hH3 with ⟨hlt, c, hc, e⟩ | ⟨hlt, e⟩
        · rw [M.bind_ok e]
          cases he : elemAbs i.dtype (f y) with
          | none =>
            rw [(absVal_none (hr.typed y hy) he).2]
            exact .inr ⟨.overflow, rfl, .inr rfl⟩
          | some z =>
            rw [(absVal_ok (hr.typed y hy) he).2.1, M.bind_ok (M.lift_ok _ _), M.bind_ok (M.lift_ok _ _)]
            rcases store_holding (p := p) (v := z) (i := dst) (hH2.set gi.data hc) with ⟨hlt, c', hc', e'⟩ | ⟨hlt, e'⟩
            · exact .inl ⟨⟨by rw [hp]; exact_mod_cast hlt, by simp⟩, _, e', (hH1.setCells_ne hne' c).setCells_ne hne c',
                (hH2.set _ hc).set _ hc', (hH3.set _ hc).set _ hc'⟩
            · exact .inr ⟨.oob, e', .inl rfl⟩
        · exact .inr ⟨.oob, M.bind_ub e, .inl rfl⟩
      refine runAll_undef (Inv := Inv) ?_ ⟨x, mem_rowMajor.2 hxb, ?_⟩ _
        ⟨(hr.of_extends hext).of_extends hext2, hold1, hold2⟩
      · intro y hy H hH
        exact (hbody y (mem_rowMajor.1 hy) H hH).imp (fun hc => hc.2) id
      · intro H hH
        rcases hbody x hxb H hH with ⟨⟨h1, h2⟩, _⟩ | hu
        · rcases hxx with hxx | hxx
          · omega
          · exact absurd hxx h2
        · exact hu
    obtain ⟨u, e, hu⟩ := key
    exact ⟨u, M.bind_ub e, hu⟩

/-! ### `all` -/

/-- A byte of an integer. -/
theorem byteOf_int {t : DType} (n : Int) {k : Nat} (hk : k < t.size) : (byteOf (F := F) t (.i n) k : Int) = n / 256 ^ k % 256 := by
  have hbits : (2 : Int) ^ t.bits = 256 ^ k * 256 * 256 ^ (t.size - k - 1) := by
    have : t.bits = 8 * t.size := by cases t <;> rfl
    rw [this, pow_mul, show (2 : Int) ^ 8 = 256 by norm_num, ← pow_succ, ← pow_add]
    congr 1
    omega
  have hpos : (0 : Int) < 256 ^ k := by positivity
  show ((((n % (2 ^ t.bits)) / (256 ^ k) % 256).toNat : Nat) : Int) = _
  rw [Int.toNat_of_nonneg (Int.emod_nonneg _ (by norm_num)), hbits, mul_assoc]
  have e : n % (256 ^ k * (256 * 256 ^ (t.size - k - 1))) / 256 ^ k = n / 256 ^ k % (256 * 256 ^ (t.size - k - 1)) := by
    rw [Int.emod_def, Int.emod_def, ← Int.ediv_ediv_of_nonneg (by positivity), mul_assoc, Int.sub_mul_ediv_left _ _ hpos.ne']
  rw [e]
  exact Int.emod_emod_of_dvd _ (Dvd.intro _ rfl)

theorem loadBool_byte {h : Heap F} {i : Impl} {f : List Nat → Val F} (hr : Reads h i f) {s : Storage F} {ns : List Int}
    (hs : h.st[i.data]? = some s) (hb : s.blob = some (ns.map fun n => some (.i n))) {idx : List Nat} (hx : InBox i.view.sizes idx) :
    (do Tensor.loadBoolByte i (← M.lift (cntFromIndex i.view idx)) : M F Bool) h =
      boolOut h (scanAll [byteIn i.dtype.size ns (position i.view idx).toNat]) := by
  obtain ⟨p, hp, hpe⟩ := index_of_reads hr hx
  obtain ⟨s', cells, hs', hd, hbl, _, hc⟩ := hr.cells
  rw [hs] at hs'
  obtain rfl := Option.some.inj hs'
  rw [hb] at hbl
  obtain rfl := Option.some.inj hbl
  obtain ⟨q, hq, hcq⟩ := hc idx hx
  have hpl : p < ns.length := by
    have := getElem?_lt hcq
    rw [hp] at hq
    simp at this
    omega
  have hsz := i.dtype.size_pos
  have hdl : p / i.dtype.size < ns.length := Nat.lt_of_le_of_lt (Nat.div_le_self _ _) hpl
  rw [hpe, M.bind_ok (M.lift_ok _ _), hp, Int.toNat_natCast]
  unfold Tensor.loadBoolByte
  rw [M.bind_ok (getS_ok hs), hb, hd]
  have e1 : (ns.map fun n => (some (.i n) : Option (Val F)))[p / i.dtype.size]? = some (some (.i (ns.getD (p / i.dtype.size) 0))) := by
    rw [List.getElem?_map, List.getElem?_eq_getElem hdl, List.getD_eq_getElem?_getD, List.getElem?_eq_getElem hdl]
    rfl
  simp only [e1]
  have e2 := byteOf_int (F := F) (ns.getD (p / i.dtype.size) 0) (Nat.mod_lt p hsz)
  unfold byteIn
  rw [← e2]
  generalize byteOf (F := F) i.dtype (.i (ns.getD (p / i.dtype.size) 0)) (p % i.dtype.size) = b
  rcases b with _ | _ | b
  · rfl
  · rfl
  · have h1 : ((b + 1 + 1 : Nat) : Int) ≠ 1 := by omega
    have h0 : ((b + 1 + 1 : Nat) : Int) ≠ 0 := by omega
    simp only [scanAll, if_neg h1, if_neg h0]
    rfl

theorem all_bytes {h : Heap F} {t : Nat} {i : Impl} {f : List Nat → Val F} (hi : h.ts[t]? = some i) (hr : Reads h i f) {s : Storage F}
    {ns : List Int} (hs : h.st[i.data]? = some s) (hb : s.blob = some (ns.map fun n => some (.i n))) :
    Tensor.allT t h = boolOut h (scanAll ((rowMajor i.view.sizes).map fun idx => byteIn i.dtype.size ns (position i.view idx).toNat)) :=
  allT_scan hi _ fun _ hx => loadBool_byte hr hs hb hx

/-! ### `max` and `min` -/

theorem foldl_pick_int {keep : COp} {dt : DType} {f : List Nat → Int} (le : Int → Int → Prop) (htr : ∀ a b c, le a b → le b c → le a c)
    (href : ∀ a, le a a) (hk : ∀ a b, elemCompare (F := F) keep dt dt (.i a) (.i b) = true → le b a)
    (hn : ∀ a b, elemCompare (F := F) keep dt dt (.i a) (.i b) ≠ true → le a b) :
    ∀ (l : List (List Nat)) (x0 : Int) (b0 : List Nat), ∃ m,
      (l.foldl (pick keep dt fun idx => (.i (f idx) : Val F)) (.i x0, b0)).1 = .i m ∧ le x0 m ∧ (∀ x ∈ l, le (f x) m) ∧
      (m = x0 ∨ ∃ x ∈ l, m = f x) := by
  intro l
  induction l with
  | nil => intro x0 b0; exact ⟨x0, rfl, href _, by simp, .inl rfl⟩
  | cons a l ih =>
    intro x0 b0
    rw [List.foldl_cons]
    by_cases hc : elemCompare (F := F) keep dt dt (.i x0) (.i (f a)) = true
    · have e : pick keep dt (fun idx => (.i (f idx) : Val F)) (.i x0, b0) a = (.i x0, b0) := by
        simp only [pick, hc, if_true]
      rw [e]
      obtain ⟨m, h1, h2, h3, h4⟩ := ih x0 b0
      refine ⟨m, h1, h2, fun x hx => ?_, h4.imp id fun ⟨x, hx, e⟩ => ⟨x, by simp [hx], e⟩⟩
      rcases List.mem_cons.1 hx with rfl | hx
      · exact htr _ _ _ (hk _ _ hc) h2
      · exact h3 x hx
    · have e : pick keep dt (fun idx => (.i (f idx) : Val F)) (.i x0, b0) a = (.i (f a), a) := by
        simp only [pick, if_neg hc]
      rw [e]
      obtain ⟨m, h1, h2, h3, h4⟩ := ih (f a) a
      refine ⟨m, h1, htr _ _ _ (hn _ _ hc) h2, fun x hx => ?_, .inr ?_⟩
      · rcases List.mem_cons.1 hx with rfl | hx
        · exact h2
        · exact h3 x hx
      · rcases h4 with rfl | ⟨x, hx, e⟩
        · exact ⟨a, by simp, rfl⟩
        · exact ⟨x, by simp [hx], e⟩

end INNC
