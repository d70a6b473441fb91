import Verif.Spec.Ring
import Verif.Lemmas.Totals
import Verif.Lemmas.Binary
import Verif.Lemmas.BinaryStop
import Verif.Lemmas.Layout
import Mathlib.Data.Int.ModEq
import Mathlib.Tactic.Linarith
import Mathlib.Tactic.ByContra
/-
Values of expressions on tensors of integers.
-/
namespace INNC
open Spec
variable {F : Type} [FOps F]

theorem reduce_modEq {b : Nat} (n : Int) : reduce b n ≡ n [ZMOD 2 ^ b] := by
  unfold reduce
  have := Int.mod_modEq (n + 2 ^ (b - 1)) (2 ^ b)
  have h2 := this.sub_right (2 ^ (b - 1))
  rwa [Int.add_sub_cancel] at h2

theorem reduce_congr {b : Nat} {n m : Int} (h : n ≡ m [ZMOD 2 ^ b]) : reduce b n = reduce b m := by
  unfold reduce
  rw [(h.add_right (2 ^ (b - 1)) : _ % _ = _ % _)]

theorem modEq_value {b : Nat} {op : AOp} (ho : op ≠ .div) {x y X Y n : Int} (hx : x ≡ X [ZMOD 2 ^ b]) (hy : y ≡ Y [ZMOD 2 ^ b])
    (e : exact op x y = some n) : ∃ N, exact op X Y = some N ∧ n ≡ N [ZMOD 2 ^ b] := by
  cases op with
  | add => cases e; exact ⟨_, rfl, hx.add hy⟩
  | sub => cases e; exact ⟨_, rfl, hx.sub hy⟩
  | mul => cases e; exact ⟨_, rfl, hx.mul hy⟩
  | div => exact absurd rfl ho

theorem exact_value {op : AOp} (ho : op ≠ .div) (a b : Formula) (env : Nat → Int) :
    exact op (a.value env) (b.value env) = some ((Formula.bin op a b).value env) := by
  cases op <;> first | rfl | exact absurd rfl ho

theorem elemSame {op : AOp} {t : DType} (ht : isInteger t = true) (a b : Int) :
    elemBinary op t t (.i a : Val F) (.i b) =
      match exact op a b with
      | some n => if InRange (max 32 (width t)) n then some (.i (reduce (width t) n)) else none
      | none => none := by
  rw [elemBinary_eq]
  have h1 : ¬ swaps op t t := by
    intro h
    exact absurd h.2 (Nat.lt_irrefl _)
  rw [if_neg h1]
  unfold elemArith
  rw [if_pos ⟨ht, ht⟩, later_self, Nat.max_self]
  rfl

/-! ### Shapes -/

/-- The shape `u` can be broadcast to `m` (axes listed from the last to the first). -/
def UnderRev : List Nat → List Nat → Prop
  | [], _ => True
  | a :: u, b :: m => (a = 1 ∨ a = b) ∧ UnderRev u m
  | _ :: _, [] => False

theorem underRev_refl : ∀ u : List Nat, UnderRev u u
  | [] => trivial
  | _ :: u => ⟨.inr rfl, underRev_refl u⟩

theorem UnderRev.trans : ∀ {u m r : List Nat}, UnderRev u m → UnderRev m r → UnderRev u r
  | [], _, _, _, _ => trivial
  | a :: u, b :: m, c :: r, h1, h2 => by
    refine ⟨?_, UnderRev.trans h1.2 h2.2⟩
    rcases h1.1 with h | rfl
    · exact .inl h
    · exact h2.1
  | _ :: _, [], _, h, _ => h.elim
  | _ :: _, _ :: _, [], _, h => h.elim

theorem UnderRev.length : ∀ {u m : List Nat}, UnderRev u m → u.length ≤ m.length
  | [], _, _ => Nat.zero_le _
  | _ :: _, _ :: _, h => Nat.succ_le_succ (UnderRev.length h.2)
  | _ :: _, [], h => h.elim

theorem bshapeRev_under : ∀ {u v r : List Nat}, bshapeRev u v = some r → UnderRev u r ∧ UnderRev v r
  | [], v, r, h => by
    have : bshapeRev [] v = some v := by cases v <;> rfl
    rw [this] at h
    cases h
    exact ⟨trivial, underRev_refl _⟩
  | a :: u, [], r, h => by
    cases h
    exact ⟨underRev_refl _, trivial⟩
  | a :: u, b :: v, r, h => by
    simp only [bshapeRev] at h
    cases hd : bdim a b <;> cases hr : bshapeRev u v <;> simp [hd, hr] at h
    subst h
    rename_i d r'
    obtain ⟨h1, h2⟩ := bshapeRev_under hr
    have : (a = 1 ∨ a = d) ∧ (b = 1 ∨ b = d) := by
      unfold bdim at hd
      split_ifs at hd with e1 e2 e3
      · cases hd; exact ⟨.inr rfl, .inr e1.symm⟩
      · cases hd; exact ⟨.inl e2, .inr rfl⟩
      · cases hd; exact ⟨.inr rfl, .inl e3⟩
    exact ⟨⟨this.1, h1⟩, ⟨this.2, h2⟩⟩

theorem project_reverse {u idx : List Nat} (h : u.length ≤ idx.length) :
    (project u idx).reverse = List.zipWith (fun n i => if n = 1 then 0 else i) u.reverse idx.reverse := by
  rw [zipWith_take_left _ u.reverse, List.length_reverse, List.take_reverse, project, ← List.reverse_zipWith]
  simp only [List.length_drop]
  omega

theorem zip_zip : ∀ {u m : List Nat} (idx : List Nat), UnderRev u m →
    List.zipWith (fun n i => if n = 1 then 0 else i) u (List.zipWith (fun n i => if n = 1 then 0 else i) m idx) =
      List.zipWith (fun n i => if n = 1 then 0 else i) u idx
  | [], _, _, _ => by simp
  | _ :: _, [], _, h => h.elim
  | a :: u, b :: m, [], _ => by simp
  | a :: u, b :: m, i :: idx, h => by
    simp only [List.zipWith_cons_cons]
    rw [zip_zip idx h.2]
    congr 1
    rcases h.1 with rfl | rfl
    · simp
    · by_cases h1 : a = 1 <;> simp [h1]

/-- Reading an operand of an operand. -/
theorem project_project {u m idx : List Nat} (h : UnderRev u.reverse m.reverse) (hl : m.length ≤ idx.length) :
    project u (project m idx) = project u idx := by
  have hu : u.length ≤ m.length := by simpa using h.length
  have h2 := zip_zip idx.reverse h
  rw [← project_reverse hl, ← project_reverse (by rw [length_project hl]; exact hu), ← project_reverse (by omega)] at h2
  exact List.reverse_injective h2

theorem Spec.Formula.Fine.shape {sh : Nat → List Nat} {op : AOp} {a b : Formula} (h : (Formula.bin op a b).Fine sh) :
    bshape (a.shape sh) (b.shape sh) = some ((Formula.bin op a b).shape sh) := by
  obtain ⟨_, _, _, h, _⟩ := h
  change _ = some ((bshape (a.shape sh) (b.shape sh)).getD [])
  cases hb : bshape (a.shape sh) (b.shape sh) with
  | none => exact absurd hb h
  | some s => rfl

theorem bshape_under {u v r : List Nat} (h : bshape u v = some r) : UnderRev u.reverse r.reverse ∧ UnderRev v.reverse r.reverse := by
  simp only [bshape, Option.map_eq_some_iff] at h
  obtain ⟨r', hr', rfl⟩ := h
  rw [List.reverse_reverse]
  exact bshapeRev_under hr'

theorem uses_under {sh : Nat → List Nat} {k : Nat} : ∀ {e : Formula}, e.Fine sh → e.Uses k → UnderRev (sh k).reverse (e.shape sh).reverse
  | .var j, _, h => by
    cases h
    exact underRev_refl _
  | .bin op a b, hf, h => by
    obtain ⟨u1, u2⟩ := bshape_under hf.shape
    rcases h with h | h
    · exact (uses_under hf.1 h).trans u1
    · exact (uses_under hf.2.1 h).trans u2

theorem value_congr {env env' : Nat → Int} : ∀ {e : Formula}, (∀ k, e.Uses k → env k = env' k) → e.value env = e.value env'
  | .var j, h => h j rfl
  | .bin op a b, h => by
    have h1 := value_congr (e := a) fun k hk => h k (.inl hk)
    have h2 := value_congr (e := b) fun k hk => h k (.inr hk)
    cases op <;> simp only [Formula.value, h1, h2]

theorem value_part {sh : Nat → List Nat} {f : Nat → List Nat → Int} {e : Formula} (he : e.Fine sh) {idx : List Nat}
    (hl : (e.shape sh).length ≤ idx.length) : e.value (readAt sh f (project (e.shape sh) idx)) = e.value (readAt sh f idx) := by
  refine value_congr fun k hk => ?_
  unfold readAt
  rw [project_project (uses_under he hk) hl]

theorem bshapeRev_least : ∀ {u v r m : List Nat}, bshapeRev u v = some r → UnderRev u m → UnderRev v m → UnderRev r m
  | [], v, r, m, h, _, h2 => by
    have : bshapeRev [] v = some v := by cases v <;> rfl
    rw [this] at h
    cases h
    exact h2
  | a :: u, [], r, m, h, h1, _ => by
    cases h
    exact h1
  | _ :: _, _ :: _, _, [], _, h, _ => h.elim
  | a :: u, b :: v, r, c :: m, h, h1, h2 => by
    simp only [bshapeRev] at h
    cases hd : bdim a b <;> cases hr : bshapeRev u v <;> simp [hd, hr] at h
    subst h
    rename_i d r'
    refine ⟨?_, bshapeRev_least hr h1.2 h2.2⟩
    unfold bdim at hd
    split_ifs at hd with e1 e2 e3
    · cases hd; exact h1.1
    · cases hd; exact h2.1
    · cases hd; exact h1.1

theorem UnderRev.antisymm : ∀ {u m : List Nat}, UnderRev u m → UnderRev m u → u = m
  | [], [], _, _ => rfl
  | [], _ :: _, _, h => h.elim
  | _ :: _, [], h, _ => h.elim
  | a :: u, b :: m, h1, h2 => by
    rw [UnderRev.antisymm h1.2 h2.2]
    congr 1
    have := h1.1
    have := h2.1
    omega

theorem shape_least {sh : Nat → List Nat} {m : List Nat} : ∀ {e : Formula}, e.Fine sh → (∀ k, e.Uses k → UnderRev (sh k).reverse m) →
    UnderRev (e.shape sh).reverse m
  | .var k, _, h => h k rfl
  | .bin op a b, hf, h => by
    have h1 := shape_least hf.1 fun k hk => h k (.inl hk)
    have h2 := shape_least hf.2.1 fun k hk => h k (.inr hk)
    have hs := hf.shape
    simp only [bshape, Option.map_eq_some_iff] at hs
    obtain ⟨r', hr', hs⟩ := hs
    rw [← hs, List.reverse_reverse]
    exact bshapeRev_least hr' h1 h2

theorem shape_same {sh : Nat → List Nat} {e e' : Formula} (he : e.Fine sh) (he' : e'.Fine sh) (hu : ∀ k, e.Uses k ↔ e'.Uses k) :
    e.shape sh = e'.shape sh :=
  List.reverse_injective ((shape_least he fun k hk => uses_under he' ((hu k).1 hk)).antisymm
    (shape_least he' fun k hk => uses_under he ((hu k).2 hk)))

/-! ### Evaluation -/

/-- No operation of the expression is undefined for elements of type `t`. -/
def Spec.Formula.Safe (t : DType) (sh : Nat → List Nat) (f : Nat → List Nat → Int) : Formula → Prop
  | .var _ => True
  | .bin op a b => a.Safe t sh f ∧ b.Safe t sh f ∧ ∀ idx, InBox ((Formula.bin op a b).shape sh) idx →
    ∃ n, exact op (reduce (width t) (a.value (readAt sh f idx))) (reduce (width t) (b.value (readAt sh f idx))) = some n ∧
      InRange (max 32 (width t)) n

theorem size_of_small {s : List Nat} {t : DType} (h : vol s < 1152921504606846976) : vol s * (later t t).size < 9223372036854775808 := by
  have : (later t t).size ≤ 8 := by cases t <;> decide
  have := Nat.mul_le_mul_left (vol s) this
  omega

theorem part_elem {t : DType} (ht : isInteger t = true) {sh : Nat → List Nat} {f : Nat → List Nat → Int} {op : AOp} {a b : Formula}
    (hn : (Formula.bin op a b).Fine sh) {idx : List Nat} (hi : InBox ((Formula.bin op a b).shape sh) idx) :
    elemBinary op t t (.i (reduce (width t) (a.value (readAt sh f (project (a.shape sh) idx)))) : Val F)
      (.i (reduce (width t) (b.value (readAt sh f (project (b.shape sh) idx))))) =
      match exact op (reduce (width t) (a.value (readAt sh f idx))) (reduce (width t) (b.value (readAt sh f idx))) with
      | some n => if InRange (max 32 (width t)) n then some (.i (reduce (width t) n)) else none
      | none => none := by
  have hl := hi.length
  have h1 := bshape_length_left hn.shape
  have h2 := bshape_length_right hn.shape
  rw [value_part hn.1 (by omega), value_part hn.2.1 (by omega), elemSame ht]

theorem run_safe {t : DType} (ht : isInteger t = true) {sh : Nat → List Nat} {vars : Nat → Nat} {f : Nat → List Nat → Int} :
    ∀ (e : Formula) (_ : e.Fine sh) {h : Heap F}, (∀ k, Denotes h (vars k) t (sh k) fun idx => .i (f k idx)) → e.Safe t sh f →
    ∃ r h', e.run vars h = .ok r h' ∧ Extends h h' ∧ Denotes h' r t (e.shape sh) fun idx => .i (reduce (width t) (e.value (readAt sh f idx)))
  | .var k, _, h, hv, _ => by
    refine ⟨vars k, h, rfl, ⟨fun _ _ h => h, fun _ _ h => h⟩, ?_⟩
    obtain ⟨i, hi, hdt, hsz, hr⟩ := hv k
    refine ⟨i, hi, hdt, hsz, hr.congr fun idx hb => ?_⟩
    have := (hasType_i.1 (hr.typed idx hb)).2
    rw [hdt] at this
    rw [hsz] at hb
    rw [show (Formula.var k).value (readAt sh f idx) = f k (project (sh k) idx) from rfl, project_self hb,
      reduce_self (by cases t <;> decide) this]
  | .bin op a b, hn, h, hv, hs => by
    obtain ⟨x, h1, e1, x1, d1⟩ := run_safe ht a hn.1 hv hs.1
    obtain ⟨y, h2, e2, x2, d2⟩ := run_safe ht b hn.2.1 (fun k => (hv k).of_extends x1) hs.2.1
    have ho := hn.2.2.1
    obtain ⟨h3, _, _, _, _, _, e3, d3, x3, _⟩ := arith_ok (op := op)
      (g := fun idx => .i (reduce (width t) ((Formula.bin op a b).value (readAt sh f idx)))) (d1.of_extends x2) d2 hn.shape
      hn.2.2.2.2.1 (size_of_small hn.2.2.2.2.2) (fun idx hi => by
        obtain ⟨n, hx, hr⟩ := hs.2.2 idx hi
        rw [part_elem ht hn hi, hx]
        simp only [if_pos hr]
        obtain ⟨N, hN, hmod⟩ := modEq_value ho (reduce_modEq _) (reduce_modEq _) hx
        rw [exact_value ho] at hN
        rw [reduce_congr hmod, Option.some.inj hN])
    rw [later_self] at d3
    refine ⟨_, h3, ?_, ⟨fun t i h => x3.ts t i (x2.ts t i (x1.ts t i h)), fun t i h => x3.st t i (x2.st t i (x1.st t i h))⟩, d3⟩
    change (a.run vars >>= fun x => b.run vars >>= fun y => arithT op x y) h = _
    rw [M.bind_def, e1]
    change (b.run vars >>= fun y => arithT op x y) h1 = _
    rw [M.bind_def, e2]
    exact e3

theorem run_unsafe {t : DType} (ht : isInteger t = true) {sh : Nat → List Nat} {vars : Nat → Nat} {f : Nat → List Nat → Int} :
    ∀ (e : Formula) (_ : e.Fine sh) {h : Heap F}, (∀ k, Denotes h (vars k) t (sh k) fun idx => .i (f k idx)) → ¬ e.Safe t sh f →
    e.run vars h = .ub .overflow ∨ e.run vars h = .ub .divZero
  | .var k, _, h, hv, hs => absurd trivial hs
  | .bin op a b, hn, h, hv, hs => by
    change (a.run vars >>= fun x => b.run vars >>= fun y => arithT op x y) h = _ ∨
      (a.run vars >>= fun x => b.run vars >>= fun y => arithT op x y) h = _
    by_cases sa : a.Safe t sh f
    · obtain ⟨x, h1, e1, x1, d1⟩ := run_safe ht a hn.1 hv sa
      have hv1 := fun k => (hv k).of_extends x1
      rw [M.bind_def, e1]
      change (b.run vars >>= fun y => arithT op x y) h1 = _ ∨ (b.run vars >>= fun y => arithT op x y) h1 = _
      by_cases sb : b.Safe t sh f
      · obtain ⟨y, h2, e2, x2, d2⟩ := run_safe ht b hn.2.1 hv1 sb
        rw [M.bind_def, e2]
        refine arith_undefined (d1.of_extends x2) d2 hn.shape hn.2.2.2.2.1 (size_of_small hn.2.2.2.2.2) ?_
        by_contra hno
        refine hs ⟨sa, sb, fun idx hi => ?_⟩
        by_contra hbad
        refine hno ⟨idx, hi, ?_⟩
        rw [part_elem ht hn hi]
        cases hx : exact op (reduce (width t) (a.value (readAt sh f idx))) (reduce (width t) (b.value (readAt sh f idx))) with
        | none => rfl
        | some n => exact if_neg fun hr => hbad ⟨n, hx, hr⟩
      · rw [M.bind_def]
        rcases run_unsafe ht b hn.2.1 hv1 sb with e | e <;> rw [e]
        · exact .inl rfl
        · exact .inr rfl
    · rw [M.bind_def]
      rcases run_unsafe ht a hn.1 hv sa with e | e <;> rw [e]
      · exact .inl rfl
      · exact .inr rfl

/-- With 32 and 64 bits: exactly if the exact values fit. -/
theorem safe_wide {t : DType} (hw : t = .i32 ∨ t = .i64) {sh : Nat → List Nat} {f : Nat → List Nat → Int}
    (hk : ∀ k idx, InBox (sh k) idx → InRange (width t) (f k idx)) : ∀ (e : Formula), e.Fine sh →
    (e.Safe t sh f ↔ e.FitsIn (width t) sh f) ∧
    (e.Safe t sh f → ∀ idx, InBox (e.shape sh) idx → InRange (width t) (e.value (readAt sh f idx)))
  | .var k, _ => ⟨Iff.rfl, fun _ idx hi => by
      show InRange _ (f k (project (sh k) idx))
      have hi : InBox (sh k) idx := hi
      rw [project_self hi]
      exact hk k idx hi⟩
  | .bin op a b, hn => by
    obtain ⟨a1, a2⟩ := safe_wide hw hk a hn.1
    obtain ⟨b1, b2⟩ := safe_wide hw hk b hn.2.1
    have ho := hn.2.2.1
    have hm : max 32 (width t) = width t := by rcases hw with rfl | rfl <;> decide
    have h0 : 0 < width t := by rcases hw with rfl | rfl <;> decide
    have ra : a.Safe t sh f → ∀ idx, InBox ((Formula.bin op a b).shape sh) idx →
        reduce (width t) (a.value (readAt sh f idx)) = a.value (readAt sh f idx) := fun sa idx hi => by
      have hl := hi.length
      have := bshape_length_left hn.shape
      rw [← value_part hn.1 (idx := idx) (by omega)]
      exact reduce_self h0 (a2 sa _ (project_inBox_left hn.shape hi))
    have rb : b.Safe t sh f → ∀ idx, InBox ((Formula.bin op a b).shape sh) idx →
        reduce (width t) (b.value (readAt sh f idx)) = b.value (readAt sh f idx) := fun sb idx hi => by
      have hl := hi.length
      have := bshape_length_right hn.shape
      rw [← value_part hn.2.1 (idx := idx) (by omega)]
      exact reduce_self h0 (b2 sb _ (project_inBox_right hn.shape hi))
    have key : (Formula.bin op a b).Safe t sh f ↔ a.Safe t sh f ∧ b.Safe t sh f ∧
        ∀ idx, InBox ((Formula.bin op a b).shape sh) idx → InRange (width t) ((Formula.bin op a b).value (readAt sh f idx)) := by
      constructor
      · rintro ⟨sa, sb, h⟩
        refine ⟨sa, sb, fun idx hi => ?_⟩
        obtain ⟨n, e, hr⟩ := h idx hi
        rw [ra sa idx hi, rb sb idx hi, exact_value ho] at e
        cases e
        rwa [hm] at hr
      · rintro ⟨sa, sb, h⟩
        refine ⟨sa, sb, fun idx hi => ⟨_, ?_, by rw [hm]; exact h idx hi⟩⟩
        rw [ra sa idx hi, rb sb idx hi, exact_value ho]
    refine ⟨?_, fun h => (key.1 h).2.2⟩
    rw [key, a1, b1]
    rfl

/-- With 8 and 16 bits: always. -/
theorem safe_narrow {t : DType} (hw : t = .i8 ∨ t = .i16) {sh : Nat → List Nat} {f : Nat → List Nat → Int} :
    ∀ (e : Formula), e.Fine sh → e.Safe t sh f
  | .var k, _ => trivial
  | .bin op a b, hn => by
    refine ⟨safe_narrow hw a hn.1, safe_narrow hw b hn.2.1, fun idx _ => ?_⟩
    have ho := hn.2.2.1
    have bound : ∀ n, -32768 ≤ reduce (width t) n ∧ reduce (width t) n ≤ 32767 := fun n => by
      have := reduce_inRange (b := width t) (by rcases hw with rfl | rfl <;> decide) n
      unfold InRange at this
      rcases hw with rfl | rfl
      · have e : (2 : Int) ^ (width .i8 - 1) = 128 := by decide
        rw [e] at this; omega
      · have e : (2 : Int) ^ (width .i16 - 1) = 32768 := by decide
        rw [e] at this; omega
    have hm : max 32 (width t) = 32 := by rcases hw with rfl | rfl <;> decide
    have e32 : (2 : Int) ^ (32 - 1) = 2147483648 := by decide
    obtain ⟨x1, x2⟩ := bound (a.value (readAt sh f idx))
    obtain ⟨y1, y2⟩ := bound (b.value (readAt sh f idx))
    generalize reduce (width t) (a.value (readAt sh f idx)) = x at *
    generalize reduce (width t) (b.value (readAt sh f idx)) = y at *
    rw [hm]
    unfold InRange
    rw [e32]
    cases op with
    | add => exact ⟨x + y, rfl, by omega, by omega⟩
    | sub => exact ⟨x - y, rfl, by omega, by omega⟩
    | mul => exact ⟨x * y, rfl, by nlinarith, by nlinarith⟩
    | div => exact absurd rfl ho

end INNC
