import Verif.Lemmas.Whole
import Verif.Props.Ring
import Verif.Props.Outcome
import Verif.Props.Totals
/-
C80: whole numbers in tensors of floats.
-/
namespace INNC
open Spec

theorem elemSameFloat {F : Type} [FOps F] {op : AOp} {t : DType} (ht : isInteger t = false) (x y : F) :
    elemBinary op t t (.f x) (.f y) = some (.f (fop op t x y)) := by
  rw [elemBinary_eq]
  have h1 : ¬ swaps op t t := fun h => absurd h.2 (Nat.lt_irrefl _)
  rw [if_neg h1]
  unfold elemArith
  rw [if_neg (by simp [ht]), later_self]
  simp [asFloat]

/-- **C80**: an expression with `+`, `-` and `*` of IEEE float tensors of one type that hold whole numbers, of shapes that
broadcast, is computed exactly, without any rounding, as long as the exact values of its parts stay below 2^24 (`f32`) or
2^53 (`f64`) in absolute value. -/
theorem C80_value {t : DType} (ht : isInteger t = false) {sh : Nat → List Nat} {vars : Nat → Nat} {x : Nat → List Nat → Ieee}
    {f : Nat → List Nat → Int} (hw : ∀ k idx, InBox (sh k) idx → (x k idx).IsWhole (f k idx)) : ∀ {e : Formula}, e.Fine sh →
    ∀ {h : Heap Ieee}, (∀ k, Denotes h (vars k) t (sh k) fun idx => .f (x k idx)) → e.StaysSmall t sh f →
    ∃ (r : Nat) (h' : Heap Ieee) (y : List Nat → Ieee), e.run vars h = .ok r h' ∧ Extends h h' ∧ (Denotes h' r t (e.shape sh) fun idx => .f (y idx)) ∧
      ∀ idx, InBox (e.shape sh) idx → (y idx).IsWhole (e.value (readAt sh f idx))
  | .var k, _, h, hv, _ => by
    refine ⟨vars k, h, x k, rfl, ⟨fun _ _ h => h, fun _ _ h => h⟩, hv k, fun idx hb => ?_⟩
    have hb : InBox (sh k) idx := hb
    rw [show (Formula.var k).value (readAt sh f idx) = f k (project (sh k) idx) from rfl, project_self hb]
    exact hw k idx hb
  | .bin op a b, hn, h, hv, hs => by
    obtain ⟨p, h1, ya, e1, x1, d1, w1⟩ := C80_value ht hw hn.1 hv hs.1
    obtain ⟨q, h2, yb, e2, x2, d2, w2⟩ := C80_value ht hw hn.2.1 (fun k => (hv k).of_extends x1) hs.2.1
    obtain ⟨h3, _, _, _, _, _, e3, d3, x3, _⟩ := arith_ok (op := op)
      (g := fun idx => .f (fop op t (ya (project (a.shape sh) idx)) (yb (project (b.shape sh) idx)))) (d1.of_extends x2) d2 hn.shape
      hn.2.2.2.2.1 (size_of_small hn.2.2.2.2.2) (fun idx hi => elemSameFloat ht _ _)
    rw [later_self] at d3
    refine ⟨_, h3, _, ?_, ⟨fun t i h => x3.ts t i (x2.ts t i (x1.ts t i h)), fun t i h => x3.st t i (x2.st t i (x1.st t i h))⟩, d3,
      fun idx hi => ?_⟩
    · change (a.run vars >>= fun x => b.run vars >>= fun y => arithT op x y) h = _
      rw [M.bind_def, e1]
      change (b.run vars >>= fun y => arithT op p y) h1 = _
      rw [M.bind_def, e2]
      exact e3
    · have hl := hi.length
      have l1 := bshape_length_left hn.shape
      have l2 := bshape_length_right hn.shape
      have wa := w1 _ (project_inBox_left hn.shape hi)
      have wb := w2 _ (project_inBox_right hn.shape hi)
      rw [value_part hn.1 (by omega)] at wa
      rw [value_part hn.2.1 (by omega)] at wb
      exact whole_fop hn.2.2.1 wa wb (exact_value hn.2.2.1 a b _) (hs.2.2 idx hi)

/-- **C80**: two such expressions in the same variables that are equal as polynomials return tensors of the same shape whose
elements are equal (as `==` of floats: 0.0 and -0.0 are equal). -/
theorem C80_equal {t : DType} (ht : isInteger t = false) {sh : Nat → List Nat} {vars : Nat → Nat} {x : Nat → List Nat → Ieee}
    {f : Nat → List Nat → Int} (hw : ∀ k idx, InBox (sh k) idx → (x k idx).IsWhole (f k idx)) {e e' : Formula} (hn : e.Fine sh)
    (hn' : e'.Fine sh) (hu : ∀ k, e.Uses k ↔ e'.Uses k) (heq : ∀ env : Nat → Int, e.value env = e'.value env) {h : Heap Ieee}
    (hv : ∀ k, Denotes h (vars k) t (sh k) fun idx => .f (x k idx)) (hs : e.StaysSmall t sh f) (hs' : e'.StaysSmall t sh f) :
    ∃ (r : Nat) (k : Heap Ieee) (r' : Nat) (k' : Heap Ieee) (s : List Nat) (y y' : List Nat → Ieee), e.run vars h = .ok r k ∧ e'.run vars h = .ok r' k' ∧ (Denotes k r t s fun idx => .f (y idx)) ∧
      (Denotes k' r' t s fun idx => .f (y' idx)) ∧ ∀ idx, InBox s idx → fcompare .eq (y idx) (y' idx) = true := by
  obtain ⟨r, k, y, e1, _, d1, w1⟩ := C80_value ht hw hn hv hs
  obtain ⟨r', k', y', e2, _, d2, w2⟩ := C80_value ht hw hn' hv hs'
  have hsh := shape_same hn hn' hu
  rw [← hsh] at d2 w2
  refine ⟨r, k, r', k', _, y, y', e1, e2, d1, d2, fun idx hi => ?_⟩
  have h2 := w2 idx hi
  rw [← heq] at h2
  rw [whole_compare .eq (w1 idx hi) h2]
  exact decide_eq_true rfl

/-- **C80**: comparing float tensors of one type that hold whole numbers is comparing the numbers, whatever their size. -/
theorem C80_compare (op : COp) {t : DType} {h : Heap Ieee} {l r : Nat} {sl sr s : List Nat} {x y : List Nat → Ieee}
    {f g : List Nat → Int} (hl : Denotes h l t sl fun idx => .f (x idx)) (hr : Denotes h r t sr fun idx => .f (y idx))
    (hx : ∀ idx, InBox sl idx → (x idx).IsWhole (f idx)) (hy : ∀ idx, InBox sr idx → (y idx).IsWhole (g idx))
    (hs : bshape sl sr = some s) (hst : ¬ stretched sl sr) (hsize : vol s < 9223372036854775808) :
    ∃ c h', Tensor.cmp op l r h = .ok c h' ∧ Extends h h' ∧
      Denotes h' c .i8 s fun idx => .i (if icompare op (f (project sl idx)) (g (project sr idx)) then 1 else 0) := by
  obtain ⟨c, h', e, ⟨i, hi, hd, hz, hrd⟩, hext, _⟩ := C20_compare_partial (op := op) hl hr hs hst (by simpa [DType.size] using hsize)
  refine ⟨c, h', e, hext, i, hi, hd, hz, hrd.congr fun idx hb => ?_⟩
  rw [hz] at hb
  have : elemCompare op t t (.f (x (project sl idx))) (.f (y (project sr idx))) =
      decide (icompare op (f (project sl idx)) (g (project sr idx))) := by
    unfold elemCompare
    simp only [later_self, asFloat, if_true]
    exact whole_compare op (hx _ (project_inBox_left hs hb)) (hy _ (project_inBox_right hs hb))
  rw [this]
  by_cases hc : icompare op (f (project sl idx)) (g (project sr idx)) <;> simp [hc]

theorem roundtrip_of {F : Type} [FOps F] {h : Heap F} {t : Nat} {ds dt : DType} {s : List Nat} {f : List Nat → Int} {i : Impl}
    (hd : Denotes h t ds s fun idx => .i (f idx)) (hi : h.ts[t]? = some i) (hg : i.requiresGrad = false) (hs : isInteger ds = true)
    (ht : isInteger dt = false) (x : List Nat → F) (hx : ∀ idx, x idx = FOps.ofInt dt (f idx))
    (hback : ∀ idx, InBox s idx → FOps.toInt (x idx) = some (f idx)) (hsize : vol s < 1152921504606846976) :
    ∃ t1 h1 t2 h2, Tensor.toType t dt h = .ok t1 h1 ∧ Tensor.toType t1 ds h1 = .ok t2 h2 ∧
      (Denotes h1 t1 dt s fun idx => .f (x idx)) ∧ Denotes h2 t2 ds s fun idx => .i (f idx) := by
  have hne : dt ≠ ds := fun e => by rw [e, hs] at ht; cases ht
  have hsz : ∀ t : DType, vol s * t.size < 9223372036854775808 := fun t => by
    have : t.size ≤ 8 := by cases t <;> decide
    have := Nat.mul_le_mul_left (vol s) this
    omega
  obtain ⟨i', hi', rfl, rfl, hr⟩ := hd
  rw [hi] at hi'
  obtain rfl := Option.some.inj hi'
  obtain ⟨h1, e1, b1⟩ := toType_ok (g := fun idx => .f (x idx)) hi hr hne (by simp [hg]) (hsz _)
    (fun idx hb => by unfold convert; rw [hx]; simp [ht])
  rw [hg] at b1
  obtain ⟨d, hobj, _⟩ := b1.obj
  obtain ⟨j, hj, hj1, hj2, hjr⟩ := b1.denotes
  rw [hobj] at hj
  obtain rfl := Option.some.inj hj
  obtain ⟨h2, e2, b2⟩ := toType_ok (dt := i.dtype) (g := fun idx => .i (f idx)) hobj hjr (fun hc => hne hc.symm) (by simp) (hsz _)
    (fun idx hb => by
      have hty := (hasType_i.1 (hr.typed idx hb)).2
      unfold convert
      simp only [hs, if_true, hback idx hb]
      exact if_pos hty)
  exact ⟨_, h1, _, h2, e1, e2, b1.denotes, b2.denotes⟩

/-- **C80**: a tensor of integers below 2^24 (2^53) in absolute value, converted to `f32` (`f64`) and back, has the elements
it had. -/
theorem C80_roundtrip {h : Heap Ieee} {t : Nat} {ds dt : DType} {s : List Nat} {f : List Nat → Int} {i : Impl}
    (hd : Denotes h t ds s fun idx => .i (f idx)) (hi : h.ts[t]? = some i) (hg : i.requiresGrad = false) (hs : isInteger ds = true)
    (ht : isInteger dt = false) (hsmall : ∀ idx, InBox s idx → Ieee.Small dt (f idx)) (hsize : vol s < 1152921504606846976) :
    ∃ (t1 : Nat) (h1 : Heap Ieee) (t2 : Nat) (h2 : Heap Ieee) (x : List Nat → Ieee), Tensor.toType t dt h = .ok t1 h1 ∧
      Tensor.toType t1 ds h1 = .ok t2 h2 ∧ (Denotes h1 t1 dt s fun idx => .f (x idx)) ∧
      (∀ idx, InBox s idx → (x idx).IsWhole (f idx)) ∧ Denotes h2 t2 ds s fun idx => .i (f idx) := by
  obtain ⟨x, hx⟩ : ∃ x : List Nat → Ieee, ∀ idx, x idx = FOps.ofInt dt (f idx) := ⟨fun idx => FOps.ofInt dt (f idx), fun _ => rfl⟩
  have hw : ∀ idx, InBox s idx → (x idx).IsWhole (f idx) := fun idx hb => by
    rw [hx]
    exact whole_ofInt (hsmall idx hb)
  obtain ⟨t1, h1, t2, h2, e1, e2, d1, d2⟩ := roundtrip_of hd hi hg hs ht x hx (fun idx hb => whole_toInt (hw idx hb)) hsize
  exact ⟨t1, h1, t2, h2, x, e1, e2, d1, hw, d2⟩

/-- **C80**: the sum of a float tensor that holds whole numbers is exact if their absolute values add up to less than 2^53. -/
theorem C80_sum {h : Heap Ieee} {t : Nat} {dt : DType} {s : List Nat} {x : List Nat → Ieee} {n : List Nat → Int}
    (hd : Denotes h t dt s fun idx => .f (x idx)) (hdt : isInteger dt = false) (hsize : vol s < 18446744073709551616)
    (hw : ∀ idx, InBox s idx → (x idx).IsWhole (n idx)) (hb : ((rowMajor s).map fun idx => |n idx|).sum < 9007199254740992) :
    ∃ (r : Nat) (h' : Heap Ieee) (y : Ieee), Tensor.sumT t h = .ok r h' ∧ Extends h h' ∧ (Denotes h' r .f64 [] fun _ => .f y) ∧
      y.IsWhole ((rowMajor s).map n).sum := by
  obtain ⟨y, h1, h2, r, h', e, d, ext, _⟩ := C67_ieee_integers hd hdt hsize (fun idx hi => whole_iff.1 (hw idx hi)) hb
  exact ⟨r, h', y, e, ext, d, whole_iff.2 ⟨h1, h2⟩⟩

/-- **C80**: the sum of an expression (for example the dot product `(a * b).sum()`) is exact. -/
theorem C80_total {t : DType} (ht : isInteger t = false) {sh : Nat → List Nat} {vars : Nat → Nat} {x : Nat → List Nat → Ieee}
    {f : Nat → List Nat → Int} (hw : ∀ k idx, InBox (sh k) idx → (x k idx).IsWhole (f k idx)) {e : Formula} (hn : e.Fine sh)
    {h : Heap Ieee} (hv : ∀ k, Denotes h (vars k) t (sh k) fun idx => .f (x k idx)) (hs : e.StaysSmall t sh f)
    (hsize : vol (e.shape sh) < 18446744073709551616)
    (hb : ((rowMajor (e.shape sh)).map fun idx => |e.value (readAt sh f idx)|).sum < 9007199254740992) :
    ∃ (r : Nat) (h' : Heap Ieee) (y : Ieee), (do Tensor.sumT (← e.run vars) : M Ieee Nat) h = .ok r h' ∧
      (Denotes h' r .f64 [] fun _ => .f y) ∧ y.IsWhole ((rowMajor (e.shape sh)).map fun idx => e.value (readAt sh f idx)).sum := by
  obtain ⟨p, h1, y, e1, _, d1, w1⟩ := C80_value ht hw hn hv hs
  obtain ⟨r, h', z, e2, _, d2, w2⟩ := C80_sum d1 ht hsize w1 hb
  exact ⟨r, h', z, by rw [M.bind_ok e1]; exact e2, d2, w2⟩

/-- **C80**, mixed types: `+`, `-` and `*` of two tensors of which at least one is of a float type, and which hold whole numbers, as
integers or as floats of either format, is exact if the operands and the result are small for the type of the result. -/
theorem C80_mixed {op : AOp} (ho : op ≠ .div) {h : Heap Ieee} {l r : Nat} {dl dr : DType} {sl sr s : List Nat} {v w : List Nat → Val Ieee}
    {a b n : List Nat → Int} (hf : ¬ (isInteger dl = true ∧ isInteger dr = true)) (hl : Denotes h l dl sl v) (hr : Denotes h r dr sr w)
    (hs : bshape sl sr = some s) (hst : ¬ stretched sl sr) (hsize : vol s * (later dl dr).size < 9223372036854775808)
    (ha : ∀ idx, InBox sl idx → IsNumber (v idx) (a idx) ∧ Ieee.Small (later dl dr) (a idx))
    (hb : ∀ idx, InBox sr idx → IsNumber (w idx) (b idx) ∧ Ieee.Small (later dl dr) (b idx))
    (hn : ∀ idx, InBox s idx → exact op (a (project sl idx)) (b (project sr idx)) = some (n idx) ∧ Ieee.Small (later dl dr) (n idx)) :
    ∃ (p : Nat) (h' : Heap Ieee) (z : List Nat → Val Ieee), arithT op l r h = .ok p h' ∧ Extends h h' ∧ Denotes h' p (later dl dr) s z ∧
      ∀ idx, InBox s idx → IsNumber (z idx) (n idx) := by
  have key : ∀ idx, ∃ z : Val Ieee, InBox s idx → elemBinary op dl dr (v (project sl idx)) (w (project sr idx)) = some z ∧ IsNumber z (n idx) := by
    intro idx
    by_cases hi : InBox s idx
    · obtain ⟨n1, a1⟩ := ha _ (project_inBox_left hs hi)
      obtain ⟨n2, b1⟩ := hb _ (project_inBox_right hs hi)
      obtain ⟨e, c⟩ := hn idx hi
      obtain ⟨z, e1, w1⟩ := number_arith ho hf n1 n2 e a1 b1 c
      exact ⟨.f z, fun _ => ⟨e1, w1⟩⟩
    · exact ⟨.i 0, fun h => absurd h hi⟩
  choose z hz using key
  obtain ⟨p, h', e, d, ext, _⟩ := C14_arith_partial (op := op) (g := z) hl hr hs hst hsize (fun idx hi => (hz idx hi).1)
  exact ⟨p, h', z, e, ext, d, fun idx hi => (hz idx hi).2⟩

/-- **C80**, mixed types: comparing two tensors that hold whole numbers is comparing the numbers, whatever their types are; if one of
them is of a float type the numbers must be small for the later type. -/
theorem C80_mixed_compare (op : COp) {h : Heap Ieee} {l r : Nat} {dl dr : DType} {sl sr s : List Nat} {v w : List Nat → Val Ieee}
    {a b : List Nat → Int} (hl : Denotes h l dl sl v) (hr : Denotes h r dr sr w)
    (hs : bshape sl sr = some s) (hst : ¬ stretched sl sr) (hsize : vol s < 9223372036854775808)
    (ha : ∀ idx, InBox sl idx → IsNumber (v idx) (a idx)) (hb : ∀ idx, InBox sr idx → IsNumber (w idx) (b idx))
    (hsm : ¬ (isInteger dl = true ∧ isInteger dr = true) → (∀ idx, InBox sl idx → Ieee.Small (later dl dr) (a idx)) ∧
      ∀ idx, InBox sr idx → Ieee.Small (later dl dr) (b idx)) :
    ∃ c h', Tensor.cmp op l r h = .ok c h' ∧ Extends h h' ∧
      Denotes h' c .i8 s fun idx => .i (if icompare op (a (project sl idx)) (b (project sr idx)) then 1 else 0) := by
  obtain ⟨c, h', e, ⟨i, hi, hd, hz, hrd⟩, hext, _⟩ := C20_compare_partial (op := op) hl hr hs hst (by simpa [DType.size] using hsize)
  obtain ⟨i1, _, t1, s1, r1⟩ := hl
  obtain ⟨i2, _, t2, s2, r2⟩ := hr
  refine ⟨c, h', e, hext, i, hi, hd, hz, hrd.congr fun idx hbx => ?_⟩
  rw [hz] at hbx
  have p1 := project_inBox_left hs hbx
  have p2 := project_inBox_right hs hbx
  have T1 := r1.typed _ (by rw [s1]; exact p1)
  have T2 := r2.typed _ (by rw [s2]; exact p2)
  rw [t1] at T1
  rw [t2] at T2
  rw [number_compare op (ha _ p1) (hb _ p2) (fun hh => ⟨(hsm hh).1 _ p1, (hsm hh).2 _ p2⟩) T1 T2]
  by_cases hc : icompare op (a (project sl idx)) (b (project sr idx)) <;> simp [hc]

/-- **C80**: a quotient of float tensors that hold whole numbers is exact where the division leaves no remainder. -/
theorem C80_quotient {t : DType} (ht : isInteger t = false) {h : Heap Ieee} {l r : Nat} {sl sr s : List Nat} {x y : List Nat → Ieee}
    {a b q : List Nat → Int} (hl : Denotes h l t sl fun idx => .f (x idx)) (hr : Denotes h r t sr fun idx => .f (y idx))
    (hs : bshape sl sr = some s) (hst : ¬ stretched sl sr) (hsize : vol s * t.size < 9223372036854775808)
    (hx : ∀ idx, InBox sl idx → (x idx).IsWhole (a idx)) (hy : ∀ idx, InBox sr idx → (y idx).IsWhole (b idx))
    (hq : ∀ idx, InBox s idx → a (project sl idx) = q idx * b (project sr idx) ∧ b (project sr idx) ≠ 0 ∧ Ieee.Small t (q idx)) :
    ∃ (p : Nat) (h' : Heap Ieee) (z : List Nat → Ieee), arithT .div l r h = .ok p h' ∧ Extends h h' ∧
      (Denotes h' p t s fun idx => .f (z idx)) ∧ ∀ idx, InBox s idx → (z idx).IsWhole (q idx) := by
  obtain ⟨p, h', e, d, ext, _⟩ := C14_arith_partial (op := .div) (g := fun idx => .f (fop .div t (x (project sl idx)) (y (project sr idx))))
    hl hr hs hst (by rw [later_self]; exact hsize) (fun idx hi => elemSameFloat ht _ _)
  rw [later_self] at d
  refine ⟨p, h', _, e, ext, d, fun idx hi => ?_⟩
  obtain ⟨h1, h2, h3⟩ := hq idx hi
  have hx := hx _ (project_inBox_left hs hi)
  rw [h1] at hx
  exact whole_over hx (hy _ (project_inBox_right hs hi)) h2 h3

theorem meanOf_float {F : Type} [FOps F] {dt : DType} {s : List Nat} {f : List Nat → Val F} {z : F} (hdt : isInteger dt = false)
    (h0 : vol s ≠ 0) (hs : sumOf dt s f = some (.f z)) :
    meanOf dt s f = some (.f (fop .div .f64 z (FOps.ofInt .f64 (vol s : Int)))) := by
  unfold meanOf
  rw [if_neg h0, hs]
  simp only
  rw [show accType dt = .f64 by unfold accType; rw [if_neg (by simp [hdt])], if_neg (by simp [hdt])]
  unfold elemArith
  rw [if_neg (by decide)]
  rfl

theorem absSum_le (g : List Nat → Int) : ∀ l : List (List Nat), |(l.map g).sum| ≤ (l.map fun idx => |g idx|).sum
  | [] => by simp
  | x :: l => by
    simp only [List.map_cons, List.sum_cons]
    exact le_trans (abs_add_le _ _) (Int.add_le_add_left (absSum_le g l) _)

/-- **C80**: if the sum of the whole numbers of a float tensor is a multiple of their number, their mean is exact. -/
theorem C80_mean {h : Heap Ieee} {t : Nat} {dt : DType} {s : List Nat} {x : List Nat → Ieee} {n : List Nat → Int} {q : Int}
    (hd : Denotes h t dt s fun idx => .f (x idx)) (hdt : isInteger dt = false) (h0 : vol s ≠ 0) (hsize : vol s < 9007199254740992)
    (hw : ∀ idx, InBox s idx → (x idx).IsWhole (n idx)) (hb : ((rowMajor s).map fun idx => |n idx|).sum < 9007199254740992)
    (hq : ((rowMajor s).map n).sum = q * (vol s : Int)) :
    ∃ (r : Nat) (h' : Heap Ieee) (y : Ieee), Tensor.meanT t h = .ok r h' ∧ Extends h h' ∧ (Denotes h' r .f64 [] fun _ => .f y) ∧ y.IsWhole q := by
  obtain ⟨p, k, z, e1, _, d1, w1⟩ := C80_sum hd hdt (by omega) hw hb
  have hs := (sumIs_iff hd (by omega)).1 ⟨p, k, _, e1, d1⟩
  have hacc : accType dt = .f64 := by unfold accType; rw [if_neg (by simp [hdt])]
  obtain ⟨r, h', e, d, ext, _⟩ := C23_mean hd (by omega) (meanOf_float hdt h0 hs)
  rw [hacc] at d
  have hbig : Ieee.Small .f64 (vol s : Int) := by
    show _ < 2 ^ 53
    omega
  have hsum : |((rowMajor s).map n).sum| ≤ ((rowMajor s).map fun idx => |n idx|).sum := by
    have := absSum_le n (rowMajor s)
    exact this
  have hqs : Ieee.Small .f64 q := by
    show _ < 2 ^ 53
    have h1 : |q| ≤ |((rowMajor s).map n).sum| := by
      rw [hq, abs_mul]
      exact le_mul_of_one_le_right (abs_nonneg q) (by rw [abs_of_nonneg (by omega)]; omega)
    rw [Int.abs_eq_natAbs] at h1
    omega
  rw [hq] at w1
  exact ⟨r, h', _, e, ext, d, whole_over w1 (whole_ofInt hbig) (by omega) hqs⟩

/-- **C80**: a float tensor of such numbers and its transpose have equal sums. -/
theorem C80_transpose {h : Heap Ieee} {t : Nat} {dt : DType} {sizes : List Nat} {x : List Nat → Ieee} {n : List Nat → Int}
    (hd : Denotes h t dt sizes fun idx => .f (x idx)) (hview : Viewable h t) (hdt : isInteger dt = false)
    (hsize : vol sizes < 18446744073709551616) (hw : ∀ idx, InBox sizes idx → (x idx).IsWhole (n idx))
    (hsum : ((rowMajor sizes).map fun idx => |n idx|).sum < 9007199254740992) {a b : Nat} (ha : a < sizes.length) (hb : b < sizes.length)
    (hab : a ≠ b) :
    ∃ (r : Nat) (h' : Heap Ieee) (y y' : Ieee), Tensor.transpose t a b h = .ok r h' ∧ SumIs h t (.f y) ∧ SumIs h' r (.f y') ∧
      fcompare .eq y y' = true := by
  obtain ⟨r, h', e, hd', _⟩ := C10_transpose hd hview ha hb hab
  have hvol := vol_swapped_eq ha hb
  have hperm : ∀ g : List Nat → Int, ((rowMajor (swapped sizes a b)).map fun idx => g (swapped idx a b)).sum = ((rowMajor sizes).map g).sum :=
    fun g => by
      have := ((rowMajor_swapped ha hb).map g).sum_eq
      rw [List.map_map] at this
      exact this
  obtain ⟨p, k, y, e1, _, d1, w1⟩ := C80_sum hd hdt hsize hw hsum
  obtain ⟨p', k', y', e2, _, d2, w2⟩ := C80_sum (n := fun idx => n (swapped idx a b)) hd' hdt (by rw [hvol]; exact hsize)
    (fun idx hi => hw _ (inBox_swapped ha hb hi)) (by rw [hperm fun idx => |n idx|]; exact hsum)
  rw [hperm n] at w2
  refine ⟨r, h', y, y', e, ⟨p, k, _, e1, d1⟩, ⟨p', k', _, e2, d2⟩, ?_⟩
  rw [whole_compare .eq w1 w2]
  exact decide_eq_true rfl

/-! ### Examples -/

/-- A matrix `[[0, 1, 2], [3, 4, 5]]` and a row `[7, 8, 9]` of whole `f32` numbers. -/
def wholeNum (k : Nat) (idx : List Nat) : Int := if k = 0 then 3 * idx.getD 0 0 + idx.getD 1 0 else idx.getD 0 0 + 7
def wholeElem (k : Nat) (idx : List Nat) : Ieee := .fin false ((wholeNum k idx).natAbs * Ieee.one)
def wholeHeap : Heap Ieee :=
  ⟨[⟨.f32, 24, some ((rowMajor [2, 3]).map fun idx => some (.f (wholeElem 0 idx)))⟩,
    ⟨.f32, 12, some ((rowMajor [3]).map fun idx => some (.f (wholeElem 1 idx)))⟩],
   [⟨.f32, ⟨[2, 3], [3, 1], 0⟩, 0, none, false, false, none⟩, ⟨.f32, ⟨[3], [1], 0⟩, 1, none, false, false, none⟩], 0⟩

theorem wholeElem_whole (k : Nat) (idx : List Nat) : (wholeElem k idx).IsWhole (wholeNum k idx) := by
  refine ⟨_, _, rfl, ?_⟩
  have h : 0 ≤ wholeNum k idx := by unfold wholeNum; split <;> omega
  rw [signed_mul]
  unfold Ieee.signed
  rw [if_neg (by decide), Int.natAbs_of_nonneg h]

theorem whole_denote (k : Nat) : Denotes wholeHeap (rowsVar k) .f32 (rowsShape k) fun idx => .f (wholeElem k idx) := by
  unfold rowsVar rowsShape
  by_cases h : k = 0
  · rw [h]
    exact ⟨_, rfl, rfl, rfl, reads_of_check (by decide +kernel) (by decide +kernel) rfl rfl rfl (by decide +kernel)
      (by decide +kernel) fun _ _ => hasType_f.2 rfl⟩
  · have e : wholeElem k = wholeElem 1 := by
      funext idx
      unfold wholeElem wholeNum
      rw [if_neg h, if_neg (by decide)]
    rw [if_neg h, if_neg h, e]
    exact ⟨_, rfl, rfl, rfl, reads_of_check (by decide +kernel) (by decide +kernel) rfl rfl rfl (by decide +kernel)
      (by decide +kernel) fun _ _ => hasType_f.2 rfl⟩

instance (t : DType) (n : Int) : Decidable (Ieee.Small t n) := by unfold Ieee.Small; infer_instance

theorem binomials_small : binomials.1.StaysSmall .f32 rowsShape wholeNum ∧ binomials.2.StaysSmall .f32 rowsShape wholeNum := by
  simp only [binomials, Formula.StaysSmall, true_and]
  refine ⟨⟨?_, ?_, ?_⟩, ?_, ?_, ?_⟩ <;> exact forall_inBox (by decide +kernel)

/-- The two expressions (a + b) * (a - b) and a * a - b * b of the matrix and the row return equal tensors. -/
example : ∃ (r : Nat) (k : Heap Ieee) (r' : Nat) (k' : Heap Ieee) (s : List Nat) (y y' : List Nat → Ieee),
    binomials.1.run rowsVar wholeHeap = .ok r k ∧ binomials.2.run rowsVar wholeHeap = .ok r' k' ∧
      (Denotes k r .f32 s fun idx => .f (y idx)) ∧ (Denotes k' r' .f32 s fun idx => .f (y' idx)) ∧
      ∀ idx, InBox s idx → fcompare .eq (y idx) (y' idx) = true :=
  C80_equal rfl (fun k idx _ => wholeElem_whole k idx) binomials_fine.1 binomials_fine.2 binomials_uses binomials_equal whole_denote
    binomials_small.1 binomials_small.2
example : result ((do Tensor.toString (← binomials.1.run rowsVar) : M Ieee Str) wholeHeap) =
    some "[[-49.000000, -63.000000, -77.000000], [-40.000000, -48.000000, -56.000000]]".toList := by decide +kernel
/-- The matrix is smaller than the row everywhere. -/
example : ∃ c h', Tensor.cmp .lt 0 1 wholeHeap = .ok c h' ∧ Extends wholeHeap h' ∧
    Denotes h' c .i8 [2, 3] fun idx => .i (if icompare .lt (wholeNum 0 (project [2, 3] idx)) (wholeNum 1 (project [3] idx)) then 1 else 0) :=
  C80_compare .lt (whole_denote 0) (whole_denote 1) (fun idx _ => wholeElem_whole 0 idx) (fun idx _ => wholeElem_whole 1 idx) (by decide)
    (by simp [stretched, stretchRev]) (by decide)

/-- The dot products of the rows of the matrix with the row, added up: 26 + 98 = 124. -/
example : ∃ (r : Nat) (h' : Heap Ieee) (y : Ieee), (do Tensor.sumT (← (Formula.bin .mul (.var 0) (.var 1)).run rowsVar) : M Ieee Nat) wholeHeap = .ok r h' ∧
    (Denotes h' r .f64 [] fun _ => .f y) ∧ y.IsWhole 124 :=
  C80_total (e := .bin .mul (.var 0) (.var 1)) (sh := rowsShape) (f := wholeNum) rfl (fun k idx _ => wholeElem_whole k idx)
    ⟨trivial, trivial, by decide, by decide, by simp [Formula.shape, rowsShape, stretched, stretchRev], by decide⟩ whole_denote
    ⟨trivial, trivial, forall_inBox (by decide +kernel)⟩ (by decide) (by decide +kernel)
example : ∃ (r : Nat) (h' : Heap Ieee) (y y' : Ieee), Tensor.transpose 0 0 1 wholeHeap = .ok r h' ∧ SumIs wholeHeap 0 (.f y) ∧
    SumIs h' r (.f y') ∧ fcompare .eq y y' = true :=
  C80_transpose (whole_denote 0) ⟨_, rfl, by simp [Tame, IsI64], by simp⟩ rfl (by decide) (fun idx _ => wholeElem_whole 0 idx) (by decide +kernel)
    (by decide) (by decide) (by decide)

/-- The mean of the row 7, 8, 9. -/
example : ∃ (r : Nat) (h' : Heap Ieee) (y : Ieee), Tensor.meanT 1 wholeHeap = .ok r h' ∧ Extends wholeHeap h' ∧
    (Denotes h' r .f64 [] fun _ => .f y) ∧ y.IsWhole 8 :=
  C80_mean (whole_denote 1) rfl (by decide) (by decide) (fun idx _ => wholeElem_whole 1 idx) (by decide +kernel) (by decide +kernel)

/-- An `i16` column 100, -2 and the `f32` row 7, 8, 9. -/
def mixedHeap : Heap Ieee :=
  ⟨[⟨.i16, 4, some [some (.i 100), some (.i (-2))]⟩, ⟨.f32, 12, some ((rowMajor [3]).map fun idx => some (.f (wholeElem 1 idx)))⟩],
   [⟨.i16, ⟨[2, 1], [1, 1], 0⟩, 0, none, false, false, none⟩, ⟨.f32, ⟨[3], [1], 0⟩, 1, none, false, false, none⟩], 0⟩

theorem mixed_left : Denotes mixedHeap 0 .i16 [2, 1] fun idx => .i (if idx.getD 0 0 = 0 then 100 else -2) :=
  ⟨_, rfl, rfl, rfl, reads_of_check (by decide +kernel) (by decide +kernel) rfl rfl rfl (by decide +kernel) (by decide +kernel)
    fun idx _ => hasType_i.2 ⟨rfl, by split <;> decide⟩⟩

theorem mixed_right : Denotes mixedHeap 1 .f32 [3] fun idx => .f (wholeElem 1 idx) :=
  ⟨_, rfl, rfl, rfl, reads_of_check (by decide +kernel) (by decide +kernel) rfl rfl rfl (by decide +kernel) (by decide +kernel)
    fun _ _ => hasType_f.2 rfl⟩

theorem small_column : ∀ idx, InBox [2, 1] idx → Ieee.Small .f32 (if idx.getD 0 0 = 0 then 100 else -2) := forall_inBox (by decide +kernel)
theorem small_row : ∀ idx, InBox [3] idx → Ieee.Small .f32 (wholeNum 1 idx) := forall_inBox (by decide +kernel)

/-- Their product, of shape [2, 3]: 700, 800, 900, -14, -16, -18; and where the column is smaller than the row. -/
example : ∃ (p : Nat) (h' : Heap Ieee) (z : List Nat → Val Ieee), arithT .mul 0 1 mixedHeap = .ok p h' ∧ Extends mixedHeap h' ∧
    Denotes h' p .f32 [2, 3] z ∧
    ∀ idx, InBox [2, 3] idx → IsNumber (z idx) ((if idx.getD 0 0 = 0 then 100 else -2) * (idx.getD 1 0 + 7 : Int)) := by
  have hn : ∀ idx, InBox [2, 3] idx →
      exact .mul ((fun idx => if idx.getD 0 0 = 0 then 100 else -2 : List Nat → Int) (project [2, 1] idx)) (wholeNum 1 (project [3] idx)) =
        some ((if idx.getD 0 0 = 0 then 100 else -2) * (idx.getD 1 0 + 7 : Int)) ∧
      Ieee.Small .f32 ((if idx.getD 0 0 = 0 then 100 else -2) * (idx.getD 1 0 + 7 : Int)) := forall_inBox (by decide +kernel)
  exact C80_mixed (op := .mul) (by decide) (by decide) mixed_left mixed_right (by decide) (by simp [stretched, stretchRev]) (by decide)
    (fun idx hi => ⟨rfl, small_column idx hi⟩) (fun idx hi => ⟨wholeElem_whole 1 idx, small_row idx hi⟩) hn
example : ∃ c h', Tensor.cmp .lt 0 1 mixedHeap = .ok c h' ∧ Extends mixedHeap h' ∧
    Denotes h' c .i8 [2, 3] fun idx => .i (if icompare .lt ((fun idx => if idx.getD 0 0 = 0 then 100 else -2 : List Nat → Int)
      (project [2, 1] idx)) (wholeNum 1 (project [3] idx)) then 1 else 0) :=
  C80_mixed_compare .lt (a := fun idx => if idx.getD 0 0 = 0 then 100 else -2) (b := wholeNum 1) mixed_left mixed_right (by decide) (by simp [stretched, stretchRev]) (by decide)
    (fun idx _ => rfl) (fun idx _ => wholeElem_whole 1 idx) fun _ => ⟨small_column, small_row⟩

/-- The `f64` numbers 12, -6 and the number -3. -/
def quotElem (idx : List Nat) : Ieee := if idx.getD 0 0 = 0 then .fin false (12 * Ieee.one) else .fin true (6 * Ieee.one)
def quotHeap : Heap Ieee :=
  ⟨[⟨.f64, 16, some ((rowMajor [2]).map fun idx => some (.f (quotElem idx)))⟩, ⟨.f64, 8, some [some (.f (.fin true (3 * Ieee.one)))]⟩],
   [⟨.f64, ⟨[2], [1], 0⟩, 0, none, false, false, none⟩, ⟨.f64, ⟨[1], [1], 0⟩, 1, none, false, false, none⟩], 0⟩

theorem quotElem_whole (idx : List Nat) : (quotElem idx).IsWhole (if idx.getD 0 0 = 0 then 12 else -6) := by
  unfold quotElem
  split
  · exact ⟨_, _, rfl, by rw [signed_mul]; rfl⟩
  · exact ⟨_, _, rfl, by rw [signed_mul]; rfl⟩

/-- 12 / -3 = -4 and -6 / -3 = 2. -/
example : ∃ (p : Nat) (h' : Heap Ieee) (z : List Nat → Ieee), arithT .div 0 1 quotHeap = .ok p h' ∧ Extends quotHeap h' ∧
    (Denotes h' p .f64 [2] fun idx => .f (z idx)) ∧ ∀ idx, InBox [2] idx → (z idx).IsWhole (if idx.getD 0 0 = 0 then -4 else 2) :=
  C80_quotient (sl := [2]) (sr := [1]) (x := quotElem) (y := fun _ => .fin true (3 * Ieee.one)) (b := fun _ => -3) rfl
    ⟨_, rfl, rfl, rfl, reads_of_check (by decide +kernel) (by decide +kernel) rfl rfl rfl (by decide +kernel) (by decide +kernel)
      fun _ _ => hasType_f.2 rfl⟩
    ⟨_, rfl, rfl, rfl, reads_of_check (by decide +kernel) (by decide +kernel) rfl rfl rfl (by decide +kernel) (by decide +kernel)
      fun _ _ => hasType_f.2 rfl⟩
    (by decide) (by simp [stretched, stretchRev]) (by decide) (fun idx _ => quotElem_whole idx)
    (fun _ _ => ⟨_, _, rfl, by rw [signed_mul]; rfl⟩) (forall_inBox (by decide +kernel))

def wholeInts : Heap Ieee := ⟨[⟨.i32, 8, some [some (.i 16777215), some (.i (-3))]⟩], [⟨.i32, ⟨[2], [1], 0⟩, 0, none, false, false, none⟩], 0⟩
def wholeInt (idx : List Nat) : Int := if idx = [0] then 16777215 else -3
example : ∃ (t1 : Nat) (h1 : Heap Ieee) (t2 : Nat) (h2 : Heap Ieee) (x : List Nat → Ieee), Tensor.toType 0 .f32 wholeInts = .ok t1 h1 ∧
    Tensor.toType t1 .i32 h1 = .ok t2 h2 ∧ (Denotes h1 t1 .f32 [2] fun idx => .f (x idx)) ∧
    (∀ idx, InBox [2] idx → (x idx).IsWhole (wholeInt idx)) ∧ Denotes h2 t2 .i32 [2] fun idx => .i (wholeInt idx) :=
  C80_roundtrip (f := wholeInt) ⟨_, rfl, rfl, rfl, reads_of_check (by decide) (by decide) rfl rfl rfl (by decide)
    (by decide) fun idx _ => hasType_i.2 ⟨rfl, by unfold wholeInt; split <;> decide⟩⟩ rfl rfl rfl rfl (forall_inBox (by decide)) (by decide)

/-- **C80**, why below 2^24: as an `f32` the integer 2^24 + 1 becomes 2^24. -/
theorem C80_too_large :
    result ((do
      let a ← Tensor.fromBlob [.i 16777217] [1] .i32
      Tensor.toString (← Tensor.toType (← Tensor.toType a .f32) .i32) : M Ieee Str) Heap.empty) = some "[16777216]".toList := by
  decide +kernel

/-- **C80**, why also in comparisons: the `i32` number 2^24 + 1 "equals" the `f32` number 2^24, which "equals" the `i32` number 2^24; so
with mixed types `==` is not transitive. -/
theorem C80_mixed_wrong :
    result ((do
      let a ← Tensor.fromBlob [.i 16777217] [1] .i32
      let b ← Tensor.fromBlob [.f (FOps.ofInt .f32 16777216)] [1] .f32
      let c ← Tensor.fromBlob [.i 16777216] [1] .i32
      return (← Tensor.toString (← Tensor.cmp .eq a b)) ++ (← Tensor.toString (← Tensor.cmp .eq b c)) ++
        (← Tensor.toString (← Tensor.cmp .eq a c)) : M Ieee Str) Heap.empty) = some "[1][1][0]".toList := by
  decide +kernel

/-- **C80**, why equal and not the same: with a = b = 1 and c = -1, (a - b) * c is -0 and a * c - b * c is 0. -/
theorem C80_zero_sign :
    result ((do
      let a ← Tensor.fromBlob [.f (FOps.ofInt .f32 1)] [1] .f32
      let b ← Tensor.fromBlob [.f (FOps.ofInt .f32 1)] [1] .f32
      let c ← Tensor.fromBlob [.f (FOps.ofInt .f32 (-1))] [1] .f32
      pure [← Tensor.toString (← arithT .mul (← arithT .sub a b) c),
        ← Tensor.toString (← arithT .sub (← arithT .mul a c) (← arithT .mul b c))] : M Ieee (List Str)) Heap.empty) =
      some ["[-0.000000]".toList, "[0.000000]".toList] := by
  decide +kernel

end INNC
