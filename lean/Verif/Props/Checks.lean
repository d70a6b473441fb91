import Verif.Lemmas.Totals
import Verif.Lemmas.ForwardCalls
import Verif.Props.Construct
import Verif.Props.Reduce
import Verif.Props.Ieee
import Verif.Props.Outcome
/-
C79: checks and counts written with comparisons.
-/
namespace INNC
open Spec
variable {F : Type} [FOps F]

theorem sum_indicator {α : Type} (p : α → Bool) : ∀ l : List α, (l.map fun x => if p x then (1 : Int) else 0).sum = (l.filter p).length
  | [] => rfl
  | x :: l => by
    rw [List.map_cons, List.sum_cons, sum_indicator p l]
    by_cases h : p x = true
    · rw [List.filter_cons_of_pos h, if_pos h, List.length_cons]
      omega
    · rw [List.filter_cons_of_neg h, if_neg h]
      omega

theorem bshape_nil (s : List Nat) : bshape [] s = some s ∧ ¬ stretched [] s := by
  constructor
  · have : ∀ l : List Nat, bshapeRev [] l = some l := fun l => by cases l <;> rfl
    simp [bshape, this]
  · unfold stretched
    cases s.reverse <;> simp [stretchRev]

/-- **C79**: counting. For any two tensors, of any element types and shapes, the sum of a comparison either is the number of
indices of the result at which the comparison holds, or it throws because the shapes do not broadcast; it is never undefined. -/
theorem C79_count {op : COp} {h : Heap F} {l r : Nat} {dl dr : DType} {sl sr : List Nat} {fl fr : List Nat → Val F}
    (hl : Denotes h l dl sl fl) (hr : Denotes h r dr sr fr) (hsize : vol (maxShape sl sr) < 9223372036854775808) :
    ((∀ idx, InBox (maxShape sl sr) idx → Meets sl sr idx) ∧
      ∃ t h', (do Tensor.sumT (← Tensor.cmp op l r) : M F Nat) h = .ok t h' ∧ Extends h h' ∧ Denotes h' t .i64 [] fun _ =>
        .i ((rowMajor (maxShape sl sr)).filter fun idx => elemCompare op dl dr (fl (project sl idx)) (fr (project sr idx))).length) ∨
    ((∃ idx, InBox (maxShape sl sr) idx ∧ ¬ Meets sl sr idx) ∧
      ∃ h', (do Tensor.sumT (← Tensor.cmp op l r) : M F Nat) h = .throw .runtime h' ∧ Extends h h') := by
  rcases C60_compare op hl hr hsize with ⟨hm, c, h1, e1, d1, x1, _⟩ | ⟨hm, h1, e1, x1⟩
  · refine .inl ⟨hm, ?_⟩
    generalize maxShape sl sr = s at *
    have hp : ∀ k ≤ vol s, InRange 64 (((rowMajor s).take k).map fun idx =>
        if elemCompare op dl dr (fl (project sl idx)) (fr (project sr idx)) then (1 : Int) else 0).sum := fun k _ => by
      rw [sum_indicator]
      have h2 := List.length_filter_le (fun idx => elemCompare op dl dr (fl (project sl idx)) (fr (project sr idx))) ((rowMajor s).take k)
      have h3 : ((rowMajor s).take k).length ≤ vol s := by
        rw [List.length_take, length_rowMajor]; exact Nat.min_le_right _ _
      unfold InRange
      have e : (2 : Int) ^ (64 - 1) = 9223372036854775808 := by decide
      rw [e]
      omega
    obtain ⟨t, h2, e2, d2, x2, _⟩ := C22_sum_integer d1 (by omega) rfl hp
    refine ⟨t, h2, by rw [M.bind_ok e1]; exact e2, ⟨fun t i h => x2.ts t i (x1.ts t i h), fun t i h => x2.st t i (x1.st t i h)⟩, ?_⟩
    rw [sum_indicator] at d2
    exact d2
  · exact .inr ⟨hm, h1, M.bind_throw e1, x1⟩

theorem filter_three {α : Type} {p q r : α → Bool} : ∀ l : List α,
    (∀ x ∈ l, (p x = true ∧ q x = false ∧ r x = false) ∨ (p x = false ∧ q x = true ∧ r x = false) ∨ (p x = false ∧ q x = false ∧ r x = true)) →
    (l.filter p).length + (l.filter q).length + (l.filter r).length = l.length
  | [], _ => rfl
  | x :: l, h => by
    have ih := filter_three l fun y hy => h y (by simp [hy])
    rcases h x (by simp) with ⟨h1, h2, h3⟩ | ⟨h1, h2, h3⟩ | ⟨h1, h2, h3⟩ <;> simp only [List.filter_cons, h1, h2, h3, if_true, Bool.false_eq_true, if_false, List.length_cons] <;> omega

/-- **C79**: for integer tensors of shapes that broadcast, the numbers of positions with `<`, `==` and `>` add up to the number
of elements of the result. -/
theorem C79_three {h : Heap F} {l r : Nat} {dl dr : DType} {sl sr : List Nat} {fl fr : List Nat → Int}
    (hl : Denotes h l dl sl fun idx => .i (fl idx)) (hr : Denotes h r dr sr fun idx => .i (fr idx))
    (hsize : vol (maxShape sl sr) < 9223372036854775808) (hm : ∀ idx, InBox (maxShape sl sr) idx → Meets sl sr idx) :
    ∃ n : COp → Nat, n .lt + n .eq + n .gt = vol (maxShape sl sr) ∧
      ∀ op, ∃ t h', (do Tensor.sumT (← Tensor.cmp op l r) : M F Nat) h = .ok t h' ∧ Denotes h' t .i64 [] fun _ => .i (n op) := by
  refine ⟨fun op => ((rowMajor (maxShape sl sr)).filter fun idx =>
    elemCompare (F := F) op dl dr (.i (fl (project sl idx))) (.i (fr (project sr idx)))).length, ?_, fun op => ?_⟩
  · rw [← length_rowMajor (maxShape sl sr)]
    refine filter_three _ fun x _ => ?_
    simp only [elemCompare, icompare, decide_eq_true_eq, decide_eq_false_iff_not]
    rcases Int.lt_trichotomy (fl (project sl x)) (fr (project sr x)) with h | h | h
    · exact .inl ⟨decide_eq_true h, decide_eq_false (by omega), decide_eq_false (by omega)⟩
    · exact .inr (.inl ⟨decide_eq_false (by omega), decide_eq_true h, decide_eq_false (by omega)⟩)
    · exact .inr (.inr ⟨decide_eq_false (by omega), decide_eq_false (by omega), decide_eq_true h⟩)
  · rcases C79_count (op := op) hl hr hsize with ⟨_, t, h', e, _, d⟩ | ⟨⟨idx, h1, h2⟩, _⟩
    · exact ⟨t, h', e, d⟩
    · exact absurd (hm idx h1) h2

/-- **C79**: for integer tensors of the same shape `(a == b).all()` is true exactly if the tensors have the same elements. -/
theorem C79_equal {h : Heap F} {l r : Nat} {dl dr : DType} {s : List Nat} {fl fr : List Nat → Int}
    (hl : Denotes h l dl s fun idx => .i (fl idx)) (hr : Denotes h r dr s fun idx => .i (fr idx))
    (hsize : vol s < 9223372036854775808) :
    ∃ b h', (do Tensor.allT (← Tensor.cmp .eq l r) : M F Bool) h = .ok b h' ∧ Extends h h' ∧
      (b = true ↔ ∀ idx, InBox s idx → fl idx = fr idx) := by
  obtain ⟨b, h', e, x, hb⟩ := C21_compare_all_partial (op := .eq) hl hr (bshape_self s) (stretched_self s) (by simpa [DType.size] using hsize)
  refine ⟨b, h', e, x, hb.trans ⟨fun h idx hi => ?_, fun h idx hi => ?_⟩⟩
  · have := h idx hi
    rw [project_self hi] at this
    simpa only [elemCompare_i, icompare] using this
  · rw [project_self hi]
    simpa only [elemCompare_i, icompare] using h idx hi

theorem all_of_compare {op : COp} {h : Heap F} {l r : Nat} {dl dr : DType} {s : List Nat} {n : Int} {f : List Nat → Int}
    (hl : Denotes h l dl [] fun _ => .i n) (hr : Denotes h r dr s fun idx => .i (f idx)) (hsize : vol s < 9223372036854775808)
    (hc : ∀ idx, InBox s idx → icompare op n (f idx)) :
    ∃ h', (do Tensor.allT (← Tensor.cmp op l r) : M F Bool) h = .ok true h' := by
  obtain ⟨b, h', e, _, hb⟩ := C21_compare_all_partial (op := op) hl hr (bshape_nil s).1 (bshape_nil s).2 (by simpa [DType.size] using hsize)
  have : b = true := hb.2 fun idx hi => by
    rw [project_self hi]
    simpa only [elemCompare_i] using hc idx hi
  rw [this] at e
  exact ⟨h', e⟩

theorem foldl_pick_bound {keep : COp} (hk : keep = .ge ∨ keep = .le) {dt : DType} {f : List Nat → Int} : ∀ (l : List (List Nat)) (n : Int)
    (b : List Nat), ∃ m, (l.foldl (pick keep dt fun idx => (.i (f idx) : Val F)) (.i n, b)).1 = .i m ∧ icompare keep m n ∧
      ∀ x ∈ l, icompare keep m (f x)
  | [], n, b => ⟨n, rfl, by rcases hk with rfl | rfl <;> simp [icompare], by simp⟩
  | x :: l, n, b => by
    rw [List.foldl_cons]
    by_cases hc : icompare keep n (f x)
    · rw [show pick keep dt (fun idx => (.i (f idx) : Val F)) (.i n, b) x = (.i n, b) by
        unfold pick; rw [if_pos (by simpa only [elemCompare_i] using hc)]]
      obtain ⟨m, h1, h2, h3⟩ := foldl_pick_bound hk l n b
      refine ⟨m, h1, h2, fun y hy => ?_⟩
      rcases List.mem_cons.1 hy with rfl | hy
      · rcases hk with rfl | rfl <;> simp only [icompare] at h2 hc ⊢ <;> omega
      · exact h3 y hy
    · rw [show pick keep dt (fun idx => (.i (f idx) : Val F)) (.i n, b) x = (.i (f x), x) by
        unfold pick; rw [if_neg (by simpa only [elemCompare_i] using hc)]]
      obtain ⟨m, h1, h2, h3⟩ := foldl_pick_bound hk l (f x) x
      refine ⟨m, h1, ?_, fun y hy => ?_⟩
      · rcases hk with rfl | rfl <;> simp only [icompare] at h2 hc ⊢ <;> omega
      · rcases List.mem_cons.1 hy with rfl | hy
        · exact h2
        · exact h3 y hy

/-- **C79**: the checks `(v.max() >= v).all()` and `(v.min() <= v).all()` succeed, for every integer tensor v that does not
require grad: a tensor that starts at the first element of its storage (then v itself can serve as `a`), or any view into
such a tensor `a`, wherever the view starts. (That `v.max()` is an element of v is false for such views, `C79_view_wrong`.) -/
theorem C79_extremes {h : Heap F} {a v : Nat} {j i : Impl} {f g : List Nat → Int} (hj : h.ts[a]? = some j)
    (ha : Reads h j fun idx => .i (g idx)) (h0 : vol j.view.sizes ≠ 0) (hoff : j.view.offset = 0)
    (hi : h.ts[v]? = some i) (hr : Reads h i fun idx => .i (f idx)) (hdata : i.data = j.data) (hdt : i.dtype = j.dtype)
    (hsize : vol i.view.sizes < 9223372036854775808) (hg : i.requiresGrad = false) :
    (∃ h', (do Tensor.allT (← Tensor.cmp .ge (← Tensor.maxT v) v) : M F Bool) h = .ok true h') ∧
    ∃ h', (do Tensor.allT (← Tensor.cmp .le (← Tensor.minT v) v) : M F Bool) h = .ok true h' := by
  have hd : Denotes h v i.dtype i.view.sizes fun idx => .i (f idx) := ⟨i, hi, rfl, rfl, hr⟩
  have hx := startsWith_of_offset ha hoff h0
  have hx' : StartsWith h i (.i (g (j.view.sizes.map fun _ => 0)) : Val F) := by
    unfold StartsWith at hx ⊢
    rw [hdata, hdt]
    exact hx
  have key : ∀ op : COp, (op = .ge ∨ op = .le) →
      ∃ h', (do Tensor.allT (← Tensor.cmp op (← Tensor.extreme op v) v) : M F Bool) h = .ok true h' := fun op ho => by
    obtain ⟨h1, e1, b1⟩ := extreme_ok (keep := op) hi hr hx' hg
    obtain ⟨m, hm, _, hb⟩ := foldl_pick_bound (F := F) ho (dt := i.dtype) (f := f) (rowMajor i.view.sizes)
      (g (j.view.sizes.map fun _ => 0)) []
    have d1 := b1.denotes
    rw [show (best op i.dtype i.view.sizes (fun idx => (.i (f idx) : Val F)) (.i (g (j.view.sizes.map fun _ => 0)))).1 = .i m from hm]
      at d1
    obtain ⟨h', e⟩ := all_of_compare (op := op) d1 (hd.of_extends b1.ext) hsize fun idx hi => hb idx (mem_rowMajor.2 hi)
    exact ⟨h', by rw [M.bind_ok e1]; exact e⟩
  exact ⟨key .ge (.inl rfl), key .le (.inr rfl)⟩

theorem meanOf_value {t : DType} (ht : isInteger t = true) {s : List Nat} {f : List Nat → Val F}
    (hf : ∀ idx, InBox s idx → (f idx).HasType t) (h0 : vol s ≠ 0) {v : Val F} (e : meanOf t s f = some v) :
    v = .i (((rowMajor s).map fun idx => intOf (f idx)).sum.tdiv (vol s)) := by
  have hacc : accType t = .i64 := by unfold accType; rw [if_pos ht]
  unfold meanOf at e
  rw [if_neg h0] at e
  cases hs : sumOf t s f with
  | none => rw [hs] at e; cases e
  | some w =>
    rw [hs, sumOf_intOf ht hf hs, hacc] at e
    simp only [ht, if_true] at e
    unfold elemArith at e
    rw [if_pos ⟨rfl, rfl⟩] at e
    simp only [exact] at e
    rw [if_neg (by exact_mod_cast h0)] at e
    simp only at e
    split at e
    · rename_i h1
      cases e
      rw [show width (later .i64 .i64) = 64 from rfl, reduce_self (b := 64) (by decide) h1]
    · cases e

theorem sum_bounds {g : List Nat → Int} {a b : Int} : ∀ l : List (List Nat), (∀ x ∈ l, a ≤ g x ∧ g x ≤ b) →
    a * l.length ≤ (l.map g).sum ∧ (l.map g).sum ≤ b * l.length
  | [], _ => by simp
  | x :: l, h => by
    obtain ⟨h1, h2⟩ := sum_bounds l fun y hy => h y (by simp [hy])
    obtain ⟨h3, h4⟩ := h x (by simp)
    rw [List.map_cons, List.sum_cons, List.length_cons]
    push_cast
    constructor <;> linarith

/-- **C79**: the mean of a non-empty integer tensor, whenever it returns, lies between its smallest and its largest element. -/
theorem C79_mean {h : Heap F} {t : Nat} {dt : DType} {s : List Nat} {f : List Nat → Int} (hd : Denotes h t dt s fun idx => .i (f idx))
    (hdt : isInteger dt = true) (h0 : vol s ≠ 0) (hsize : vol s < 9223372036854775808) {v : Val F} (hv : MeanIs h t v) {a b : Int}
    (ha : ∀ idx, InBox s idx → a ≤ f idx) (hb : ∀ idx, InBox s idx → f idx ≤ b) : ∃ n, v = .i n ∧ a ≤ n ∧ n ≤ b := by
  have e := (meanIs_iff hd hsize).1 hv
  obtain ⟨i, _, rfl, rfl, hr⟩ := hd
  refine ⟨_, meanOf_value hdt hr.typed h0 e, ?_⟩
  obtain ⟨h1, h2⟩ := sum_bounds (g := f) (a := a) (b := b) (rowMajor i.view.sizes) fun x hx =>
    ⟨ha x (mem_rowMajor.1 hx), hb x (mem_rowMajor.1 hx)⟩
  rw [length_rowMajor] at h1 h2
  change a ≤ (((rowMajor i.view.sizes).map f).sum).tdiv _ ∧ (((rowMajor i.view.sizes).map f).sum).tdiv _ ≤ b
  have hpos : (0 : Int) < (vol i.view.sizes : Int) := by omega
  have hne : (vol i.view.sizes : Int) ≠ 0 := by omega
  constructor
  · have := Int.tdiv_le_tdiv hpos h1
    rwa [Int.mul_tdiv_cancel _ hne] at this
  · have := Int.tdiv_le_tdiv hpos h2
    rwa [Int.mul_tdiv_cancel _ hne] at this

/-- How many numbers of the row 10, 20, 30 are larger than the corresponding ones of the matrix of 1 to 6: all six. -/
example : ∃ t h', (do Tensor.sumT (← Tensor.cmp .gt 1 0) : M Int Nat) exHeap = .ok t h' ∧ Extends exHeap h' ∧
    Denotes h' t .i64 [] fun _ => .i 6 := by
  rcases C79_count (op := .gt) exHeap_b exHeap_a (by decide) with ⟨_, h⟩ | ⟨⟨idx, h1, h2⟩, _⟩
  · exact h
  · exact absurd (forall_inBox (P := Meets [3] [2, 3]) (by unfold Meets; decide) idx h1) h2
/-- The matrix of 1 to 6 and its transpose do not broadcast. -/
example : ∃ h', (do Tensor.sumT (← Tensor.cmp .gt 0 2) : M Int Nat) exHeap = .throw .runtime h' ∧ Extends exHeap h' := by
  rcases C79_count (op := .gt) exHeap_a exHeap_aT (by decide) with ⟨h, _⟩ | ⟨_, h⟩
  · exact absurd (h [0, 2] (by decide)) (by unfold Meets; decide)
  · exact h
example : ∃ n : COp → Nat, n .lt + n .eq + n .gt = 6 ∧ ∀ op, ∃ t h', (do Tensor.sumT (← Tensor.cmp op 1 0) : M Int Nat) exHeap =
    .ok t h' ∧ Denotes h' t .i64 [] fun _ => .i (n op) :=
  C79_three (fl := fun idx => intOf (exB idx)) (fr := fun idx => intOf (exA idx)) exHeap_b exHeap_a (by decide)
    (forall_inBox (by unfold Meets; decide))
example : ∃ b h', (do Tensor.allT (← Tensor.cmp .eq 0 0) : M Int Bool) exHeap = .ok b h' ∧ Extends exHeap h' ∧
    (b = true ↔ ∀ idx, InBox [2, 3] idx → intOf (exA idx) = intOf (exA idx)) :=
  C79_equal (fl := fun idx => intOf (exA idx)) (fr := fun idx => intOf (exA idx)) exHeap_a exHeap_a (by decide)
example : (∃ h', (do Tensor.allT (← Tensor.cmp .ge (← Tensor.maxT 0) 0) : M Int Bool) exHeap = .ok true h') ∧
    ∃ h', (do Tensor.allT (← Tensor.cmp .le (← Tensor.minT 0) 0) : M Int Bool) exHeap = .ok true h' := by
  obtain ⟨i, hi, _, hs, hr⟩ := exHeap_a
  obtain rfl := Option.some.inj hi
  exact C79_extremes (a := 0) (f := fun idx => intOf (exA idx)) (g := fun idx => intOf (exA idx)) rfl hr (by decide) rfl rfl hr rfl rfl
    (by decide) rfl
/-- The mean of 1 to 6, truncated, is 3. -/
example : ∃ n, (.i 3 : Val Int) = .i n ∧ 1 ≤ n ∧ n ≤ 6 :=
  C79_mean (f := fun idx => intOf (exA idx)) exHeap_a rfl (by decide) (by decide)
    ((meanIs_iff exHeap_a (by decide)).2 (by decide)) (forall_inBox (by decide)) (forall_inBox (by decide))

/-- A view that starts at the second element of its storage [9, 1, 2]. -/
example (h : Heap Int) (hh : h = ⟨[⟨.i32, 12, some [some (.i 9), some (.i 1), some (.i 2)]⟩],
    [⟨.i32, ⟨[3], [1], 0⟩, 0, none, false, false, none⟩, ⟨.i32, ⟨[2], [1], 1⟩, 0, none, false, false, none⟩], 0⟩) :
    (∃ h', (do Tensor.allT (← Tensor.cmp .ge (← Tensor.maxT 1) 1) : M Int Bool) h = .ok true h') ∧
    ∃ h', (do Tensor.allT (← Tensor.cmp .le (← Tensor.minT 1) 1) : M Int Bool) h = .ok true h' :=
  hh ▸ C79_extremes (a := 0) (f := fun idx => idx.getD 0 0 + 1) (g := fun idx => if idx.getD 0 0 = 0 then 9 else idx.getD 0 0) rfl
    (reads_of_check (by decide) (by decide) rfl rfl rfl (by decide) (by decide) (by decide)) (by decide) rfl rfl
    (reads_of_check (by decide) (by decide) rfl rfl rfl (by decide) (by decide) (by decide)) rfl rfl (by decide) rfl

/-- The stronger claim, that some element of v equals `v.max()`, is false for such views: with a = [9, 1, 2] and
v = a["1:3"], `v.max()` is 9 and the number of elements of v equal to it is 0. -/
theorem C79_view_wrong :
    result ((do
      let a ← Tensor.fromBlob [.i 9, .i 1, .i 2] [3] .i32
      let v ← Tensor.slice a "1:3".toList
      let m ← Tensor.maxT v
      let c ← Tensor.sumT (← Tensor.cmp .eq m v)
      pure (← Tensor.toString m, ← Tensor.toString c) : M Int (Str × Str)) Heap.empty) = some ("9".toList, "0".toList) := by
  decide +kernel

/-- **C79** is false for floats that are not numbers: 0/0 is not equal to itself, so `(a == a).all()` is false. -/
theorem C79_not_a_number :
    result ((do
      let z ← Tensor.fromBlob [.f (FOps.ofInt .f64 0)] [1] .f64
      let a ← arithT .div z z
      Tensor.allT (← Tensor.cmp .eq a a) : M Ieee Bool) Heap.empty) = some false := by
  decide +kernel

end INNC
