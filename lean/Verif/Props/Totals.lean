import Verif.Lemmas.Totals
import Verif.Props.Reduce
import Verif.Props.Cat
import Verif.Props.Reshape
import Verif.Props.Elementwise
import Verif.Props.Ieee
/-
C77: laws of sums and means.
-/
namespace INNC
open Spec
variable {F : Type} [FOps F]

theorem small_of_bytes {dt : DType} {s : List Nat} (h : vol s * dt.size < 9223372036854775808) : vol s < 9223372036854775808 := by
  have : 1 ≤ dt.size := by cases dt <;> decide
  have := Nat.mul_le_mul_left (vol s) this
  omega

theorem vol_swapped_eq {s : List Nat} {a b : Nat} (ha : a < s.length) (hb : b < s.length) : vol (swapped s a b) = vol s := by
  have := (rowMajor_swapped ha hb).length_eq
  rwa [List.length_map, length_rowMajor, length_rowMajor] at this

/-- **C77**: reshaping a tensor changes neither what its sum returns nor what its mean returns, for every element type
(scalars aside, on either side). -/
theorem C77_reshape_partial {h : Heap F} {t : Nat} {dt : DType} {sizes s' : List Nat} {f : List Nat → Val F}
    (ht : Denotes h t dt sizes f) (hview : Viewable h t) (hsz : vol sizes * dt.size < 9223372036854775808)
    (hs' : ∀ n ∈ s', n < 18446744073709551616) (hv : vol s' = vol sizes) (h0 : sizes ≠ []) (h0' : s' ≠ []) :
    ∃ r h', Tensor.reshape t (request s') h = .ok r h' ∧
      ∀ v, (SumIs h' r v ↔ SumIs h t v) ∧ (MeanIs h' r v ↔ MeanIs h t v) := by
  obtain ⟨r, h', g, e, hd, hg, _, _⟩ := C11_reshape_partial ht hview hsz hs' hv (.inl ⟨fun h => absurd h h0, fun h => absurd h h0'⟩)
  have hb := small_of_bytes hsz
  have hsum : sumOf dt s' g = sumOf dt sizes f := by
    obtain ⟨n, s', rfl⟩ := List.exists_cons_of_ne_nil h0'
    obtain ⟨m, sizes, rfl⟩ := List.exists_cons_of_ne_nil h0
    change total dt (elems _ g) = total dt (elems _ f)
    unfold elems
    rw [hg]
  have hmean : meanOf dt s' g = meanOf dt sizes f := by
    unfold meanOf
    rw [hv, hsum]
  refine ⟨r, h', e, fun v => ⟨?_, ?_⟩⟩
  · rw [sumIs_iff hd (by omega), sumIs_iff ht (by omega), hsum]
  · rw [meanIs_iff hd (by omega), meanIs_iff ht hb, hmean]

/-- **C77**: a tensor of integers and its transpose have the same sum and the same mean, whenever both return. -/
theorem C77_transpose_partial {h : Heap F} {t : Nat} {dt : DType} {sizes : List Nat} {f : List Nat → Val F}
    (ht : Denotes h t dt sizes f) (hview : Viewable h t) (hdt : isInteger dt = true) (hsz : vol sizes < 9223372036854775808)
    {a b : Nat} (ha : a < sizes.length) (hb : b < sizes.length) (hab : a ≠ b) :
    ∃ r h', Tensor.transpose t a b h = .ok r h' ∧
      (∀ v w, SumIs h' r v → SumIs h t w → v = w) ∧ (∀ v w, MeanIs h' r v → MeanIs h t w → v = w) := by
  obtain ⟨r, h', e, hd, _⟩ := C10_transpose ht hview ha hb hab
  have hvol := vol_swapped_eq ha hb
  have typed : ∀ {k : Heap F} {x s g}, Denotes k x dt s g → ∀ idx, InBox s idx → (g idx).HasType dt := by
    rintro k x s g ⟨i, _, rfl, rfl, hr⟩
    exact hr.typed
  have hsum : ∀ v w, sumOf dt (swapped sizes a b) (fun idx => f (swapped idx a b)) = some v → sumOf dt sizes f = some w → v = w := by
    intro v w hv hw
    rw [sumOf_intOf hdt (typed hd) hv, sumOf_intOf hdt (typed ht) hw]
    have := ((rowMajor_swapped ha hb).map fun idx => intOf (f idx)).sum_eq
    rw [List.map_map] at this
    exact congrArg Val.i this
  refine ⟨r, h', e, fun v w hv hw => ?_, fun v w hv hw => ?_⟩
  · exact hsum v w ((sumIs_iff hd (by omega)).1 hv) ((sumIs_iff ht (by omega)).1 hw)
  · exact meanOf_intOf hvol hsum ((meanIs_iff hd (by omega)).1 hv) ((meanIs_iff ht (by omega)).1 hw)

/-- **C77**: the sum of a concatenation of integer tensors is the sum of their sums, whenever these sums return. -/
theorem C77_cat {h : Heap F} {d : Nat} {sizes : List Nat} {ts : List Nat} {blocks : List (Block F)}
    (hts : List.Forall₂ (fun t b => Denotes h t b.dt (sizes.set d b.n) b.f) ts blocks) (hne : ts ≠ [])
    (hd : d < sizes.length) (htot : axisTotal blocks < 9223372036854775808)
    (hsize : vol (sizes.set d (axisTotal blocks)) * (latest (blocks.map (·.dt))).size < 9223372036854775808)
    (hdt : ∀ b ∈ blocks, isInteger b.dt = true) :
    ∃ r h', Tensor.catT ts d h = .ok r h' ∧
      ∀ (v : Val F) (ns : List Int), SumIs h' r v → List.Forall₂ (fun t n => SumIs h t (.i n)) ts ns → v = .i ns.sum := by
  obtain ⟨r, h', e, hr, _⟩ := C29_cat hts hne hd htot hsize
  have hint : isInteger (latest (blocks.map (·.dt))) = true := by
    clear hts e hr hsize htot
    have key : ∀ a b : DType, isInteger a = true → isInteger b = true → isInteger (later a b) = true := by
      intro a b; cases a <;> cases b <;> decide
    induction blocks with
    | nil => rfl
    | cons b bs ih => exact key _ _ (hdt b (by simp)) (ih fun b h => hdt b (by simp [h]))
  have typed : ∀ {k : Heap F} {x s g dt}, Denotes k x dt s g → ∀ idx, InBox s idx → (g idx).HasType dt := by
    rintro k x s g dt ⟨i, _, rfl, rfl, hr⟩
    exact hr.typed
  have hall : ∀ b ∈ blocks, ∀ idx, InBox (sizes.set d b.n) idx → (b.f idx).HasType b.dt := by
    clear e hr hsize htot hdt hint hne
    induction hts with
    | nil => intro b hb; cases hb
    | cons h1 _ ih =>
      intro b hb
      rcases List.mem_cons.1 hb with rfl | hb
      · exact typed h1
      · exact ih b hb
  have hvol : ∀ b ∈ blocks, vol (sizes.set d b.n) ≤ vol (sizes.set d (axisTotal blocks)) := by
    clear e hr hsize htot hdt hint hne hts hall
    induction blocks with
    | nil => intro b hb; cases hb
    | cons c bs ih =>
      have hl := (rowMajor_divided hd c.n (axisTotal bs)).length_eq
      rw [List.length_append, List.length_map, length_rowMajor, length_rowMajor, length_rowMajor] at hl
      intro b hb
      change _ ≤ vol (sizes.set d (c.n + axisTotal bs))
      rcases List.mem_cons.1 hb with rfl | hb
      · omega
      · have := ih b hb
        omega
  have hb := small_of_bytes hsize
  refine ⟨r, h', e, fun v ns hv hns => ?_⟩
  rw [sumOf_intOf hint (typed hr) ((sumIs_iff hr (by omega)).1 hv),
    sum_cat hd hint blocks fun b hb => ⟨order_le_latest (List.mem_map_of_mem hb), hall b hb⟩]
  congr 2
  clear e hr hint hne hv
  have hvol' : ∀ b ∈ blocks, vol (sizes.set d b.n) < 18446744073709551616 := fun b hb => by have := hvol b hb; omega
  clear hvol hb htot hsize
  induction hts generalizing ns with
  | nil => cases hns; rfl
  | cons h1 _ ih =>
    cases hns with
    | cons g1 g2 =>
      rw [List.map_cons]
      have := sumOf_intOf (hdt _ (by simp)) (typed h1) ((sumIs_iff h1 (hvol' _ (by simp))).1 g1)
      rw [Val.i.inj this, ih (fun b hb => hdt b (by simp [hb])) (fun b hb => hall b (by simp [hb])) _ g2 (fun b hb => hvol' b (by simp [hb]))]

theorem intOf_sum {s t : DType} (hs : s = .i32 ∨ s = .i64) (ht : t = .i32 ∨ t = .i64) {a b : Int} {w : Val F}
    (e : elemArith .add s t (.i a) (.i b) = some w) : intOf w = a + b := by
  unfold elemArith at e
  rw [if_pos (by rcases hs with rfl | rfl <;> rcases ht with rfl | rfl <;> decide)] at e
  simp only [exact] at e
  split at e
  · rename_i h1
    cases e
    have hw : width (later s t) = max 32 (max (width s) (width t)) := by
      rcases hs with rfl | rfl <;> rcases ht with rfl | rfl <;> decide
    rw [hw, reduce_self (by omega) h1]
    rfl
  · cases e

/-- **C77**: the sum of `a + b` is the sum of `a` plus the sum of `b`, for tensors of the same shape whose elements are
integers of 32 or 64 bits, whenever these sums return. -/
theorem C77_add {h : Heap F} {l r : Nat} {dl dr : DType} {s : List Nat} {fl fr : List Nat → Val F}
    (hl : Denotes h l dl s fl) (hr : Denotes h r dr s fr) (hsz : vol s * (later dl dr).size < 9223372036854775808)
    (hdl : dl = .i32 ∨ dl = .i64) (hdr : dr = .i32 ∨ dr = .i64) {t : Nat} {h' : Heap F} (e : arithT .add l r h = .ok t h')
    {v : Val F} {n m : Int} (hv : SumIs h' t v) (hn : SumIs h l (.i n)) (hm : SumIs h r (.i m)) : v = .i (n + m) := by
  have il : isInteger dl = true := by rcases hdl with rfl | rfl <;> rfl
  have ir : isInteger dr = true := by rcases hdr with rfl | rfl <;> rfl
  have ilr : isInteger (later dl dr) = true := by rcases hdl with rfl | rfl <;> rcases hdr with rfl | rfl <;> rfl
  have typed : ∀ {k : Heap F} {x s g dt}, Denotes k x dt s g → ∀ idx, InBox s idx → (g idx).HasType dt := by
    rintro k x s g dt ⟨i, _, rfl, rfl, hr⟩
    exact hr.typed
  have hp : ∀ idx, InBox s idx → project s idx = idx := fun idx hi => project_self hi
  have hb := small_of_bytes hsz
  have hg : ∀ idx, ∃ w, InBox s idx → elemBinary .add dl dr (fl (project s idx)) (fr (project s idx)) = some w := by
    intro idx
    by_cases hi : InBox s idx
    · cases hw : elemBinary .add dl dr (fl (project s idx)) (fr (project s idx)) with
      | some w => exact ⟨w, fun _ => rfl⟩
      | none =>
        rcases C17_no_element hl hr (bshape_self s) (stretched_self s) hsz ⟨idx, hi, hw⟩ with h1 | h1 <;> rw [h1] at e <;> cases e
    · exact ⟨.i 0, fun h => absurd h hi⟩
  choose g hg using hg
  obtain ⟨t', k, e', hd, _⟩ := C14_arith_partial hl hr (bshape_self s) (stretched_self s) hsz hg
  rw [e] at e'
  cases e'
  rw [sumOf_intOf ilr (typed hd) ((sumIs_iff hd (by omega)).1 hv)]
  rw [Val.i.inj (sumOf_intOf il (typed hl) ((sumIs_iff hl (by omega)).1 hn)),
    Val.i.inj (sumOf_intOf ir (typed hr) ((sumIs_iff hr (by omega)).1 hm)), ← List.sum_map_add]
  refine congrArg (fun l => Val.i (List.sum l)) (List.map_congr_left fun idx hi => ?_)
  have hi := mem_rowMajor.1 hi
  have := hg idx hi
  rw [hp idx hi, elemBinary_eq, (typed_int il (typed hl idx hi)).1, (typed_int ir (typed hr idx hi)).1] at this
  split at this
  · rw [intOf_sum hdr hdl this, Int.add_comm]
  · exact intOf_sum hdl hdr this

/-- **C77**: if the absolute values of a tensor's integers add up to less than 2^63, its sum returns and is their exact
sum, in whatever order they are stored; so does the sum of every transpose. -/
theorem C77_small {h : Heap F} {t : Nat} {dt : DType} {sizes : List Nat} {f : List Nat → Int}
    (ht : Denotes h t dt sizes fun idx => .i (f idx)) (hview : Viewable h t) (hdt : isInteger dt = true)
    (hsz : vol sizes < 9223372036854775808)
    (hsmall : ((rowMajor sizes).map fun idx => (f idx).natAbs).sum < 9223372036854775808) :
    SumIs h t (.i ((rowMajor sizes).map f).sum) ∧
    ∀ {a b : Nat}, a < sizes.length → b < sizes.length → a ≠ b →
      ∃ r h', Tensor.transpose t a b h = .ok r h' ∧ SumIs h' r (.i ((rowMajor sizes).map f).sum) := by
  have fits : ∀ {s : List Nat} {g : List Nat → Int}, ((rowMajor s).map fun idx => (g idx).natAbs).sum < 9223372036854775808 →
      ∀ k ≤ vol s, InRange 64 (((rowMajor s).take k).map g).sum := fun {s g} hs k _ => by
    have := absSum_bound g (rowMajor s) k
    unfold InRange
    have h2 : (2 : Int) ^ (64 - 1) = 9223372036854775808 := by decide
    rw [h2]
    omega
  refine ⟨?_, fun {a b} ha hb hab => ?_⟩
  · obtain ⟨r, h', e, d, _⟩ := C22_sum_integer ht (by omega) hdt (fits hsmall)
    exact ⟨r, h', _, e, d⟩
  · obtain ⟨r, h', e, hd, _⟩ := C10_transpose ht hview ha hb hab
    have hvol := vol_swapped_eq ha hb
    have hp := rowMajor_swapped ha hb
    have h1 := (hp.map f).sum_eq
    have h2 := (hp.map fun idx => (f idx).natAbs).sum_eq
    rw [List.map_map] at h1 h2
    have := fits (s := swapped sizes a b) (g := fun idx => f (swapped idx a b)) (lt_of_eq_of_lt h2 hsmall)
    obtain ⟨r', k, e', d, _⟩ := C22_sum_integer hd (by omega) hdt this
    refine ⟨r, h', e, r', k, .i64, e', ?_⟩
    rw [← h1]
    exact d

/-- The integers 1 to 6 in two rows: the sum is 21 for the matrix and its transpose. -/
example : SumIs exHeap 0 (.i 21) ∧ ∃ r h', Tensor.transpose 0 0 1 exHeap = .ok r h' ∧ SumIs h' r (.i 21) := by
  obtain ⟨h1, h2⟩ := C77_small (f := fun idx => intOf (exA idx)) (h := exHeap) (t := 0) exHeap_a (exHeap_viewable 0 (by decide)) rfl (by decide) (by decide)
  exact ⟨h1, h2 (by decide) (by decide) (by decide)⟩
example : ∃ r h', Tensor.transpose 0 0 1 exHeap = .ok r h' ∧
    (∀ v w, SumIs h' r v → SumIs exHeap 0 w → v = w) ∧ ∀ v w, MeanIs h' r v → MeanIs exHeap 0 w → v = w :=
  C77_transpose_partial exHeap_a (exHeap_viewable 0 (by decide)) rfl (by decide) (by decide) (by decide) (by decide)
example : ∃ r h', Tensor.reshape 2 (request [2, 3]) exHeap = .ok r h' ∧
    ∀ v, (SumIs h' r v ↔ SumIs exHeap 2 v) ∧ (MeanIs h' r v ↔ MeanIs exHeap 2 v) :=
  C77_reshape_partial exHeap_aT (exHeap_viewable 2 (by decide)) (by decide) (by decide) (by decide) (by decide) (by decide)
/-- Twice the transpose side by side: the sum is 42. -/
example : ∃ r h', Tensor.catT [2, 2] 1 exHeap = .ok r h' ∧ ∀ (v : Val Int) (ns : List Int), SumIs h' r v →
    List.Forall₂ (fun t n => SumIs exHeap t (.i n)) [2, 2] ns → v = .i ns.sum :=
  C77_cat (sizes := [3, 0]) (blocks := [⟨.i16, 2, _⟩, ⟨.i16, 2, _⟩])
    (.cons exHeap_aT (.cons exHeap_aT .nil)) (by simp) (by decide) (by decide) (by decide) (by simp [isInteger])
example : List.Forall₂ (fun t n => SumIs exHeap t (.i n)) [2, 2] [21, 21] := by
  have : SumIs exHeap 2 (.i 21) := (sumIs_iff exHeap_aT (by decide)).2 (by decide)
  exact .cons this (.cons this .nil)

/-- The `i32` vector 10, 20, 30 added to itself: the sum is 120, twice 60. -/
example : ∃ (t : Nat) (h' : Heap Int) (v : Val Int) (n : Int), arithT .add 1 1 exHeap = .ok t h' ∧ SumIs h' t v ∧ SumIs exHeap 1 (.i n) ∧
    v = .i (n + n) := by
  have hn : SumIs exHeap 1 (.i 60) := (sumIs_iff exHeap_b (by decide)).2 (by decide)
  obtain ⟨t, h', e, d, _⟩ := C14_arith_partial (op := .add) (g := fun idx => .i (20 * idx.getD 0 0 + 20)) exHeap_b exHeap_b (bshape_self _)
    (stretched_self _) (by decide) (forall_inBox (by decide))
  have hv : SumIs h' t (.i 120) := (sumIs_iff d (by decide)).2 (by decide)
  exact ⟨t, h', _, 60, e, hv, hn, C77_add exHeap_b exHeap_b (by decide) (.inl rfl) (.inl rfl) e hv hn hn⟩

/-- **C77**: the orders differ when a partial sum overflows: for the `i64` matrix [[2^63-1, 1], [-5, 0]] the sum is
undefined, while the sum of its transpose is 2^63-5. -/
theorem C77_overflow_order :
    undefinedBy ((do
      Tensor.sumT (← Tensor.fromBlob [.i 9223372036854775807, .i 1, .i (-5), .i 0] [2, 2] .i64) : M Int Nat) Heap.empty) = some .overflow ∧
    result ((do
      let x ← Tensor.fromBlob [.i 9223372036854775807, .i 1, .i (-5), .i 0] [2, 2] .i64
      Tensor.toString (← Tensor.sumT (← Tensor.transpose x 0 1)) : M Int Str) Heap.empty) = some "9223372036854775803".toList := by
  decide +kernel

/-- **C77**: floating-point sums depend on the order: the sum of the `f64` matrix [[2^53, 1], [-2^53, 0]] is 0, the sum of
its transpose is 1. -/
theorem C77_float_order :
    result ((do
      let x ← Tensor.fromBlob ([9007199254740992, 1, -9007199254740992, 0].map fun n => Val.f (FOps.ofInt .f64 n)) [2, 2] .f64
      Tensor.toString (← Tensor.sumT x) : M Ieee Str) Heap.empty) = some "0.000000".toList ∧
    result ((do
      let x ← Tensor.fromBlob ([9007199254740992, 1, -9007199254740992, 0].map fun n => Val.f (FOps.ofInt .f64 n)) [2, 2] .f64
      Tensor.toString (← Tensor.sumT (← Tensor.transpose x 0 1)) : M Ieee Str) Heap.empty) = some "1.000000".toList := by
  decide +kernel

/-- **C77**: with 8 or 16 bits the sum of `a + b` is not the sum of the sums: 100 + 100 is -56 in 8 bits. -/
theorem C77_narrow_add :
    result ((do
      let x ← Tensor.fromBlob [.i 100] [1] .i8
      let y ← Tensor.sumT (← arithT .add x x)
      let z ← Tensor.sumT x
      pure [← Tensor.toString y, ← Tensor.toString (← arithT .add z z)] : M Int (List Str)) Heap.empty) =
      some ["-56".toList, "200".toList] := by
  decide +kernel

end INNC
