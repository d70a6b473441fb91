import Verif.Props.Linked
import Verif.Props.Reduce
import Verif.Props.Deriv
import Verif.Lemmas.RoundingSum
import Verif.Spec.Binary
/-
Property C67: rounding errors of results and gradients.
-/
namespace INNC
open Spec Tensor
variable {F K : Type} [FOps F] [Field K] [LinearOrder K] [IsStrictOrderedRing K]

theorem close_of_linked {r : Rounding F K} {dt : DType} {v : Val F} {w : Val K} {b : Val (Ball r)} (h1 : LinkedVal (fun _ => InBall r) dt v b)
    (h2 : LinkedVal (fun _ => Centre r) dt w b) : Close r v w b := by
  refine ⟨fun n hb => ?_, fun c e hb => ?_⟩
  · subst hb
    cases v <;> cases w <;> first | exact ⟨congrArg Val.i h1, congrArg Val.i h2⟩ | exact h1.elim | exact h2.elim
  · subst hb
    cases v with
    | i n => exact h1.elim
    | f x =>
      cases w with
      | i n => exact h2.elim
      | f y =>
        refine ⟨x, y, rfl, rfl, (h1.2 c e rfl).1, ?_⟩
        rw [show y = c from h2.2 c e rfl]; exact (h1.2 c e rfl).2

/-- **C67.** Run the same calls in floating-point arithmetic on floats and in exact arithmetic on the numbers these floats
stand for. If the run over balls (which needs no floats, and computes an error bound for every element along the way) has no
undefined behaviour, neither has either of the two runs, the calls return the same tensors and throw the same exceptions, and
in the final states every float element of every tensor for which the balls know a bound is finite and differs from the
exact element by at most that bound; integer elements are equal. -/
theorem C67_session [FOps K] [Exact K] (r : Rounding F K) {csF : List (Call F)} {csK : List (Call K)} {csB : List (Call (Ball r))}
    (hF : List.Forall₂ (LinkedCall (fun _ => InBall r)) csF csB) (hK : List.Forall₂ (LinkedCall (fun _ => Centre r)) csK csB)
    {out : List Reply} {B : Heap (Ball r)} (hB : session csB Heap.empty = some (out, B)) :
    ∃ HF HK, session csF Heap.empty = some (out, HF) ∧ session csK Heap.empty = some (out, HK) ∧ HF.ts = HK.ts ∧
      ∀ t dt s b, Denotes B t dt s b → ∃ f g, Denotes HF t dt s f ∧ Denotes HK t dt s g ∧
        ∀ idx, InBox s idx → Close r (f idx) (g idx) (b idx) := by
  obtain ⟨HF, eF, lF⟩ := C66_session (within_preserved r) hF emptyLinked hB
  obtain ⟨HK, eK, lK⟩ := C66_session (centre_preserved r) hK emptyLinked hB
  refine ⟨HF, HK, eF, eK, lF.ts.trans lK.ts.symm, fun t dt s b hb => ?_⟩
  obtain ⟨f, hf, hfl⟩ := C66_elements lF hb
  obtain ⟨g, hg, hgl⟩ := C66_elements lK hb
  exact ⟨f, g, hf, hg, fun idx hidx => close_of_linked (hfl idx hidx) (hgl idx hidx)⟩

/-- **C67**, gradients: let `hF`, `hK` and `hB` be states reached by the same calls over floats, exact numbers and balls. In the
situation of C38 (for the exact numbers), if `t.backward()` is defined over balls, it returns over floats, and the gradient of
every leaf differs at every index where the balls know a bound by at most that bound from the true gradient: the previous
exact gradient plus the partial derivative of `t` with respect to that element. -/
theorem C67_gradient [FOps K] [Exact K] (r : Rounding F K) {hF : Heap F} {hK : Heap K} {hB : Heap (Ball r)}
    (lF : LinkedHeap (fun _ => InBall r) hF hB) (lK : LinkedHeap (fun _ => Centre r) hK hB)
    (vs : List Nat) (hf : Forward hK vs) (t : Nat) (ht : t ∈ vs)
    (hr : requiresGrad hK t = true) (ho : Interior hK t) (hn : vol (shapeOf hK t) = 1) (hS : Smooth hK t)
    {B : Heap (Ball r)} (eB : backward t hB = .ok () B) :
    ∃ HF, backward t hF = .ok () HF ∧ ∀ x, Leaf hK t x → ∃ G₀ G₁ : List Nat → K, GradOrZero hK x G₀ ∧
      (∀ idx, InBox (shapeOf hK x) idx → (∃ u, Lift hK t u ∧ Direction hK t u x idx) ∧
        ∀ u, Lift hK t u → Direction hK t u x idx → ∀ q, InBox (shapeOf hK t) q → G₁ idx = G₀ idx + (u t q).snd) ∧
      ∃ g, gradientOf HF x = some g ∧ ∀ dt b, Denotes B g dt (shapeOf hK x) b → ∃ f, Denotes HF g dt (shapeOf hK x) f ∧
        ∀ idx, InBox (shapeOf hK x) idx → ∀ c e, b idx = .f (.around c e) → ∃ y, f idx = .f y ∧ r.finite y ∧ |r.val y - G₁ idx| ≤ e := by
  obtain ⟨HK, eK, hK'⟩ := C38_program_partial hK vs hf t ht hr ho hn hS
  have h1 := backward_link (within_preserved r) t hF hB lF
  have h2 := backward_link (centre_preserved r) t hK hB lK
  rw [eB] at h1 h2
  rw [eK] at h2
  cases eF : backward t hF with
  | throw e h => rw [eF] at h1; exact h1.elim
  | ub u => rw [eF] at h1; exact h1.elim
  | ok a HF =>
    rw [eF] at h1
    refine ⟨HF, rfl, fun x hx => ?_⟩
    obtain ⟨G₀, G₁, k1, k2, k3⟩ := hK' x hx
    obtain ⟨i, g, w, hi, hg, hw, hval⟩ := k2
    refine ⟨G₀, G₁, k1, k3, g, ?_, fun dt b hb => ?_⟩
    · unfold gradientOf
      rw [h1.2.ts, ← h2.2.ts, hi]; exact hg
    · obtain ⟨f, hfd, hfl⟩ := C66_elements h1.2 hb
      obtain ⟨w', hwd, hwl⟩ := C66_elements h2.2 hb
      refine ⟨f, hfd, fun idx hidx c e hbe => ?_⟩
      obtain ⟨y, z, e1, e2, e3, e4⟩ := (close_of_linked (hfl idx hidx) (hwl idx hidx)).2 c e hbe
      refine ⟨y, e1, e3, ?_⟩
      obtain ⟨j, hj, _, hs, hr1⟩ := hw
      obtain ⟨j', hj', _, hs', hr2⟩ := hwd
      rw [hj] at hj'
      obtain rfl := Option.some.inj hj'
      rw [← hs', hs] at hidx
      have hz : G₁ idx = z := by
        rw [← hval idx hidx, reads_unique hr1 hr2 (by rw [hs]; exact hidx), e2]; rfl
      rw [hz]; exact e4

/-! ### Sums and means -/

/-- **C67**, sums: the sum of `n` floats differs from the exact sum by at most `(1 + u)^n - 1` times the sum of the absolute
values (`u` is the relative error of an `f64` operation), as long as that cannot overflow. `f32` elements are assumed to be
representable as `f64`. -/
theorem C67_sum (r : Rounding F K) {h : Heap F} {t : Nat} {dt : DType} {s : List Nat} {f : List Nat → F}
    (hd : Denotes h t dt s fun idx => .f (f idx)) (hdt : isInteger dt = false) (hsize : vol s < 18446744073709551616)
    (hfin : ∀ idx, InBox s idx → r.finite (f idx)) (hwide : dt = .f32 → ∀ idx, InBox s idx → r.repr .f64 (r.val (f idx)) = true)
    (htop : (1 + r.u .f64) ^ vol s * boxSum s (fun idx => |r.val (f idx)|) ≤ r.top .f64) :
    ∃ y, r.finite y ∧
      |r.val y - boxSum s (fun idx => r.val (f idx))| ≤ ((1 + r.u .f64) ^ vol s - 1) * boxSum s (fun idx => |r.val (f idx)|) ∧
      Returns (Tensor.sumT t h) h .f64 [] fun _ => .f y := by
  obtain ⟨y, h1, h2, h3⟩ := roundedSum_error r hdt hfin hwide htop
  refine ⟨y, h2, h3, ?_⟩
  have := C22_sum hd hsize h1
  rwa [accType_float hdt] at this

/-- **C67**, exact sums: if every partial sum is representable, as it is for integers below `2^53`, the sum is exact. -/
theorem C67_sum_exact (r : Rounding F K) {h : Heap F} {t : Nat} {dt : DType} {s : List Nat} {f : List Nat → F}
    (hd : Denotes h t dt s fun idx => .f (f idx)) (hdt : isInteger dt = false) (hsize : vol s < 18446744073709551616)
    (hfin : ∀ idx, InBox s idx → r.finite (f idx) ∧ |r.val (f idx)| ≤ r.top .f64)
    (hwide : dt = .f32 → ∀ idx, InBox s idx → r.repr .f64 (r.val (f idx)) = true)
    (hp : ∀ k ≤ vol s, r.repr .f64 (((rowMajor s).take k).map fun idx => r.val (f idx)).sum = true ∧
      |(((rowMajor s).take k).map fun idx => r.val (f idx)).sum| ≤ r.top .f64) :
    ∃ y, r.finite y ∧ r.val y = boxSum s (fun idx => r.val (f idx)) ∧ Returns (Tensor.sumT t h) h .f64 [] fun _ => .f y := by
  obtain ⟨y, h1, h2, h3⟩ := roundedSum_exact r hdt hfin hwide hp
  refine ⟨y, h2, h3, ?_⟩
  have := C22_sum hd hsize h1
  rwa [accType_float hdt] at this

/-- **C67**, means: the mean of `n > 0` floats differs from the exact mean by at most `(1 + u)^(n+1) - 1` times the mean of the
absolute values, plus the error of an underflowing division. -/
theorem C67_mean (r : Rounding F K) {h : Heap F} {t : Nat} {dt : DType} {s : List Nat} {f : List Nat → F}
    (hd : Denotes h t dt s fun idx => .f (f idx)) (hdt : isInteger dt = false) (hsize : vol s < 9223372036854775808) (h0 : vol s ≠ 0)
    (hfin : ∀ idx, InBox s idx → r.finite (f idx)) (hwide : dt = .f32 → ∀ idx, InBox s idx → r.repr .f64 (r.val (f idx)) = true)
    (hn : r.repr .f64 (vol s : ℤ) = true ∧ ((vol s : ℤ) : K) ≤ r.top .f64)
    (htop : (1 + r.u .f64) ^ vol s * boxSum s (fun idx => |r.val (f idx)|) ≤ r.top .f64) :
    ∃ y, r.finite y ∧ |r.val y - boxSum s (fun idx => r.val (f idx)) / vol s| ≤
        ((1 + r.u .f64) ^ (vol s + 1) - 1) * (boxSum s (fun idx => |r.val (f idx)|) / vol s) + r.tiny .f64 ∧
      Returns (Tensor.meanT t h) h .f64 [] fun _ => .f y := by
  obtain ⟨y, h1, h2, h3⟩ := roundedMean_error r hdt h0 hfin hwide hn htop
  refine ⟨y, h2, h3, ?_⟩
  have := C23_mean hd hsize h1
  rwa [accType_float hdt] at this

/-! ### Examples -/

/-- The float nearest to 1/10. -/
def tenth : Bin := ⟨roundTo 53 (1/10)⟩

theorem inBall_point {r : Rounding F K} {x : F} (hx : r.finite x) : InBall r x (Ball.point x) := fun c e h => by
  cases h; exact ⟨hx, by rw [sub_self, abs_zero]⟩

theorem centre_point {r : Rounding F K} (x : F) : Centre r (r.val x) (Ball.point x) := fun c e h => by cases h; rfl

theorem centre_bin (q : ℚ) : Centre binRounding q (Ball.point ⟨q⟩) := centre_point (r := binRounding) ⟨q⟩

/-- Centre and radius of the element in cell `p` of the storage of tensor `t`. -/
def ballAt {r : Rounding F K} (B : Heap (Ball r)) (t p : Nat) : Option (K × K) := do
  let i ← B.ts[t]?
  let s ← B.st[i.data]?
  match (← s.blob)[p]? with
  | some (some (.f (.around c e))) => some (c, e)
  | _ => none

/-- `x = {0.1, 3.}`, `y = x * x`, `s = y.sum()`, `s.backward()`: the run over balls is defined; the rounded sum differs from the
exact one by at most `2^-49`, and the rounded gradient `2 x` by nothing: doubling is exact. -/
example : ((session (exSession (Ball.point tenth) (Ball.point (⟨3⟩ : Bin)) : List (Call (Ball binRounding))) Heap.empty).map fun r =>
    ((ballAt r.2 2 0).map fun b => decide (0 < b.2 ∧ b.2 < 1 / 2 ^ 49), ballAt r.2 8 0, ballAt r.2 8 1)) =
    some (some true, some (2 * tenth.q, 0), some (6, 0)) := by decide +kernel

/-- So C67 applies to it. -/
example : ∃ out HF HK, session (exSession tenth ⟨3⟩) Heap.empty = some (out, HF) ∧ session (exSession tenth.q (3 : ℚ)) Heap.empty = some (out, HK) ∧
    HF.ts = HK.ts := by
  have hd : (session (exSession (Ball.point tenth) (Ball.point (⟨3⟩ : Bin)) : List (Call (Ball binRounding))) Heap.empty).isSome = true := by
    decide +kernel
  obtain ⟨⟨out, B⟩, e⟩ := Option.isSome_iff_exists.1 hd
  obtain ⟨HF, HK, h1, h2, h3, _⟩ := C67_session binRounding (exSession_linked tenth ⟨3⟩ _ _ (inBall_point trivial) (inBall_point trivial))
    (exSession_linked tenth.q 3 _ _ (centre_bin _) (centre_bin 3)) e
  exact ⟨out, HF, HK, h1, h2, h3⟩

/-- The calls of `squares` (`x = {2, 3}`, `y = x * x`, `s = y.sum()`). -/
def squaresCalls {F : Type} (a b : F) : List (Call F) :=
  [.fromBlob [.f a, .f b] [2] .f64, .setRequiresGrad 0 true, .mul 0 0, .sum 1]

theorem squaresCalls_linked {F G : Type} [FOps F] [FOps G] {R : DType → F → G → Prop} (a b : F) (a' b' : G) (ha : R .f64 a a')
    (hb : R .f64 b b') :
    List.Forall₂ (LinkedCall R) (squaresCalls a b) (squaresCalls a' b') :=
  .cons (.fromBlob (.cons ⟨rfl, ha⟩ (.cons ⟨rfl, hb⟩ .nil))) (.cons (.setRequiresGrad _ _) (.cons (.mul _ _) (.cons (.sum _) .nil)))

theorem squares_inBall : List.Forall₂ (LinkedCall (fun _ => InBall binRounding)) (squaresCalls ⟨2⟩ ⟨3⟩) (squaresCalls (Ball.point ⟨2⟩) (Ball.point ⟨3⟩)) :=
  squaresCalls_linked _ _ _ _ (inBall_point trivial) (inBall_point trivial)

theorem squares_centre : List.Forall₂ (LinkedCall (fun _ => Centre binRounding)) (squaresCalls 2 3) (squaresCalls (Ball.point ⟨2⟩) (Ball.point ⟨3⟩)) :=
  squaresCalls_linked _ _ _ _ (centre_bin 2) (centre_bin 3)

/-- The premises of `C67_gradient` for `s.backward()`: over balls it is defined, and the gradient of `x` is known to be `{4, 6}` without error. -/
example : ∃ (hF : Heap Bin) (hB B : Heap (Ball binRounding)), LinkedHeap (fun _ => InBall binRounding) hF hB ∧ LinkedHeap (fun _ => Centre binRounding) squares hB ∧
    backward 2 hB = .ok () B ∧ ∃ g, gradientOf B 0 = some g ∧ ballAt B g 0 = some (4, 0) ∧ ballAt B g 1 = some (6, 0) := by
  have hd : (session (squaresCalls (Ball.point ⟨2⟩) (Ball.point (⟨3⟩ : Bin)) : List (Call (Ball binRounding))) Heap.empty).map (fun r =>
      match backward 2 r.2 with
      | .ok _ B => (gradientOf B 0).map fun g => (ballAt B g 0, ballAt B g 1)
      | _ => none) = some (some (some (4, 0), some (6, 0))) := by decide +kernel
  have hs : (session (squaresCalls (2 : ℚ) 3) Heap.empty).map Prod.snd = some squares := by decide +kernel
  cases e : session (squaresCalls (Ball.point ⟨2⟩) (Ball.point (⟨3⟩ : Bin)) : List (Call (Ball binRounding))) Heap.empty with
  | none => rw [e] at hd; cases hd
  | some r =>
    rw [e] at hd
    obtain ⟨hF, e1, l1⟩ := C66_session (within_preserved binRounding) squares_inBall
      emptyLinked (out := r.1) (k' := r.2) e
    obtain ⟨hK, e2, l2⟩ := C66_session (centre_preserved binRounding) squares_centre
      emptyLinked (out := r.1) (k' := r.2) e
    rw [e2, Option.map_some, Option.some_inj] at hs
    rw [show hK = squares from hs] at l2
    cases eb : backward 2 r.2 with
    | throw _ _ => simp [eb] at hd
    | ub _ => simp [eb] at hd
    | ok a B =>
      simp only [Option.map_some, eb, Option.some.injEq] at hd
      cases hg : gradientOf B 0 with
      | none => rw [hg] at hd; cases hd
      | some g =>
        rw [hg] at hd
        simp only [Option.map_some, Option.some.injEq, Prod.mk.injEq] at hd
        exact ⟨hF, r.2, B, l1, l2, eb, g, hg, hd.1, hd.2⟩

/-- Elements 1/10 (rounded) and 3 in a row of storage. -/
def tenthHeap : Heap Bin := after Heap.empty (.fromBlob [.f tenth, .f ⟨3⟩] [2] .f64)

theorem tenthHeap_denotes : Denotes tenthHeap 0 .f64 [2] fun idx => .f (if idx = [0] then tenth else ⟨3⟩) :=
  ⟨⟨.f64, Layout.contig [2], 0, none, false, false, none⟩, by decide +kernel, rfl, rfl,
    reads_of_check (s := ⟨.f64, 16, some [some (.f tenth), some (.f ⟨3⟩)]⟩) (cells := [some (.f tenth), some (.f ⟨3⟩)]) rfl (by decide)
      (by decide +kernel) rfl rfl (by decide) (by decide +kernel) fun _ _ => hasType_f.2 rfl⟩

/-- `C67_sum` and `C67_mean` apply to `{0.1, 3.}`. -/
example : ∃ y, |y - boxSum [2] (fun idx => (if idx = [0] then tenth else ⟨3⟩ : Bin).q)| ≤ 1 / 2 ^ 50 ∧
    Returns (Tensor.sumT 0 tenthHeap) tenthHeap .f64 [] fun _ => .f ⟨y⟩ := by
  obtain ⟨⟨y⟩, _, h2, h3⟩ := C67_sum binRounding tenthHeap_denotes rfl (by decide) (fun _ _ => trivial) (fun h => by cases h) (by decide +kernel)
  exact ⟨y, h2.trans (by decide +kernel), h3⟩

example : ∃ y, |y - boxSum [2] (fun idx => (if idx = [0] then tenth else ⟨3⟩ : Bin).q) / 2| ≤ 1 / 2 ^ 50 ∧
    Returns (Tensor.meanT 0 tenthHeap) tenthHeap .f64 [] fun _ => .f ⟨y⟩ := by
  obtain ⟨⟨y⟩, _, h2, h3⟩ := C67_mean binRounding tenthHeap_denotes rfl (by decide) (by decide) (fun _ _ => trivial) (fun h => by cases h)
    (by decide +kernel) (by decide +kernel)
  exact ⟨y, h2.trans (by decide +kernel), h3⟩

end INNC
