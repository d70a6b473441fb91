import Verif.Lemmas.DescentRuns
/-
Property C69: training by gradient descent.
-/
namespace INNC
open Spec Tensor
variable {F : Type} [Field F] [FOps F] [Exact F]

/-- **C69**, one step: let `t` be a result that can be back-propagated and was computed from all parameters. Then `t.backward()`,
followed for every parameter by `w.detach() += w.grad() * rate` and `w.zero_grad()`, returns. Every parameter has changed by the
value of `rate` times the gradient it had before plus its partial derivative, which exists; the gradients are zero; the other
variables have the elements they had; and the training can go on with them. -/
theorem C69_step (h : Heap F) (us ws ds : List Nat) (rate t : Nat) (c : F) (hf : Forward h us) (hB : TrainBase h ws rate c ds)
    (hus : ∀ x ∈ t :: (ws ++ rate :: ds), x ∈ us) (hs : Starts h t) (hl : ∀ w ∈ ws, Leaf h t w) :
    ∃ H, trainStep rate ws t h = .ok () H ∧ Forward H (ws ++ rate :: ds) ∧ TrainBase H ws rate c ds ∧
      (∀ w ∈ ws, ∀ s a G, Values h w s a → GradOrZero h w G → ∃ b, Values H w s b ∧ (GradIs H w fun _ => 0) ∧
        ∀ idx, InBox s idx → (∃ d, Partial h t w idx d) ∧ ∀ d, Partial h t w idx d → b idx = a idx + c * (G idx + d)) ∧
      ∀ x ∈ rate :: ds, ∀ s a, Values h x s a → Values H x s a := by
  obtain ⟨V, hV, hI⟩ := forward_inv hf
  have hbv : ∀ x ∈ ws ++ rate :: ds, V x := fun x hx => hV x (hus x (List.mem_cons_of_mem _ hx))
  have hobj : ∀ w ∈ ws, ∃ i, h.ts[w]? = some i := fun w hw => by
    obtain ⟨i, _, hi, _⟩ := hI.reads w (hbv w (by simp [hw]))
    exact ⟨i, hi⟩
  obtain ⟨h1, e1, f1, B1, v1, g1⟩ := back_base hf hB hus hs
  have hp : ∀ w ∈ ws, ∃ G a, GradOrZero h w G ∧ Values h w (shapeOf h w) a := fun w hw => by
    obtain ⟨G, hG⟩ := hI.gradOrZero (hbv w (by simp [hw])) (hB.leaf w (by simp [hw])).1
    obtain ⟨i, f, hi, hr⟩ := hI.reads w (hbv w (by simp [hw]))
    exact ⟨G, fun idx => real (f idx), hG, i.dtype, f, ⟨i, hi, rfl, (shapeOf_eq hi).symm, hr⟩, fun _ _ => rfl⟩
  choose! G a hG ha using hp
  choose! G' _ k2 k3 using fun w hw => g1 w hw (G w) (hG w hw)
  obtain ⟨H, e2, f2, B2, v2, _, o2⟩ := descendAll_ok (s := fun w => shapeOf h w) (a := a) (G := G') ws h1 f1 B1 (fun _ h => h) (hB.nodup hobj)
    fun w hw => ⟨k2 w hw (hl w hw), v1 w (by simp [hw]) _ _ (ha w hw)⟩
  refine ⟨H, by rw [trainStep, M.bind_ok e1]; exact e2, f2, B2, fun w hw s b Gw hb hGw => ?_, fun x hx s b hb => ?_⟩
  · obtain rfl := hb.shape
    refine ⟨_, (v2 w hw).1, (v2 w hw).2, fun idx hidx => ⟨hI.partial_exists (hV t (hus t (by simp))) hs w idx, fun d hd => ?_⟩⟩
    show a w idx + c * G' w idx = _
    rw [k3 w hw idx hidx d hd, (ha w hw).unique hb hidx, gradOrZero_unique (hG w hw) hGw hidx]
  · have hxw : x ∉ ws := fun hc => by
      obtain ⟨i, hi⟩ := hobj x hc
      exact hB.others x hx x hc ⟨i, i, hi, hi, rfl⟩
    exact o2 x (List.mem_append_right _ hx) hxw s b (v1 x (List.mem_append_right _ hx) s b hb)

/-- **C69**, the training: let `loss` be a program that computes a function of the parameters with partial derivatives `D`. Then
computing it, `backward()` and the step for every parameter can be repeated any number `n` of times; all calls return, and the
parameters are then what `n` steps of gradient descent make of them. -/
theorem C69_train {loss : M F Nat} {ws ds : List Nat} {rate : Nat} {c : F} {shape : Nat → List Nat} {a : Nat → List Nat → F}
    {D : (Nat → List Nat → F) → Nat → List Nat → F} (hL : Objective loss ws rate c ds shape a D) :
    ∀ (n : Nat) (h : Heap F) (θ : Nat → List Nat → F), Forward h (ws ++ rate :: ds) → TrainBase h ws rate c ds →
      (∀ w ∈ ws, Values h w (shape w) (θ w) ∧ GradOrZero h w fun _ => 0) → (∀ x ∈ ds, Values h x (shape x) (a x)) →
      ∃ H, train loss rate ws n h = .ok () H ∧ Forward H (ws ++ rate :: ds) ∧ TrainBase H ws rate c ds ∧
        (∀ w ∈ ws, Values H w (shape w) (descent c D n θ w) ∧ GradOrZero H w fun _ => 0) ∧
        ∀ x ∈ ds, Values H x (shape x) (a x)
  | 0, h, θ, hf, hB, hw, hd => ⟨h, rfl, hf, hB, hw, hd⟩
  | n + 1, h, θ, hf, hB, hw, hd => by
    obtain ⟨t, h1, us, e1, f1, hus, hs, B1, hw1, hd1⟩ := hL h θ hf hB hw hd
    obtain ⟨h2, e2, f2, B2, hw2, hd2⟩ := C69_step h1 us ws ds rate t c f1 B1 hus hs fun w hx => (hw1 w hx).1
    obtain ⟨H, e3, r⟩ := C69_train hL n h2 (fun w idx => θ w idx + c * D θ w idx) f2 B2 (fun w hx => by
      obtain ⟨k1, k2, k3, k4⟩ := hw1 w hx
      obtain ⟨b, ⟨dt, f, b1, b2⟩, b3, b4⟩ := hw2 w hx _ _ _ k2 k3
      exact ⟨⟨dt, f, b1, fun idx hidx => by rw [b2 idx hidx, (b4 idx hidx).2 _ (k4 idx hidx), zero_add]⟩, .inl b3⟩)
      fun x hx => hd2 x (List.mem_cons_of_mem _ hx) _ _ (hd1 x hx)
    refine ⟨H, ?_, r⟩
    rw [train, M.bind_ok e1, M.bind_ok e2]
    exact e3

/-- **C69**, an instance: the program `auto e = w * x - y; auto t = (e * e).sum();`, for tensors of one shape, has the partial
derivatives `2 x (w x - y)`, at every element... -/
theorem C69_squares (w x y rate : Nat) (c : F) (s : List Nat) (a : Nat → List Nat → F) :
    Objective (sumOfSquares w x y) [w] rate c [x, y] (fun _ => s) a (fun θ v idx => 2 * a x idx * (θ v idx * a x idx - a y idx)) :=
  squares_objective w x y rate c s a

/-- ...so training with it runs for any number of steps, and each step multiplies every element `r` of `w * x - y` by `1 + 2 c x²`. -/
theorem C69_regression (h : Heap F) (w x y rate : Nat) (c : F) (s : List Nat) (θ a b : List Nat → F)
    (hf : Forward h [w, rate, x, y]) (hB : TrainBase h [w] rate c [x, y]) (hw : Values h w s θ) (hg : GradOrZero h w fun _ => 0)
    (hx : Values h x s a) (hy : Values h y s b) (n : Nat) :
    ∃ H, train (sumOfSquares w x y) rate [w] n h = .ok () H ∧ Forward H [w, rate, x, y] ∧ TrainBase H [w] rate c [x, y] ∧
      Values H x s a ∧ Values H y s b ∧ ∃ θ', Values H w s θ' ∧
        ∀ idx, InBox s idx → θ' idx * a idx - b idx = (1 + 2 * c * a idx ^ 2) ^ n * (θ idx * a idx - b idx) := by
  have hab : ∃ A : Nat → List Nat → F, (∀ z ∈ [x, y], Values h z s (A z)) := by
    refine ⟨fun z => if z = x then a else b, fun z hz => ?_⟩
    simp only [List.mem_cons, List.not_mem_nil, or_false] at hz
    by_cases e : z = x
    · simp only [e, if_true]; exact hx
    · obtain rfl := hz.resolve_left e
      simp only [if_neg e]; exact hy
  obtain ⟨A, hA⟩ := hab
  obtain ⟨H, e, f, B, v, d⟩ := C69_train (C69_squares w x y rate c s A) n h (fun _ => θ) hf hB
    (fun v hv => by obtain rfl : v = w := by simpa using hv
                    exact ⟨hw, hg⟩) hA
  have hax : ∀ idx, InBox s idx → A x idx = a idx := fun idx hb => (hA x (by simp)).unique hx hb
  have hby : ∀ idx, InBox s idx → A y idx = b idx := fun idx hb => (hA y (by simp)).unique hy hb
  have hval : ∀ z (p q : List Nat → F), (∀ idx, InBox s idx → p idx = q idx) → Values H z s p → Values H z s q :=
    fun z p q hpq ⟨dt, g, h1, h2⟩ => ⟨dt, g, h1, fun idx hb => by rw [h2 idx hb, hpq idx hb]⟩
  refine ⟨H, e, f, B, hval x _ _ hax (d x (by simp)), hval y _ _ hby (d y (by simp)), _, (v w (by simp)).1, fun idx hb => ?_⟩
  have key : ∀ n (θ : Nat → List Nat → F), descent c (fun θ v idx => 2 * A x idx * (θ v idx * A x idx - A y idx)) n θ w idx * a idx - b idx =
      (1 + 2 * c * a idx ^ 2) ^ n * (θ w idx * a idx - b idx) := fun n => by
    induction n with
    | zero => intro θ; rw [descent, pow_zero, one_mul]
    | succ n ih =>
      intro θ
      rw [descent, ih, hax idx hb, hby idx hb, pow_succ]
      ring
  exact key n fun _ => θ

/-- The premises hold for `w = [5, 6]`, `x = [3, 4]`, `y = [1, 2]` and the learning rate 1/100... -/
example : Forward fit [3, 2, 1, 0] ∧ TrainBase fit [3] 2 (-1/100) [1, 0] ∧ (∃ θ, Values fit 3 [2] θ ∧ θ [0] = 5 ∧ θ [1] = 6) ∧
    (GradOrZero fit 3 fun _ => 0) ∧ (∃ a, Values fit 1 [2] a ∧ a [0] = 3 ∧ a [1] = 4) ∧ ∃ b, Values fit 0 [2] b ∧ b [0] = 1 ∧ b [1] = 2 := by
  have hv : ∀ x ∈ [3, 2, 1, 0], shapeOf fit x = [2] → Values fit x [2] (valOf fit x) := fun x hx hs => hs ▸ forward_values fit_forward hx
  have hn : (fit.ts[3]?).map (·.grad) = some none := by decide +kernel
  refine ⟨fit_forward, fit_base, ⟨_, hv 3 (by simp) (by decide +kernel), by decide +kernel, by decide +kernel⟩, .inr ⟨?_, fun _ _ => rfl⟩,
    ⟨_, hv 1 (by simp) (by decide +kernel), by decide +kernel, by decide +kernel⟩, _, hv 0 (by simp) (by decide +kernel), by decide +kernel, by decide +kernel⟩
  cases h : fit.ts[3]? with
  | none => rw [h] at hn; cases hn
  | some i =>
    rw [h] at hn
    have hg : i.grad = none := Option.some.inj hn
    exact ⟨i, h, fun g j s hg' => by rw [hg] at hg'; cases hg'⟩

/-- ...and after two steps `w` is what the formula says: `w * x - y` was `[14, 22]`, and `1 + 2 c x²` is `[41/50, 17/25]`. -/
example : ∃ H, train (sumOfSquares 3 1 0) 2 [3] 2 fit = .ok () H ∧
    valOf H 3 [0] * 3 - 1 = (41/50) ^ 2 * 14 ∧ valOf H 3 [1] * 4 - 2 = (17/25) ^ 2 * 22 := by
  have h1 : (match train (sumOfSquares 3 1 0) 2 [3] 2 fit with
    | .ok () H => decide (valOf H 3 [0] * 3 - 1 = (41/50) ^ 2 * 14 ∧ valOf H 3 [1] * 4 - 2 = (17/25) ^ 2 * 22)
    | _ => false) = true := by decide +kernel
  cases e : train (sumOfSquares 3 1 0) 2 [3] 2 fit with
  | ok u H => rw [e] at h1; exact ⟨H, rfl, of_decide_eq_true h1⟩
  | throw _ _ => rw [e] at h1; cases h1
  | ub _ => rw [e] at h1; cases h1

end INNC
