import Verif.Lemmas.Accumulate
import Verif.Spec.Rational
/-
Concrete programs that compute with variables, for the examples.
-/
namespace INNC
open Spec Tensor
variable {F : Type} [FOps F]

/-- The state after a call (the same state on undefined behaviour). -/
def after (h : Heap F) (c : Call F) : Heap F :=
  match c.run h with
  | .ok _ h' => h'
  | .throw _ h' => h'
  | .ub _ => h

theorem forward_returns [Field F] {h : Heap F} {vs : List Nat} (hf : Forward h vs) (c : Call F) (t : Nat) (hfit : Spec.Fits h c)
    (ha : ∀ a ∈ args c, a ∈ vs) (hr : result (c.run h) = some (some t)) : Forward (after h c) (t :: vs) := by
  unfold after
  cases e : c.run h with
  | ok r h' => rw [e] at hr; simp only [result, Option.some.injEq] at hr; subst hr; exact hf.returns hfit ha e
  | throw _ _ => rw [e] at hr; simp [result] at hr
  | ub _ => rw [e] at hr; simp [result] at hr

theorem forward_changes [Field F] {h : Heap F} {vs : List Nat} (hf : Forward h vs) (c : Call F) (hfit : Spec.Fits h c)
    (ha : ∀ a ∈ args c, a ∈ vs) (hr : result (c.run h) = some none) : Forward (after h c) vs := by
  unfold after
  cases e : c.run h with
  | ok r h' => rw [e] at hr; simp only [result, Option.some.injEq] at hr; subst hr; exact hf.changes hfit ha e
  | throw _ _ => rw [e] at hr; simp [result] at hr
  | ub _ => rw [e] at hr; simp [result] at hr

/-- The list contains the computation of `t`. -/
def covers (h : Heap F) (t : Nat) (l : List Nat) : Bool := l.contains t && l.all fun x => (operands h x).all l.contains

omit [FOps F] in
theorem from_covers {h : Heap F} {t : Nat} {l : List Nat} (hc : covers h t l = true) {x : Nat} (hx : From h t x) : x ∈ l := by
  unfold covers at hc
  rw [Bool.and_eq_true, List.all_eq_true] at hc
  induction hx with
  | root => simpa using hc.1
  | step _ hu ih =>
    have := hc.2 _ ih
    rw [List.all_eq_true] at this
    simpa using this _ hu

/-- The storages read by the tensors of a list. -/
def readsOf (h : Heap F) (l : List Nat) : List (Option Nat) :=
  (l.map fun (x : Nat) => (h.ts[x]?).map (·.data)) ++ l.map fun (x : Nat) =>
    match opOf h x with
    | some ⟨.knownGrad k, _, _, _, _⟩ => (h.ts[k]?).map (·.data)
    | _ => none

omit [FOps F] in
theorem readStore_of {h : Heap F} {t d : Nat} {l : List Nat} (hc : covers h t l = true) (hr : ReadStore h t d) :
    some d ∈ readsOf h l := by
  unfold readsOf
  rw [List.mem_append, List.mem_map, List.mem_map]
  rcases hr with ⟨x, i, hx, hi, rfl⟩ | ⟨x, g, k, i, hx, hg, hk, hi, rfl⟩
  · exact .inl ⟨x, from_covers hc hx, by rw [hi]; rfl⟩
  · refine .inr ⟨x, from_covers hc hx, ?_⟩
    obtain ⟨kind, _, _, _, _⟩ := g
    have hk : kind = .knownGrad k := hk
    subst hk
    rw [hg]
    show (h.ts[k]?).map (·.data) = _
    rw [hi]; rfl

/-- `l` contains the computation of `t`, which has no quotient or mean, small tensors, and reads no gradient of its own; `t`
is not a view. -/
def smoothCheck (h : Heap F) (t : Nat) (l : List Nat) : Bool :=
  covers h t l &&
  (l.all fun (x : Nat) =>
    (match h.ts[x]? with
    | some i => decide (vol i.view.sizes * i.dtype.size < 9223372036854775808)
    | none => true) &&
    (match opOf h x with
    | some g => decide (g.kind ≠ .div) && decide (g.kind ≠ .mean)
    | none => true) &&
    (match gradStore h x with
    | some d => !(readsOf h l).contains (some d)
    | none => true)) &&
  match opOf h t with
  | some g => decide (g.kind ≠ .noBack)
  | none => true

theorem smooth_of_check [Field F] {h : Heap F} {t : Nat} (l : List Nat) (hc : smoothCheck h t l = true) : Smooth h t := by
  unfold smoothCheck at hc
  rw [Bool.and_eq_true, Bool.and_eq_true] at hc
  obtain ⟨⟨h0, h1⟩, h2⟩ := hc
  rw [List.all_eq_true] at h1
  have hk : ∀ x g, From h t x → opOf h x = some g → g.kind ≠ .div ∧ g.kind ≠ .mean := fun x g hx hg => by
    have := h1 x (from_covers h0 hx)
    rw [Bool.and_eq_true, Bool.and_eq_true] at this
    have := this.1.2
    rw [hg] at this
    simpa using this
  refine ⟨?_, fun x i hx hi => ?_, fun x g a b hx hg hd => absurd hd (hk x g hx hg).1, fun x g a hx hg hm => absurd hm (hk x g hx hg).2,
    fun x d hx hd hr => ?_⟩
  · rintro ⟨g, hg, e⟩
    rw [hg] at h2
    simp only [decide_eq_true_eq] at h2
    exact h2 e
  · have := h1 x (from_covers h0 hx)
    rw [Bool.and_eq_true, Bool.and_eq_true] at this
    have := this.1.1
    rw [hi] at this
    simpa [Spec.Small] using this
  · have := h1 x (from_covers h0 hx)
    rw [Bool.and_eq_true, Bool.and_eq_true] at this
    have := this.2
    rw [hd] at this
    have hm := readStore_of h0 hr
    simp only [Bool.not_eq_true', List.contains_eq_mem, decide_eq_false_iff_not] at this
    exact this hm

/-- No tensor has the gradient `t`. -/
def isGradCheck (h : Heap F) (t : Nat) : Bool := h.ts.all fun i => decide (i.grad ≠ some t)

omit [FOps F] in
theorem not_isGrad {h : Heap F} {t : Nat} (hc : isGradCheck h t = true) : ¬ IsGrad h t := by
  rintro ⟨x, i, hi, hg⟩
  unfold isGradCheck at hc
  rw [List.all_eq_true] at hc
  have := hc i (List.mem_of_getElem? hi)
  simp only [decide_eq_true_eq] at this
  exact this hg

/-- The tensor is a leaf. -/
theorem separate_leaf {h : Heap F} {x : Nat} (hx : (opOf h x).isSome = false) (t : Nat) : Separate h x t := fun y hy _ hc => by
  have hn : ¬ Interior h x := by unfold Interior; rw [hx]; decide
  rw [from_leaf hn hy] at hc
  exact absurd hc hn

theorem forward_back [Field F] {h : Heap F} {vs : List Nat} (hf : Forward h vs) (t : Nat) (l : List Nat) (vs' : List Nat)
    (ht : t ∈ vs) (hr : requiresGrad h t = true) (ho : (opOf h t).isSome = true) (hn : vol (shapeOf h t) = 1)
    (hc : smoothCheck h t l = true) (hrun : result ((Call.backward t).run h) = some none)
    (hs : ∀ x ∈ vs', x ∈ vs ∧ (opOf h x).isSome = false ∧
      (l.all fun y => match gradStore h y with
        | some d => !(readsOf h [x]).contains (some d)
        | none => true) = true) : Forward (after h (.backward t)) vs' := by
  have hcov : covers h t l = true := by
    unfold smoothCheck at hc
    rw [Bool.and_eq_true, Bool.and_eq_true] at hc
    exact hc.1.1
  have hvs : ∀ x ∈ vs', x ∈ vs ∧ Separate h x t ∧ Aloof h x t := fun x hx => by
    obtain ⟨h1, h2, h3⟩ := hs x hx
    refine ⟨h1, separate_leaf h2 t, fun y d hy hd hr => ?_⟩
    rw [List.all_eq_true] at h3
    have := h3 y (from_covers hcov hy)
    rw [hd] at this
    have hcx : covers h x [x] = true := by
      unfold covers
      have : operands h x = [] := by
        unfold operands
        cases hop : opOf h x with
        | none => rfl
        | some g => rw [hop] at h2; cases h2
      simp [this]
    have hm := readStore_of hcx hr
    simp only [Bool.not_eq_true', List.contains_eq_mem, decide_eq_false_iff_not] at this
    exact this hm
  unfold after
  cases e : (Call.backward t).run h with
  | ok r h' =>
    rw [e] at hrun; simp only [result, Option.some.injEq] at hrun; subst hrun
    exact hf.back ht ⟨hr, ho, hn, smooth_of_check l hc⟩ e hvs
  | throw _ _ => rw [e] at hrun; simp [result] at hrun
  | ub _ => rw [e] at hrun; simp [result] at hrun

/-! ### `x = [2, 3]`, `y = x * x`, `s = y.sum()` -/

def squares0 : Heap ℚ := after Heap.empty (.fromBlob [.f 2, .f 3] [2] .f64)
def squares1 : Heap ℚ := after squares0 (.setRequiresGrad 0 true)
def squares2 : Heap ℚ := after squares1 (.mul 0 0)
def squares : Heap ℚ := after squares2 (.sum 1)

theorem squares_forward : Forward squares [2, 1, 0] := by
  have f0 : Forward squares0 [0] := forward_returns .start _ 0
    ⟨by unfold Spec.Small; decide +kernel, by decide, fun v hv => by fin_cases hv <;> exact hasType_f.2 rfl⟩ (by decide) (by decide +kernel)
  have f1 : Forward squares1 [0] := forward_changes f0 _ ⟨rfl, fun i hi => .inr ?_, not_isGrad (by decide +kernel)⟩ (by decide) (by decide +kernel)
  have f2 : Forward squares2 [1, 0] := forward_returns f1 _ 1 ⟨[2], ?_, by unfold Spec.Small; decide +kernel⟩ (by decide) (by decide +kernel)
  · exact forward_returns f2 _ 2 (by show vol (shapeOf squares2 1) < _; decide +kernel) (by decide) (by decide +kernel)
  · have : shapeOf squares1 0 = [2] := by decide +kernel
    rw [this]
    exact broadcasts_self [2]
  · have hv : (squares0.ts[0]?).map (·.view) = some (Layout.contig [2]) := by decide +kernel
    rw [hi] at hv
    rw [show i.view = Layout.contig [2] from Option.some.inj hv]
    exact dense_contig (by decide)

/-! ### A step of gradient descent: `s.backward()`, `x.detach() += x.grad() * (-1/4)`, `x.zero_grad()`, and again -/

theorem readsOf_leaf {h : Heap F} {x d : Nat} (hx : (opOf h x).isSome = false) (hc : (readsOf h [x]).contains (some d) = false) :
    ¬ ReadStore h x d := fun hr => by
  have hcx : covers h x [x] = true := by
    unfold covers
    have : operands h x = [] := by
      unfold operands
      cases hop : opOf h x with
      | none => rfl
      | some g => rw [hop] at hx; cases hx
    simp [this]
  have hm := readStore_of hcx hr
  simp only [List.contains_eq_mem, decide_eq_false_iff_not] at hc
  exact hc hm

theorem unread_leaf {h : Heap F} {x t : Nat} (hx : (opOf h x).isSome = false)
    (hg : ((gradStore h x).isSome && decide (gradStore h x = (h.ts[t]?).map (·.data))) = false) : Unread h x t := by
  have hn : ¬ Interior h x := by unfold Interior; rw [hx]; decide
  refine ⟨fun y g hy hop => ?_, fun y i hy hi hd => ?_⟩
  · rw [from_leaf hn hy] at hop
    rw [hop] at hx; cases hx
  · rw [from_leaf hn hy] at hd
    rw [hd, hi] at hg
    simp at hg

def loop0 : Heap ℚ := after squares (.backward 2)
def loop1 : Heap ℚ := after loop0 (.fullReal [] (-1/4) .f64)
def loop2 : Heap ℚ := after loop1 (.mul 8 10)
def loop3 : Heap ℚ := after loop2 (.detach 0)
def loop4 : Heap ℚ := after loop3 (.addAssign 12 11)
def loop5 : Heap ℚ := after loop4 (.zeroGrad 0)
def loop6 : Heap ℚ := after loop5 (.mul 0 0)
def loop : Heap ℚ := after loop6 (.sum 13)

theorem loop_forward : Forward loop [14, 13, 0] := by
  have f0 : Forward loop0 [0] := forward_back squares_forward 2 [2, 1, 0] [0] (by decide) (by decide +kernel) (by decide +kernel)
    (by decide +kernel) (by decide +kernel) (by decide +kernel) (fun x hx => by
      simp only [List.mem_singleton] at hx
      subst hx
      decide +kernel)
  have hg : ∃ a, GradIs loop0 0 a := by
    obtain ⟨V, hV, hI⟩ := forward_inv f0
    obtain ⟨a, ha⟩ := hI.gradOrZero (hV 0 (by simp)) (by unfold Interior; decide +kernel)
    refine ⟨a, ha.resolve_right ?_⟩
    rintro ⟨⟨i, hi, hn⟩, _⟩
    have hgi : (loop0.ts[0]?).map (·.grad) = some (some 8) := by decide +kernel
    rw [hi] at hgi
    have hgi : i.grad = some 8 := Option.some.inj hgi
    have h8 : ((loop0.ts[8]?).bind fun j => (loop0.st[j.data]?).map (·.blob.isNone)) = some false := by decide +kernel
    cases hj : loop0.ts[8]? with
    | none => rw [hj] at h8; cases h8
    | some j =>
      rw [hj, Option.bind_some] at h8
      cases hs : loop0.st[j.data]? with
      | none => rw [hs] at h8; cases h8
      | some s =>
        rw [hs] at h8
        have := hn 8 j s hgi hj hs
        simp [this] at h8
  obtain ⟨a, ha⟩ := hg
  have f1 : Forward loop0 [8, 0] := f0.gradient (by simp) ha (h' := loop0) (by
    have : (loop0.ts[0]?).map (·.grad) = some (some 8) := by decide +kernel
    cases hi : loop0.ts[0]? with
    | none => rw [hi] at this; cases this
    | some i =>
      rw [hi] at this
      show gradOf 0 loop0 = _
      unfold gradOf
      rw [M.bind_ok (getT_ok hi)]
      have this : i.grad = some 8 := Option.some.inj this
      show Out.ok i.grad loop0 = _
      rw [this])
  have f2 : Forward loop1 [10, 8, 0] := forward_returns f1 _ 10 ⟨by unfold Spec.Small; decide, rfl⟩ (by decide) (by decide +kernel)
  have f3 : Forward loop2 [11, 10, 8, 0] := forward_returns f2 _ 11 ⟨[2], by
    rw [show shapeOf loop1 8 = [2] by decide +kernel, show shapeOf loop1 10 = [] by decide +kernel]
    exact (broadcasts_nil [2]), by unfold Spec.Small; decide⟩ (by decide) (by decide +kernel)
  have f4 : Forward loop3 [12, 11, 10, 8, 0] := forward_returns f3 _ 12 trivial (by decide) (by decide +kernel)
  have hv : (loop3.ts[12]?).map (fun i => (i.view, i.dtype)) = some (Layout.contig [2], .f64) := by decide +kernel
  have hd : (loop3.ts[12]?).map (·.data) = some 0 ∧ (loop3.ts[11]?).map (·.data) ≠ some 0 := by decide +kernel
  have f5 : Forward loop4 [0] := by
    have hrun : result ((Call.addAssign 12 11).run loop3) = some none := by decide +kernel
    unfold loop4 after
    cases e : (Call.addAssign 12 11).run loop3 with
    | ok r h' =>
      rw [e] at hrun; simp only [result, Option.some.injEq] at hrun; subst hrun
      refine f4.update (t := 12) (r := 11) (by simp) (by simp) ⟨by decide +kernel, fun i hi => ?_, fun i hi x y hx hy he => ?_, ?_, [2], ?_⟩ e fun x hx => ?_
      · rw [hi] at hv
        have := congrArg Prod.snd (Option.some.inj hv)
        simp only at this
        rw [this]; rfl
      · rw [hi] at hv
        have := congrArg Prod.fst (Option.some.inj hv)
        simp only at this
        rw [this] at hx hy he
        exact (dense_contig (by decide)).inj x y hx hy he
      · rintro ⟨i, j, hi, hj, e⟩
        rw [hi, hj] at hd
        exact hd.2 (by rw [← hd.1, Option.map_some, Option.map_some, e])
      · rw [show shapeOf loop3 12 = [2] by decide +kernel, show shapeOf loop3 11 = [2] by decide +kernel]
        exact broadcasts_self [2]
      · simp only [List.mem_singleton] at hx
        subst hx
        exact ⟨by simp, unread_leaf (by decide +kernel) (by decide +kernel)⟩
    | throw _ _ => rw [e] at hrun; simp [result] at hrun
    | ub _ => rw [e] at hrun; simp [result] at hrun
  have f6 : Forward loop5 [0] := by
    have hrun : result ((Call.zeroGrad 0).run loop4) = some none := by decide +kernel
    unfold loop5 after
    cases e : (Call.zeroGrad 0).run loop4 with
    | ok r h' =>
      rw [e] at hrun; simp only [result, Option.some.injEq] at hrun; subst hrun
      refine f5.zero (t := 0) (by simp) e fun x hx => ?_
      simp only [List.mem_singleton] at hx
      subst hx
      refine ⟨by simp, fun d hd => readsOf_leaf (by decide +kernel) ?_⟩
      have : gradStore loop4 0 = some 8 := by decide +kernel
      rw [this] at hd
      obtain rfl := Option.some.inj hd
      decide +kernel
    | throw _ _ => rw [e] at hrun; simp [result] at hrun
    | ub _ => rw [e] at hrun; simp [result] at hrun
  have f7 : Forward loop6 [13, 0] := forward_returns f6 _ 13 ⟨[2], by
    rw [show shapeOf loop5 0 = [2] by decide +kernel]
    exact broadcasts_self [2], by unfold Spec.Small; decide⟩ (by decide) (by decide +kernel)
  exact forward_returns f7 _ 14 (by show vol (shapeOf loop6 13) < _; decide +kernel) (by decide) (by decide +kernel)

/-! ### A second result on the same leaf: `z = x.sum()` -/

def twice : Heap ℚ := after squares (.sum 0)

theorem twice_forward : Forward twice [3, 2, 1, 0] :=
  forward_returns squares_forward _ 3 (by show vol (shapeOf squares 0) < _; decide +kernel) (by decide) (by decide +kernel)

/-! ### `a = [1, 5, 3]`, `b = [2, 4, 8]` (both require grad), `w = [1, -1, 2]`, `c = 7`, `y = a * b` -/

def parts0 : Heap ℚ := after Heap.empty (.fromBlob [.f 1, .f 5, .f 3] [3] .f64)
def parts1 : Heap ℚ := after parts0 (.fromBlob [.f 2, .f 4, .f 8] [3] .f64)
def parts2 : Heap ℚ := after parts1 (.fromBlob [.f 1, .f (-1), .f 2] [3] .f64)
def parts3 : Heap ℚ := after parts2 (.scalar .f64 (.f 7))
def parts4 : Heap ℚ := after parts3 (.setRequiresGrad 0 true)
def parts5 : Heap ℚ := after parts4 (.setRequiresGrad 1 true)
def parts : Heap ℚ := after parts5 (.mul 0 1)

theorem parts_forward : Forward parts [4, 3, 2, 1, 0] := by
  have f0 : Forward parts0 [0] := forward_returns .start _ 0
    ⟨by unfold Spec.Small; decide +kernel, by decide, fun v hv => by fin_cases hv <;> exact hasType_f.2 rfl⟩ (by decide) (by decide +kernel)
  have f1 : Forward parts1 [1, 0] := forward_returns f0 _ 1
    ⟨by unfold Spec.Small; decide +kernel, by decide, fun v hv => by fin_cases hv <;> exact hasType_f.2 rfl⟩ (by decide) (by decide +kernel)
  have f2 : Forward parts2 [2, 1, 0] := forward_returns f1 _ 2
    ⟨by unfold Spec.Small; decide +kernel, by decide, fun v hv => by fin_cases hv <;> exact hasType_f.2 rfl⟩ (by decide) (by decide +kernel)
  have f3 : Forward parts3 [3, 2, 1, 0] := forward_returns f2 _ 3 (show Val.HasType .f64 (.f (7 : ℚ)) from hasType_f.2 rfl) (by decide) (by decide +kernel)
  have dense : ∀ (h : Heap ℚ) (x : Nat) (i : Impl), (h.ts[x]?).map (·.view) = some (Layout.contig [3]) → h.ts[x]? = some i → Dense i.view := by
    intro h x i hv hi
    rw [hi] at hv
    rw [show i.view = Layout.contig [3] from Option.some.inj hv]
    exact dense_contig (by decide)
  have f4 : Forward parts4 [3, 2, 1, 0] := forward_changes f3 _
    ⟨rfl, fun i hi => .inr (dense parts3 0 i (by decide +kernel) hi), not_isGrad (by decide +kernel)⟩ (by decide) (by decide +kernel)
  have f5 : Forward parts5 [3, 2, 1, 0] := forward_changes f4 _
    ⟨rfl, fun i hi => .inr (dense parts4 1 i (by decide +kernel) hi), not_isGrad (by decide +kernel)⟩ (by decide) (by decide +kernel)
  exact forward_returns f5 _ 4 ⟨[3], by
    rw [show shapeOf parts5 0 = [3] by decide +kernel, show shapeOf parts5 1 = [3] by decide +kernel]
    exact broadcasts_self [3], by unfold Spec.Small; decide⟩ (by decide) (by decide +kernel)

/-- `l` contains the computations of the tensors `ts`, without quotients or means, with small tensors, and they read none of
their gradients. -/
def innerCheck (h : Heap F) (ts l : List Nat) : Bool :=
  (ts.all fun t => covers h t l) &&
  (l.all fun (x : Nat) =>
    (match h.ts[x]? with
    | some i => decide (vol i.view.sizes * i.dtype.size < 9223372036854775808)
    | none => true) &&
    (match opOf h x with
    | some g => decide (g.kind ≠ .div) && decide (g.kind ≠ .mean)
    | none => true) &&
    (match gradStore h x with
    | some d => !(readsOf h l).contains (some d)
    | none => true))

theorem inner_of_check [Field F] {h : Heap F} {ts : List Nat} (l : List Nat) (hc : innerCheck h ts l = true) : Inner h ts := by
  unfold innerCheck at hc
  rw [Bool.and_eq_true, List.all_eq_true, List.all_eq_true] at hc
  obtain ⟨h0, h1⟩ := hc
  have hk : ∀ t ∈ ts, ∀ x g, From h t x → opOf h x = some g → g.kind ≠ .div ∧ g.kind ≠ .mean := fun t ht x g hx hg => by
    have := h1 x (from_covers (h0 t ht) hx)
    rw [Bool.and_eq_true, Bool.and_eq_true] at this
    have := this.1.2
    rw [hg] at this
    simpa using this
  refine ⟨fun t ht x i hx hi => ?_, fun t ht x g a b hx hg hd => absurd hd (hk t ht x g hx hg).1, fun t ht x g hx hg => (hk t ht x g hx hg).2,
    fun t ht x d hx hd t' ht' hr => ?_⟩
  · have := h1 x (from_covers (h0 t ht) hx)
    rw [Bool.and_eq_true, Bool.and_eq_true] at this
    have := this.1.1
    rw [hi] at this
    simpa [Spec.Small] using this
  · have := h1 x (from_covers (h0 t ht) hx)
    rw [Bool.and_eq_true, Bool.and_eq_true] at this
    have := this.2
    rw [hd] at this
    have hm := readStore_of (h0 t' ht') hr
    simp only [Bool.not_eq_true', List.contains_eq_mem, decide_eq_false_iff_not] at this
    exact this hm

theorem forward_denotes [Field F] [Exact F] {h : Heap F} {vs : List Nat} (hf : Forward h vs) {x : Nat} (hx : x ∈ vs) :
    ∃ dt f, Denotes h x dt (shapeOf h x) f ∧ ∀ idx, InBox (shapeOf h x) idx → real (f idx) = valOf h x idx := by
  obtain ⟨V, hV, hI⟩ := forward_inv hf
  obtain ⟨i, f, hi, hr⟩ := hI.reads x (hV x hx)
  exact ⟨_, f, ⟨i, hi, rfl, (shapeOf_eq hi).symm, hr⟩, fun idx hidx => (valOf_reads hi hr (by rw [← shapeOf_eq hi]; exact hidx)).symm⟩

end INNC
