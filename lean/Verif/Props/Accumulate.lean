import Verif.Lemmas.Accumulate
import Verif.Props.Deriv
/-
C39, the part that holds: gradients accumulate over computations that share only leaves.
-/
namespace INNC
open Spec Tensor
variable {F : Type} [Field F] [FOps F] [Exact F] {h : Heap F} {V : Nat → Prop}

/-- One call of `backward()` adds the partial derivatives to the gradients of all leaves. -/
theorem Inv.back_step (hI : Inv h V) (hh : History h) {t : Nat} (ht : V t) (hs : Starts h t) :
    ∃ H, backward t h = .ok () H ∧ ∀ x, V x → ¬ Interior h x → ∀ G₀, GradOrZero h x G₀ →
      ∃ G₁, GradOrZero H x G₁ ∧ (Leaf h t x → GradIs H x G₁) ∧ (GradIs h x G₀ → GradIs H x G₁) ∧
        ∀ idx, InBox (shapeOf h x) idx → ∀ d, Partial h t x idx d → G₁ idx = G₀ idx + d := by
  obtain ⟨hr, ho, hn, hS⟩ := hs
  obtain ⟨u₀, hl, _⟩ := exists_lift hI ht hS fun _ _ => 0
  obtain ⟨i, f, hi, _⟩ := hI.reads t ht
  rw [requiresGrad_eq hi] at hr
  have hn' : numel i.view.sizes = 1 := by
    rw [shapeOf_eq hi] at hn
    rw [numel_eq_vol (by omega)]; exact hn
  obtain ⟨H, hb, hg⟩ := C38_gradient_partial h hh t i hi hr ho hn' (hI.unused ht) (hI.prepared ht hS) hS.root u₀ hl
  refine ⟨H, hb, fun x hx hint G₀ hG₀ => ?_⟩
  by_cases hlf : Leaf h t x
  · obtain ⟨G, G₁, h1, h2, h3⟩ := hg x hlf
    refine ⟨G₁, .inl h2, fun _ => h2, fun _ => h2, fun idx hidx d hd => ?_⟩
    obtain ⟨u, r, k1, k2, k3, k4⟩ := hd.1 hlf
    rw [k4, h3 idx hidx u k1 k2 r k3, gradOrZero_unique h1 hG₀ hidx]
  · have := hI.back_grad hh ht hb hx hint hlf (a := G₀)
    exact ⟨G₀, this.2 hG₀, fun h => absurd h hlf, this.1, fun idx _ d hd => by rw [hd.2 hlf, add_zero]⟩

omit [Exact F] in
theorem Agree.partials {H : Heap F} {t : Nat} (a : Agree h H t) {x : Nat} {idx : List Nat} {d : F} (hp : Partial h t x idx d) :
    Partial H t x idx d :=
  ⟨fun hl => by
    obtain ⟨u, r, h1, h2, h3, h4⟩ := hp.1 (a.leaf.1 hl)
    exact ⟨u, r, a.lift h1, a.direction h2, by rw [(a.same t .root).shape]; exact h3, h4⟩, fun hl => hp.2 fun hc => hl (a.leaf.2 hc)⟩

/-- What can be back-propagated again can be back-propagated again after that. -/
theorem Inv.back_repeatable {H : Heap F} (hI : Inv h V) (hh : History h) {t u : Nat} (ht : V t) (hs : Starts h t) (e : backward t h = .ok () H)
    (hu : Clear h V t u) (hint : Interior h u) (hr : Repeatable h u) : Repeatable H u := by
  have ha := hI.back_agree hh ht e hu
  have hb := backward_frame hh (.inl e)
  refine ⟨fun y hy hc => ?_, fun i' hi' => ?_⟩
  · have hy := (ha.uses .root).1 hy
    exact hr.1 y hy ((ha.interior (.step .root hy)).1 hc)
  · obtain ⟨i, _, hi, _⟩ := hI.reads u hu.1
    obtain ⟨k, hk, hsk⟩ := hb.skel u i hi
    rw [hi'] at hk
    obtain rfl := Option.some.inj hk
    obtain ⟨h1, h2⟩ := hr.2 i hi
    refine ⟨(skel_eq hsk).2.2.2.2.trans h1, ?_⟩
    by_cases hf : From h t u
    · obtain ⟨rfl, _⟩ := hu.2.1 u .root hf hint
      obtain ⟨q1, q2, q3, _⟩ := hs
      have h3 := (root_after (graph_history hh) (hI.unused ht) hi (by rw [← requiresGrad_eq hi]; exact q1)
        (by unfold Interior at q2; rwa [opOf_eq hi] at q2) (by rw [shapeOf_eq hi] at q3; rw [numel_eq_vol (by omega)]; exact q3) e).1 h1
      rwa [gradAt_some hi'] at h3
    · rw [hb.out u i hi hf] at hi'
      rw [← Option.some.inj hi']; exact h2

theorem backwardAll_inv : ∀ (ts : List Nat) (h : Heap F) (V : Nat → Prop), Inv h V → History h → (∀ t ∈ ts, V t ∧ Starts h t) →
    ts.Pairwise (fun t u => Separate h u t ∧ Aloof h u t) →
    ∃ H, backwardAll ts h = .ok () H ∧ ∀ x, V x → ¬ Interior h x → (∀ t ∈ ts, Aloof h x t) → ∀ G₀, GradOrZero h x G₀ → ∃ G₁, GradOrZero H x G₁ ∧
      ((∃ t ∈ ts, Leaf h t x) ∨ GradIs h x G₀ → GradIs H x G₁) ∧
      ∀ idx, InBox (shapeOf h x) idx → ∀ ds, List.Forall₂ (fun t d => Partial h t x idx d) ts ds → G₁ idx = G₀ idx + ds.sum
  | [], h, V, hI, hh, _, _ => by
    refine ⟨h, rfl, fun x _ _ _ G₀ h0 => ⟨G₀, h0, ?_, fun idx _ ds hds => ?_⟩⟩
    · rintro (⟨t, ht, _⟩ | h1)
      · cases ht
      · exact h1
    · cases hds
      simp
  | t :: ts, h, V, hI, hh, hts, hp => by
    obtain ⟨htv, hst⟩ := hts t (by simp)
    obtain ⟨H, hb, hstep⟩ := hI.back_step hh htv hst
    obtain ⟨hp1, hp2⟩ := List.pairwise_cons.1 hp
    have hcl : ∀ u ∈ ts, Clear h V t u := fun u hu => ⟨(hts u (by simp [hu])).1, hp1 u hu⟩
    have hag : ∀ u ∈ ts, Agree h H u := fun u hu => hI.back_agree hh htv hb (hcl u hu)
    obtain ⟨H', hb', hall⟩ := backwardAll_inv ts H (Clear h V t) (hI.back hh htv hst.2.2.2 hst.1 hst.2.1 hst.2.2.1 hb)
      (.returned hh (c := .backward t) (t := none) (by show none' (backward t) h = _; unfold none'; rw [M.bind_ok hb]; rfl))
      (fun u hu => ⟨hcl u hu, (hag u hu).starts (fun x d hx hd hr => by
        have hux := (hcl u hu).1
        rcases hI.back_store hh hb (hI.from hux hx).1 hd with h1 | h1
        · exact (hts u (by simp [hu])).2.2.2.2.alone x d hx h1 hr
        · have := hI.used_lt (hI.read_used hux hr); omega) (hts u (by simp [hu])).2⟩)
      (hp2.imp_of_mem fun {a b} ha hb' hsep => ⟨fun y hy hy' hi => by
        rw [(hag b hb').interior ((hag b hb').froms.1 hy)] at hi
        obtain ⟨k1, k2⟩ := hsep.1 y ((hag b hb').froms.1 hy) ((hag a ha).froms.1 hy') hi
        exact ⟨k1, hI.back_repeatable hh htv hst hb (hcl a ha) (hts a (by simp [ha])).2.2.1 k2⟩, fun y d hy hd hr => by
        have hr := (hag b hb').symm.read hr
        have hy := (hag a ha).froms.1 hy
        rcases hI.back_store hh hb (hI.from (hcl a ha).1 hy).1 hd with h1 | h1
        · exact hsep.2 y d hy h1 hr
        · have := hI.used_lt (hI.read_used (hcl b hb').1 hr); omega⟩)
    refine ⟨H', ?_, fun x hx hint hal G₀ h0 => ?_⟩
    · rw [backwardAll, M.bind_ok hb]; exact hb'
    · have hxc : Clear h V t x := ⟨hx, fun y hy _ hc => by rw [from_leaf hint hy] at hc; exact absurd hc hint, hal t (by simp)⟩
      have hax := hI.back_agree hh htv hb hxc
      obtain ⟨G₁, k0, k1, k2, k3⟩ := hstep x hx hint G₀ h0
      obtain ⟨G₂, l0, l1, l2⟩ := hall x hxc (fun hc => hint ((hax.interior .root).1 hc)) (fun u hu y d hy hd hr => by
        have hr := hax.symm.read hr
        have hy := (hag u hu).froms.1 hy
        rcases hI.back_store hh hb (hI.from (hcl u hu).1 hy).1 hd with h1 | h1
        · exact hal u (by simp [hu]) y d hy h1 hr
        · have := hI.used_lt (hI.read_used hx hr); omega) G₁ k0
      refine ⟨G₂, l0, ?_, fun idx hidx ds hds => ?_⟩
      · rintro (⟨u, hu, hlf⟩ | h1)
        · rcases List.mem_cons.1 hu with rfl | hu
          · exact l1 (.inr (k1 hlf))
          · exact l1 (.inl ⟨u, hu, (hag u hu).leaf.2 hlf⟩)
        · exact l1 (.inr (k2 h1))
      · cases hds with
        | @cons _ d _ ds hd hds =>
          have hds' : List.Forall₂ (fun t d => Partial H t x idx d) ts ds := by
            refine List.forall₂_iff_get.2 ⟨hds.length_eq, fun k h1 h2 => ?_⟩
            exact (hag _ (List.get_mem _ _)).partials ((List.forall₂_iff_get.1 hds).2 k h1 h2)
          rw [l2 idx (by rw [(hax.same x .root).shape]; exact hidx) ds hds', k3 idx hidx d hd, List.sum_cons]
          ring

/-- **C39**, the part that holds: let a program compute with variables (as in C38), and let `ts` be variables that can be
back-propagated, that share no operation with one another, only leaves (but `ts` may contain a result that was computed from
leaves by one operation several times, `Repeatable`), and do not read each other's gradients. Then
`backward()` can be called on all of them, in this order, and the gradient of every leaf `x` (whose elements do not change, that
is, which is not stored on a gradient itself) grows by the sum of the partial derivatives of all of them; these exist.
Missing: results that share operations, for which C39 is false of the code (see the theorems in `GradBugs`). -/
theorem C39_separate_partial (h : Heap F) (vs : List Nat) (hf : Forward h vs) (ts : List Nat) (hts : ∀ t ∈ ts, t ∈ vs ∧ Starts h t)
    (hsep : ts.Pairwise fun t u => Separate h u t ∧ Aloof h u t) :
    ∃ H, backwardAll ts h = .ok () H ∧
      ∀ y ∈ vs, ∀ x, From h y x → ¬ Interior h x → (∀ t ∈ ts, Aloof h x t) → ∃ G₀ G₁, GradOrZero h x G₀ ∧ GradOrZero H x G₁ ∧
      ((∃ t ∈ ts, Leaf h t x) → GradIs H x G₁) ∧
      ∀ idx, InBox (shapeOf h x) idx → (∃ ds, List.Forall₂ (fun t d => Partial h t x idx d) ts ds) ∧
        ∀ ds, List.Forall₂ (fun t d => Partial h t x idx d) ts ds → G₁ idx = G₀ idx + ds.sum := by
  obtain ⟨V, hV, hI⟩ := forward_inv hf
  obtain ⟨H, hb, hall⟩ := backwardAll_inv ts h V hI (forward_history hf) (fun t ht => ⟨hV t (hts t ht).1, (hts t ht).2⟩) hsep
  refine ⟨H, hb, fun y hy x hx hint hal => ?_⟩
  have hxv : V x := (hI.from (hV y hy) hx).1
  obtain ⟨G₀, h0⟩ := hI.gradOrZero hxv hint
  obtain ⟨G₁, h1, h2, h3⟩ := hall x hxv hint hal G₀ h0
  refine ⟨G₀, G₁, h0, h1, fun h => h2 (.inl h), fun idx hidx => ⟨?_, h3 idx hidx⟩⟩
  have hex : ∀ t ∈ ts, ∃ d, Partial h t x idx d := fun t ht => by
    by_cases hl : Leaf h t x
    · obtain ⟨u, k1, k2⟩ := exists_direction hI (hV t (hts t ht).1) (hts t ht).2.2.2.2 x idx
      have hn := (hts t ht).2.2.2.1
      obtain ⟨r, hr⟩ : ∃ r, InBox (shapeOf h t) r := by
        cases hl : rowMajor (shapeOf h t) with
        | nil =>
          have := length_rowMajor (shapeOf h t)
          rw [hl, hn] at this; cases this
        | cons r l => exact ⟨r, mem_rowMajor.1 (by rw [hl]; simp)⟩
      exact ⟨_, fun _ => ⟨u, r, k1, k2, hr, rfl⟩, fun hc => absurd hl hc⟩
    · exact ⟨0, fun hc => absurd hc hl, fun _ => rfl⟩
  clear hall hsep hb h2 h3 h1 hts hal
  induction ts with
  | nil => exact ⟨[], .nil⟩
  | cons t ts ih =>
    obtain ⟨d, hd⟩ := hex t (by simp)
    obtain ⟨ds, hds⟩ := ih fun u hu => hex u (by simp [hu])
    exact ⟨d :: ds, .cons hd hds⟩

/-- The premises hold for `s = (x * x).sum()` and `z = x.sum()` of `x = [2, 3]`... -/
example : Forward twice [3, 2, 1, 0] ∧ Starts twice 2 ∧ Starts twice 3 ∧ Separate twice 3 2 ∧ Aloof twice 3 2 ∧
    From twice 3 0 ∧ ¬ Interior twice 0 ∧ (∀ t ∈ [2, 3], Aloof twice 0 t) := by
  have c2 : covers twice 2 [2, 1, 0] = true := by decide +kernel
  have c3 : covers twice 3 [3, 0] = true := by decide +kernel
  have hg : ∀ y ∈ [3, 2, 1, 0], gradStore twice y = none := by decide +kernel
  have hi : ¬ Interior twice 0 := by unfold Interior; decide +kernel
  have a2 : ∀ x, Aloof twice x 2 := fun x y d hy hd => by
    have := from_covers c2 hy
    rw [hg y (by simp only [List.mem_cons, List.not_mem_nil, or_false] at this ⊢; omega)] at hd
    cases hd
  have a3 : ∀ x, Aloof twice x 3 := fun x y d hy hd => by
    have := from_covers c3 hy
    rw [hg y (by simp only [List.mem_cons, List.not_mem_nil, or_false] at this ⊢; omega)] at hd
    cases hd
  refine ⟨twice_forward, ⟨by decide +kernel, by unfold Interior; decide +kernel, by decide +kernel, smooth_of_check [2, 1, 0] (by decide +kernel)⟩,
    ⟨by decide +kernel, by unfold Interior; decide +kernel, by decide +kernel, smooth_of_check [3, 0] (by decide +kernel)⟩,
    fun y h3 h2 => ?_, a2 3, .step .root (by unfold Uses; decide +kernel), hi, fun t ht => ?_⟩
  · have h3 := from_covers c3 h3
    have h2 := from_covers c2 h2
    simp only [List.mem_cons, List.not_mem_nil, or_false] at h3 h2
    obtain rfl : y = 0 := by omega
    exact fun hc => absurd hc hi
  · simp only [List.mem_cons, List.not_mem_nil, or_false] at ht
    rcases ht with rfl | rfl
    · exact a2 0
    · exact a3 0

/-- ... and the gradient is `[4 + 1, 6 + 1]`. -/
example : ((after (after twice (.backward 2)) (.backward 3)).ts[0]?.bind (·.grad)).map (fun g =>
    (valOf (after (after twice (.backward 2)) (.backward 3)) g [0], valOf (after (after twice (.backward 2)) (.backward 3)) g [1])) =
    some (5, 7) := by decide +kernel

/-- **C39**, any number of repetitions: let a program compute with variables (as in C38), and let `t` be a variable that can be
back-propagated and was computed from leaves by one operation (and has neither views nor a gradient that it is told to keep). Then
`t.backward()` can be called any number `n` of times, and the gradient of every leaf grows by `n` times the partial derivative.
Missing: results of more than one operation, for which this is false of the code by `C39_again`. -/
theorem C39_repeat_partial (h : Heap F) (vs : List Nat) (hf : Forward h vs) (t : Nat) (ht : t ∈ vs) (hs : Starts h t)
    (hr : Repeatable h t) (n : Nat) :
    ∃ H, backwardAll (List.replicate n t) h = .ok () H ∧ ∀ x, Leaf h t x → ∃ G₀ G₁, GradOrZero h x G₀ ∧ GradOrZero H x G₁ ∧
      ∀ idx, InBox (shapeOf h x) idx → (∃ d, Partial h t x idx d) ∧ ∀ d, Partial h t x idx d → G₁ idx = G₀ idx + n * d := by
  have hal : ∀ x, From h t x → Aloof h x t := fun x hx y d hy hd hc => hs.2.2.2.alone y d hy hd (ReadStore.trans hx hc)
  have hself : Separate h t t := fun y hy _ hi => by
    refine ⟨?_, hr⟩
    by_contra hne
    have : ∀ y, From h t y → y = t ∨ ¬ Interior h y := fun y hy => by
      induction hy with
      | root => exact .inl rfl
      | step _ hu ih =>
        rcases ih with rfl | hi
        · exact .inr (hr.1 _ hu)
        · exact absurd hu.interior hi
    exact (this y hy).elim hne fun h => h hi
  obtain ⟨H, hb, hall⟩ := C39_separate_partial h vs hf (List.replicate n t) (fun u hu => by
    obtain rfl := (List.mem_replicate.1 hu).2
    exact ⟨ht, hs⟩) (List.pairwise_replicate.2 (.inr ⟨hself, hal t .root⟩))
  refine ⟨H, hb, fun x hx => ?_⟩
  obtain ⟨G₀, G₁, h0, h1, _, h3⟩ := hall t ht x hx.1.1 hx.2 fun u hu => by
    obtain rfl := (List.mem_replicate.1 hu).2
    exact hal x hx.1.1
  obtain ⟨_, _, hone⟩ := C39_separate_partial h vs hf [t] (by simpa using ⟨ht, hs⟩) (List.pairwise_singleton _ _)
  obtain ⟨_, _, _, _, _, h4⟩ := hone t ht x hx.1.1 hx.2 (by simpa using hal x hx.1.1)
  refine ⟨G₀, G₁, h0, h1, fun idx hidx => ⟨?_, fun d hd => ?_⟩⟩
  · obtain ⟨ds, hds⟩ := (h4 idx hidx).1
    cases hds with
    | @cons _ d _ _ hd _ => exact ⟨d, hd⟩
  · have := (h3 idx hidx).2 (List.replicate n d) (List.forall₂_iff_get.2 ⟨by simp, fun k h1 h2 => by simpa using hd⟩)
    rw [this, List.sum_replicate, nsmul_eq_mul]

/-- The premises hold for `z = x.sum()`... -/
example : Forward twice [3, 2, 1, 0] ∧ Starts twice 3 ∧ Repeatable twice 3 ∧ Leaf twice 3 0 := by
  have hi : ¬ Interior twice 0 := by unfold Interior; decide +kernel
  refine ⟨twice_forward,
    ⟨by decide +kernel, by unfold Interior; decide +kernel, by decide +kernel, smooth_of_check [3, 0] (by decide +kernel)⟩,
    ⟨fun y hy => ?_, fun i hi => ?_⟩, ⟨.step .root (by unfold Uses; decide +kernel), ?_⟩, hi⟩
  · have : ∀ y ∈ operands twice 3, y = 0 := by decide +kernel
    rw [this y hy]; exact hi
  · have : ((twice.ts[3]?).map fun i => (i.retainGrad, i.grad)) = some (false, none) := by decide +kernel
    rw [hi] at this
    simpa using this
  · have : (twice.ts[0]?).map (·.requiresGrad) = some true := by decide +kernel
    cases hi : twice.ts[0]? with
    | none => rw [hi] at this; simp at this
    | some i => rw [hi] at this; exact ⟨i, rfl, Option.some.inj this⟩

/-- ... and after three calls the gradient is `[3, 3]`. -/
example : let h := after (after (after twice (.backward 3)) (.backward 3)) (.backward 3)
    (h.ts[0]?.bind (·.grad)).map (fun g => (valOf h g [0], valOf h g [1])) = some (3, 3) := by decide +kernel

end INNC
