import Verif.Lemmas.DerivSeed
import Verif.Lemmas.ForwardRuns
import Verif.Spec.MeanGrad
/-
Back-propagation through means.
-/
namespace INNC
open Spec Tensor DualNumber
variable {F : Type} [Field F] [FOps F] {h : Heap F} {t : Nat}

theorem Spec.MeansInside.calm (hS : MeansInside h t) : Calm h t := ⟨hS.small, hS.quotient, hS.mean, hS.alone⟩

theorem inBox_modify_sub : ∀ {s idx : List Nat} {d n k : Nat}, InBox s idx → idx.getD d 0 - k < n →
    InBox (s.set d n) (idx.modify d (· - k))
  | [], [], _, _, _, _, _ => by simp [InBox]
  | m :: s, i :: idx, 0, n, k, h, hn => by
    simp only [List.set_cons_zero, List.modify_zero_cons]
    exact ⟨hn, h.2⟩
  | m :: s, i :: idx, d + 1, n, k, h, hn => by
    simp only [List.set_cons_succ, List.modify_succ_cons]
    exact ⟨h.1, inBox_modify_sub h.2 hn⟩

theorem inBox_at_axis : ∀ {s idx : List Nat} {d : Nat}, InBox s idx → d < s.length → idx.getD d 0 < s.getD d 0
  | m :: s, i :: idx, 0, h, _ => h.1
  | m :: s, i :: idx, d + 1, h, hd => by
    have := inBox_at_axis (d := d) h.2 (by simpa using hd)
    simpa using this

theorem modify_sub_add : ∀ {idx : List Nat} {d k : Nat}, k ≤ idx.getD d 0 → (idx.modify d (· - k)).modify d (· + k) = idx
  | [], d, k, _ => by cases d <;> simp
  | i :: idx, 0, k, h => by
    simp only [List.modify_zero_cons]
    rw [Nat.sub_add_cancel (by simpa using h)]
  | i :: idx, d + 1, k, h => by
    simp only [List.modify_succ_cons]
    rw [modify_sub_add (by simpa using h)]

theorem segments_still {u : Nat → List Nat → DualNumber F} {x d : Nat} : ∀ (ins : List Nat) (k : Nat), Segments h u x d k ins →
    (∀ a ∈ ins, ∀ idx, InBox (shapeOf h a) idx → (u a idx).snd = 0) →
    ∀ idx, InBox (shapeOf h x) idx → k ≤ idx.getD d 0 → (u x idx).snd = 0
  | [], k, hs, _, idx, hi, hk => by
    have hs : (shapeOf h x)[d]? = some k := hs
    have h1 := inBox_at_axis hi (getElem?_lt hs)
    have h2 : (shapeOf h x).getD d 0 = k := by simp [List.getD, hs]
    omega
  | a :: ins, k, ⟨n, h1, h2, h3⟩, ha, idx, hi, hk => by
    by_cases hc : k + n ≤ idx.getD d 0
    · exact segments_still ins (k + n) h3 (fun b hb => ha b (by simp [hb])) idx hi hc
    · have hb : InBox (shapeOf h a) (idx.modify d (· - k)) := by rw [h1]; exact inBox_modify_sub hi (by omega)
      have := h2 _ hb
      rw [modify_sub_add hk] at this
      rw [this]
      exact ha a (by simp) _ hb

/-- An operation on constants is constant. -/
theorem computed_still {u : Nat → List Nat → DualNumber F} {x : Nat} {kind : BackKind} {ins : List Nat}
    (hc : Computed h t u x kind ins) (ha : ∀ a ∈ ins, ∀ idx, InBox (shapeOf h a) idx → (u a idx).snd = 0) :
    ∀ idx, InBox (shapeOf h x) idx → (u x idx).snd = 0 := by
  intro idx hi
  unfold Computed at hc
  split at hc
  · next a b =>
    rw [hc.2 idx hi, TrivSqZeroExt.snd_add, ha a (by simp) _ (hc.1.inBox hi), ha b (by simp) _ (hc.1.comm.inBox hi), add_zero]
  · next a b =>
    rw [hc.2 idx hi, TrivSqZeroExt.snd_sub, ha a (by simp) _ (hc.1.inBox hi), ha b (by simp) _ (hc.1.comm.inBox hi), sub_zero]
  · next a b =>
    rw [hc.2 idx hi, TrivSqZeroExt.snd_mul, ha a (by simp) _ (hc.1.inBox hi), ha b (by simp) _ (hc.1.comm.inBox hi)]
    simp
  · next a b =>
    obtain ⟨hB, hs, _, _, hq⟩ := hc
    obtain ⟨h1, h2⟩ := hq idx hi
    have h3 := congrArg TrivSqZeroExt.snd h2
    rw [TrivSqZeroExt.snd_mul, ha a (by simp) _ (hB.inBox hi), ha b (by simp) idx (by rw [hs]; exact hi)] at h3
    simp only [smul_zero, zero_add, MulOpposite.smul_eq_mul_unop, MulOpposite.unop_op] at h3
    exact (mul_eq_zero.1 h3).resolve_right h1
  · next a =>
    rw [hc.1] at hi
    obtain rfl : idx = [] := by simpa using hi.length
    rw [hc.2, snd_boxSum]
    exact boxSum_zero fun k hk => ha a (by simp) k hk
  · next a =>
    obtain ⟨_, _, hs, hz, hm⟩ := hc
    rw [hs] at hi
    obtain rfl : idx = [] := by simpa using hi.length
    have h3 := congrArg TrivSqZeroExt.snd hm
    rw [snd_boxSum, boxSum_zero fun k hk => ha a (by simp) k hk, TrivSqZeroExt.snd_mul] at h3
    simp only [TrivSqZeroExt.fst_natCast, TrivSqZeroExt.snd_natCast, smul_zero, add_zero, smul_eq_mul] at h3
    exact (mul_eq_zero.1 h3).resolve_left hz
  · next a =>
    rw [hc.2 idx hi]
    exact ha a (by simp) idx (by rw [← hc.1]; exact hi)
  · next b =>
    obtain ⟨i, j, hi', hj, hall⟩ := hc
    rw [shapeOf_eq hi'] at hi
    obtain ⟨idx', h1, _, h2⟩ := hall idx hi
    rw [h2]
    exact ha b (by simp) idx' (by rw [shapeOf_eq hj]; exact h1)
  · exact segments_still _ 0 hc.2 ha idx hi (Nat.zero_le _)
  · next k a =>
    obtain ⟨i, f, _, _, _, _, _, _, hall⟩ := hc
    rw [hall idx hi, snd_boxSum]
    refine boxSum_zero fun k hk => ?_
    split
    · rw [TrivSqZeroExt.snd_smul, ha a (by simp) k hk, smul_zero]
    · rfl
  · exact absurd hc id

/-- In the direction of an element of a leaf `x` that only the mean `m` uses, all other tensors are constant. -/
theorem Spec.Detached.still {u : Nat → List Nat → DualNumber F} (hg : Graph h) (hu : Detached h t u) {m x : Nat} {idx : List Nat}
    (hd : Direction h t u x idx) (hm : InnerMean h t m x) (hex : ∀ y, From h t y → ∃ i, h.ts[y]? = some i)
    (hl : ∀ y, From h t y → Uses h y x → y = m) : ∀ y, From h t y → y ≠ x →
    ∀ k, InBox (shapeOf h y) k → (u y k).snd = 0 := by
  intro y
  induction y using Nat.strong_induction_on with
  | _ y ih =>
    intro hf hyx k hk
    cases ho : opOf h y with
    | none =>
      obtain ⟨i, hi⟩ := hex y hf
      rw [shapeOf_eq hi] at hk
      by_cases hr : i.requiresGrad = true
      · exact (hd y ⟨⟨hf, i, hi, hr⟩, by unfold Interior; rw [ho]; simp⟩ k (by rw [shapeOf_eq hi]; exact hk)).2 fun hc => hyx hc.1
      · exact hu.const y i hf hi (by simpa using hr) k hk
    | some g =>
      by_cases hym : ∃ a, InnerMean h t y a
      · obtain ⟨a, ha⟩ := hym
        obtain ⟨_, h2, _, h4⟩ := hu.mean y a hf ha
        rw [h2] at hk
        obtain rfl : k = [] := by simpa using hk.length
        exact h4
      · refine computed_still (hu.op y g hf ho fun a ha => hym ⟨a, ha⟩) (fun a ha => ?_) k hk
        have hus : Uses h y a := by unfold Uses operands; rw [ho]; exact ha
        refine ih a (hg.older y a hus) (.step hf hus) fun hax => hym ⟨x, ?_⟩
        subst hax
        rw [hl y hf hus]; exact hm

/-- `l` contains the computation of `t`, which has no quotient, no mean over 0 elements, small tensors, and reads no gradient of
its own; `t` is not a view. -/
def meansCheck (h : Heap F) (t : Nat) (l : List Nat) : Bool :=
  covers h t l &&
  (l.all fun (x : Nat) =>
    (match h.ts[x]? with
    | some i => decide (vol i.view.sizes * i.dtype.size < 9223372036854775808)
    | none => true) &&
    (match opOf h x with
    | some g => decide (g.kind ≠ .div) && (decide (g.kind ≠ .mean) || g.inputs.all fun a => decide (vol (shapeOf h a) ≠ 0))
    | none => true) &&
    (match gradStore h x with
    | some d => !(readsOf h l).contains (some d)
    | none => true)) &&
  match opOf h t with
  | some g => decide (g.kind ≠ .noBack)
  | none => true

theorem means_of_check [CharZero F] (l : List Nat) (hc : meansCheck h t l = true) : MeansInside h t := by
  unfold meansCheck at hc
  rw [Bool.and_eq_true, Bool.and_eq_true] at hc
  obtain ⟨⟨h0, h1⟩, h2⟩ := hc
  rw [List.all_eq_true] at h1
  have hk : ∀ x g, From h t x → opOf h x = some g → g.kind ≠ .div ∧ (g.kind ≠ .mean ∨ ∀ a ∈ g.inputs, vol (shapeOf h a) ≠ 0) := fun x g hx hg => by
    have := h1 x (from_covers h0 hx)
    rw [Bool.and_eq_true, Bool.and_eq_true] at this
    have := this.1.2
    rw [hg] at this
    simpa using this
  refine ⟨?_, fun x i hx hi => ?_, fun x g a b hx hg hd => absurd hd (hk x g hx hg).1, fun x g a hx hg hm hin => ?_,
    fun x d hx hd hr => ?_⟩
  · rintro ⟨g, hg, e⟩
    rw [hg] at h2
    simp only [decide_eq_true_eq] at h2
    exact h2 e
  · have := h1 x (from_covers h0 hx)
    rw [Bool.and_eq_true, Bool.and_eq_true] at this
    have := this.1.1
    rw [hi] at this
    simpa [Spec.Small] using this
  · rcases (hk x g hx hg).2 with h3 | h3
    · exact absurd hm h3
    · exact Nat.cast_ne_zero.2 (h3 a (by rw [hin]; simp))
  · have := h1 x (from_covers h0 hx)
    rw [Bool.and_eq_true, Bool.and_eq_true] at this
    have := this.2
    rw [hd] at this
    have hm := readStore_of h0 hr
    simp only [Bool.not_eq_true', List.contains_eq_mem, decide_eq_false_iff_not] at this
    exact this hm

end INNC
