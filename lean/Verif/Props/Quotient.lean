import Verif.Lemmas.ConstQuotient
import Verif.Props.Again
/-
C43, what happens instead: quotients through which `backward()` never gets, for every program.
-/
namespace INNC
open Spec Tensor
variable {F : Type} [FOps F]

/-- **C43** is false of every program with a constant operand of a quotient: if the result `t` depends on `a / b` and `a` or `b`
does not require grad (and is not a result that does, and has no gradient from before), then `backward()` on `t` never returns.
(`Unused`: the graph has not been back-propagated before.) -/
theorem C43_constant_operand {h : Heap F} (hh : History h) {t x a b : Nat} (hu : Unused h t) (hx : From h t x)
    (hq : Quotient h x a b) (hc : Constant h a ∨ Constant h b) : ∀ H, backward t h ≠ .ok () H := by
  intro H hb
  obtain ⟨g, ho, hk, hin⟩ := hq
  obtain ⟨h1, n, v, S, Hm, g', Hn, hst, hc', hS, hm, hk', hin', e⟩ := backward_steps hh hu hb hx ho
  obtain ⟨⟨H1, p, b1, e1⟩, H2, b2, e2⟩ := quotient_parts hc' (hk'.trans hk) (hin'.trans hin) (hS a (by simp [hin]))
    (hS b (by simp [hin])) hm e
  rcases hc with hc | hc
  · rw [b1.no_grad hst hc] at e1; cases e1
  · obtain ⟨_, _, _, _, _, _, _, _, _, e3, _⟩ := divBackDen_ok e2
    rw [b2.no_grad hst hc] at e3; cases e3

/-- **C43** is false of every program with a denominator of an integer type: `backward()` never returns. -/
theorem C43_integer {h : Heap F} (hh : History h) {t x a b : Nat} (hu : Unused h t) (hx : From h t x) (hq : Quotient h x a b)
    {i : Impl} (hi : h.ts[b]? = some i) (hd : i.dtype.isFloat = false) : ∀ H, backward t h ≠ .ok () H := by
  intro H hb
  obtain ⟨g, ho, hk, hin⟩ := hq
  obtain ⟨h1, n, v, S, Hm, g', Hn, hst, hc', hS, hm, hk', hin', e⟩ := backward_steps hh hu hb hx ho
  obtain ⟨_, H2, b2, e2⟩ := quotient_parts hc' (hk'.trans hk) (hin'.trans hin) (hS a (by simp [hin])) (hS b (by simp [hin])) hm e
  obtain ⟨ib, _, _, _, _, _, hib, _, hf, _⟩ := divBackDen_ok e2
  obtain ⟨j, hj, hsk⟩ := b2.skel b _ (hst.at_ b i hi)
  rw [hib] at hj
  obtain rfl := Option.some.inj hj
  have : ib.dtype = i.dtype := (skel_eq hsk).1
  rw [this, hd] at hf
  cases hf

/-- **C43** is false of every program with a denominator of another rank than the quotient, which the division itself allows
by broadcasting: if the denominator is a leaf without a gradient from before, and the quotient is not empty, `backward()` never
returns. -/
theorem C43_lower_rank {h : Heap F} (hh : History h) {t x a b : Nat} (hu : Unused h t) (hx : From h t x) (hq : Quotient h x a b)
    {i k : Impl} (hi : h.ts[b]? = some i) (hl : i.gradFn = none) (hg : i.grad = none) (hk : h.ts[x]? = some k)
    (hn : vol k.view.sizes ≠ 0) (hr : k.view.sizes.length ≠ i.view.sizes.length) : ∀ H, backward t h ≠ .ok () H := by
  intro H hb
  obtain ⟨g, ho, hd, hin⟩ := hq
  obtain ⟨h1, n, v, S, Hm, g', Hn, hst, hc', hS, hm, hk', hin', e⟩ := backward_steps hh hu hb hx ho
  obtain ⟨_, H2, b2, e2⟩ := quotient_parts hc' (hk'.trans hd) (hin'.trans hin) (hS a (by simp [hin])) (hS b (by simp [hin])) hm e
  obtain ⟨ib, ix, p, jp, _, _, hib, hix, _, e3, hjp, e4, _⟩ := divBackDen_ok e2
  have hi' := hst.at_ b i hi
  have hg' : ib.grad = some p := by
    unfold derefGrad at e3
    rw [M.bind_ok (getT_ok hib)] at e3
    cases hx : ib.grad with
    | none => rw [hx] at e3; cases e3
    | some q => rw [hx] at e3; injection e3 with e3; rw [e3]
  obtain ⟨j, hj, _, hv, _⟩ := b2.leafNew b p _ ib hi' hib (by simp [hl]) hg hg'
  rw [hjp] at hj
  obtain rfl := Option.some.inj hj
  obtain ⟨k', hk', hsk⟩ := b2.skel x _ (hst.at_ x k hk)
  rw [hix] at hk'
  obtain rfl := Option.some.inj hk'
  have hs : ix.view = k.view := (skel_eq hsk).2.1
  have := tensorDivBackDen_rank (by rw [hs]; exact hn) e4
  rw [hs, hv] at this
  exact hr this

/-- `x = [1, 2]` (0) that requires grad, `y` (1), `q = x / y` (2), `s = q.sum()` (3). -/
def halves (y : Call Int) : List (Call Int) := [.fromBlob [.f 1, .f 2] [2] .f32, .setRequiresGrad 0 true, y, .div 0 1, .sum 2]

def halvesCheck (P : Impl → Impl → Bool) (h : Heap Int) : Bool :=
  (operands h 3 == [2]) && (match opOf h 2 with | some ⟨.div, [0, 1], _, _, _⟩ => true | _ => false) &&
  ((h.ts[3]?).any fun i => i.requiresGrad && numel i.view.sizes == 1) &&
  (match h.ts[1]?, h.ts[2]? with | some i, some k => P i k | _, _ => false)

/-- The programs `halves y` build a graph that passes the guards of `backward()` and contains a quotient. -/
theorem halves_state (y : Call Int) (hy : Builds y = true) (P : Impl → Impl → Bool)
    (hc : (runs (halves y) Heap.empty).any (halvesCheck P) = true) :
    ∃ (h : Heap Int) (i k r : Impl), History h ∧ Unused h 3 ∧ From h 3 2 ∧ Quotient h 2 0 1 ∧ h.ts[1]? = some i ∧ h.ts[2]? = some k ∧
      P i k = true ∧ h.ts[3]? = some r ∧ r.requiresGrad = true ∧ numel r.view.sizes = 1 := by
  obtain ⟨h, hp, e⟩ := programs (P := halvesCheck P) (halves y) (by have : (halves y).all Builds = (Builds y && true) := rfl; rw [this, hy]; rfl) hc
  unfold halvesCheck at e
  simp only [Bool.and_eq_true, beq_iff_eq] at e
  obtain ⟨⟨⟨e1, e2⟩, e3⟩, e4⟩ := e
  cases h1 : h.ts[1]? with
  | none => rw [h1] at e4; simp at e4
  | some i =>
    cases h2 : h.ts[2]? with
    | none => rw [h1, h2] at e4; simp at e4
    | some k =>
      rw [h1, h2] at e4
      cases h3 : h.ts[3]? with
      | none => rw [h3] at e3; simp at e3
      | some r =>
        rw [h3] at e3
        simp only [Option.any_some, Bool.and_eq_true, beq_iff_eq] at e3
        refine ⟨h, i, k, r, program_history hp, (fresh_programs hp).unused 3, .step .root (by unfold Uses; rw [e1]; simp), ?_, h1, h2, e4, h3, e3⟩
        split at e2
        · rename_i heq; exact ⟨_, heq, rfl, rfl⟩
        · simp at e2

/-- Non-vacuity of `C43_constant_operand`: `sum([1, 2] / [3, 4])` with a constant denominator. -/
example : ∃ (h : Heap Int) (r : Impl), History h ∧ Unused h 3 ∧ From h 3 2 ∧ Quotient h 2 0 1 ∧ Constant h 1 ∧
    h.ts[3]? = some r ∧ r.requiresGrad = true ∧ numel r.view.sizes = 1 := by
  obtain ⟨h, i, k, r, a, b, c, d, e, _, f, g⟩ := halves_state (.fromBlob [.f 3, .f 4] [2] .f32) rfl
    (fun i _ => !i.requiresGrad && i.gradFn.isNone && i.grad.isNone) (by decide +kernel)
  simp at f
  exact ⟨h, r, a, b, c, d, ⟨i, e, f.1.1, f.1.2, f.2⟩, g⟩

/-- Non-vacuity of `C43_integer`: `sum([1, 2] / [3, 4])` with integers 3 and 4. -/
example : ∃ (h : Heap Int) (i r : Impl), History h ∧ Unused h 3 ∧ From h 3 2 ∧ Quotient h 2 0 1 ∧ h.ts[1]? = some i ∧
    i.dtype.isFloat = false ∧ h.ts[3]? = some r ∧ r.requiresGrad = true ∧ numel r.view.sizes = 1 := by
  obtain ⟨h, i, k, r, a, b, c, d, e, _, f, g⟩ := halves_state (.fromBlob [.i 3, .i 4] [2] .i32) rfl
    (fun i _ => !i.dtype.isFloat) (by decide +kernel)
  simp at f
  exact ⟨h, i, r, a, b, c, d, e, f, g⟩

/-- Non-vacuity of `C43_lower_rank`: `sum([1, 2] / 3)` with a scalar. -/
example : ∃ (h : Heap Int) (i k r : Impl), History h ∧ Unused h 3 ∧ From h 3 2 ∧ Quotient h 2 0 1 ∧ h.ts[1]? = some i ∧
    i.gradFn = none ∧ i.grad = none ∧ h.ts[2]? = some k ∧ vol k.view.sizes ≠ 0 ∧ k.view.sizes.length ≠ i.view.sizes.length ∧
    h.ts[3]? = some r ∧ r.requiresGrad = true ∧ numel r.view.sizes = 1 := by
  obtain ⟨h, i, k, r, a, b, c, d, e, e', f, g⟩ := halves_state (.fromBlob [.f 3] [] .f32) rfl
    (fun i k => i.gradFn.isNone && i.grad.isNone && !(vol k.view.sizes == 0) && !(k.view.sizes.length == i.view.sizes.length))
    (by decide +kernel)
  simp at f
  exact ⟨h, i, k, r, a, b, c, d, e, f.1.1.1, f.1.1.2, e', f.1.2, f.2, g⟩

end INNC
