import Verif.Lemmas.Consult
import Verif.Props.Backward
import Verif.Props.Deriv
import Verif.Props.Frame
/-
C73 (in-place changes between the operations and `backward()`).
-/
namespace INNC
open Spec Tensor
variable {F : Type} [FOps F]

/-- **C73.** After any history, `backward()` on `t` depends on the elements of the storages that `Consults` lists and on no others, and
does not write to the others: in two states that have the same tensors and differ only in the contents of storages `D` that are not
listed, it ends in the same way and leaves the same gradients, and the contents of `D` are what they were. -/
theorem C73_reads {D : Nat → Prop} {h k : Heap F} (hh : History h) {t : Nat} (hd : DifferOn D h k) (hn : ∀ d, D d → ¬ Consults h t d) :
    SameEnd (Unaffected D t h k) (backward t h) (backward t k) :=
  backward_consults (C37_histories h hh) hd hn

/-- **C73**, in-place additions: any number of `+=` (completed, or ended by an exception) on tensors of one storage, between the operations
that computed `t` and `backward()`, makes no difference to the gradients if that storage is not listed. -/
theorem C73_edits {h k : Heap F} (hh : History h) {t d : Nat} (he : Edits d h k) (hn : ¬ Consults h t d) :
    SameEnd (Unaffected (fun e => e = d) t h k) (backward t h) (backward t k) := by
  have hw := edits_writes he
  exact C73_reads hh ⟨hw.ts.symm, hw.gver.symm, hw.len.symm, fun e he => (hw.other e he).symm⟩ fun e e' => e' ▸ hn

/-- **C73**, sums: if no product, quotient, `abs()`, `max()` or `min()` is involved in the computation of `t`, the elements of tensors do not
matter to `backward()` at all, apart from those of gradients that are already there. -/
theorem C73_linear {h k : Heap F} (hh : History h) {t : Nat}
    (hl : ∀ x g, From h t x → opOf h x = some g → g.kind ≠ .mul ∧ g.kind ≠ .div ∧ ∀ a, g.kind ≠ .knownGrad a)
    (hd : DifferOn (fun d => ∀ x, From h t x → gradStore h x ≠ some d) h k) :
    SameEnd (Unaffected (fun d => ∀ x, From h t x → gradStore h x ≠ some d) t h k) (backward t h) (backward t k) := by
  refine C73_reads hh hd fun d hD hc => ?_
  cases hc with
  | gradient hx e => exact hD _ hx e
  | left hx ho hk => exact (hl _ _ hx ho).1 hk
  | right hx ho hk => exact (hl _ _ hx ho).1 hk
  | denominator hx ho hk => exact (hl _ _ hx ho).2.1 hk
  | quotient hx ho hk => exact (hl _ _ hx ho).2.1 hk
  | slope hx ho hk => exact (hl _ _ hx ho).2.2 _ hk

/-- **C73**: the factors are on the list for a reason. The derivative of `(x * y).sum()` by `x` is not fixed when the product is computed:
`backward()` takes the elements that `y` has by then. The product was computed with `y = [3, 4]`, and the gradient is `[6, 8]`. -/
theorem C73_factor :
    result ((do
      let x ← ones [2] .f32
      setRequiresGrad x true
      let y ← fromBlob [.f 3, .f 4] [2] .f32
      let p ← mulT x y
      let s ← sumT p
      addAssign y y
      backward s
      return (← Tensor.toString p, ← showGrad x) : M Int _) Heap.empty) =
    some ("[3, 4]".toList, some "[6, 8]".toList) := by decide +kernel

/-- The result of a product is not listed. Adding to it through `detach()` changes what it prints and not the gradient. -/
example :
    result ((do
      let x ← ones [2] .f32
      setRequiresGrad x true
      let y ← fromBlob [.f 3, .f 4] [2] .f32
      let p ← mulT x y
      let s ← sumT p
      let e ← detach p
      addAssign e e
      backward s
      return (← Tensor.toString p, ← showGrad x) : M Int _) Heap.empty) =
    some ("[6, 8]".toList, some "[3, 4]".toList) := by decide +kernel

/-! ### C38 -/
section
variable [Field F] [Exact F]

/-- **C38**, elements changed since: let a program as in `C38_program_partial` have reached `h`, and let elements that `Consults` does not
list have been changed since, which gives `k`. Then `backward()` on `t` returns, and the gradients of the leaves have grown by the partial
derivatives of the computation as it was carried out, in `h`. -/
theorem C38_changed_partial (h : Heap F) (vs : List Nat) (hf : Forward h vs) (t : Nat) (ht : t ∈ vs)
    (hr : requiresGrad h t = true) (ho : Interior h t) (hn : vol (shapeOf h t) = 1) (hS : Smooth h t)
    (D : Nat → Prop) (k : Heap F) (hd : DifferOn D h k) (hD : ∀ d, D d → ¬ Consults h t d) :
    ∃ K, backward t k = .ok () K ∧ ∀ x, Leaf h t x → ∃ G₀ G₁, GradOrZero h x G₀ ∧ GradIs K x G₁ ∧
      ∀ idx, InBox (shapeOf h x) idx → (∃ u, Lift h t u ∧ Direction h t u x idx) ∧
        ∀ u, Lift h t u → Direction h t u x idx → ∀ r, InBox (shapeOf h t) r → G₁ idx = G₀ idx + (u t r).snd := by
  obtain ⟨H, hb, hg⟩ := C38_program_partial h vs hf t ht hr ho hn hS
  have hs := C73_reads (forward_history hf) hd hD
  rw [hb] at hs
  revert hs
  cases hk : backward t k with
  | throw _ _ => exact False.elim
  | ub _ => exact False.elim
  | ok a K =>
    rintro ⟨_, hU⟩
    refine ⟨K, rfl, fun x hx => ?_⟩
    obtain ⟨G₀, G₁, h1, ⟨i, g, f, hi, hgr, hden, he⟩, h3⟩ := hg x hx
    obtain ⟨e1, e2⟩ := hU.grads x hx.1.1
    exact ⟨G₀, G₁, h1, ⟨i, g, f, e1 i hi, hgr, (e2 i g hi hgr _ _ _).1 hden, he⟩, h3⟩

end

/-! ### Examples -/

/-- `d` is not consulted for any tensor of the state. -/
def unlisted (h : Heap F) (d : Nat) : Bool :=
  (List.range h.ts.length).all fun x => gradStore h x != some d &&
    match opOf h x with
    | none => true
    | some g =>
      match g.kind with
      | .mul => g.inputs.all fun a => storeOf h a != some d
      | .div => storeOf h x != some d && g.inputs.all fun a => storeOf h a != some d
      | .knownGrad k => storeOf h k != some d
      | _ => true

omit [FOps F] in
theorem unlisted_sound {h : Heap F} {t d : Nat} (hu : unlisted h d = true) : ¬ Consults h t d := by
  have key : ∀ {x : Nat}, x < h.ts.length → _ := fun {x} hx => List.all_eq_true.1 hu x (List.mem_range.2 hx)
  have hop : ∀ {x g}, opOf h x = some g → x < h.ts.length := fun {x g} e => by
    by_contra hc
    unfold opOf at e
    rw [List.getElem?_eq_none (by omega)] at e
    cases e
  intro hc
  cases hc with
  | @gradient x _ e =>
    have hx : x < h.ts.length := by
      by_contra hc
      unfold gradStore at e
      rw [List.getElem?_eq_none (by omega)] at e
      cases e
    have := key hx
    simp [e] at this
  | left _ ho hk hi _ hs => have := key (hop ho); simp [ho, hk, hi, hs] at this
  | right _ ho hk hi _ hs => have := key (hop ho); simp [ho, hk, hi, hs] at this
  | denominator _ ho hk hi hs => have := key (hop ho); simp [ho, hk, hi, hs] at this
  | quotient _ ho hk hs => have := key (hop ho); simp [ho, hk, hs] at this
  | slope _ ho hk hs => have := key (hop ho); simp [ho, hk, hs] at this

/-- `x = [1, 2]` (0), `c = [3, 4]` (1), `q = c.clone()` (2), `p = x * q` (3), `s = p.sum()` (4). -/
def beside : List (Call Int) :=
  [.fromBlob [.f 1, .f 2] [2] .f32, .setRequiresGrad 0 true, .fromBlob [.f 3, .f 4] [2] .f32, .clone 1, .mul 0 2, .sum 3]

/-- `backward()` can start from `t`, and `c += c` returns and changes the storage of `c`, of which `ok` holds. -/
def edited (t c : Nat) (ok : Heap Int → Nat → Bool) (h : Heap Int) : Bool :=
  match h.ts[c]?, addAssign c c h with
  | some i, .ok () k => ok h i.data && requiresGrad h t && (opOf h t).isSome &&
      decide ((h.st[i.data]?).map (·.blob) ≠ (k.st[i.data]?).map (·.blob))
  | _, _ => false

theorem edited_spec {t c : Nat} {ok : Heap Int → Nat → Bool} {h : Heap Int} (he : edited t c ok h = true) :
    ∃ k d, Edits d h k ∧ h.st[d]? ≠ k.st[d]? ∧ ok h d = true ∧ requiresGrad h t = true ∧ Interior h t := by
  unfold edited at he
  split at he
  · rename_i i k hi hk
    simp only [Bool.and_eq_true, decide_eq_true_eq] at he
    exact ⟨k, i.data, .returned (.refl h) hi rfl hk, fun e => he.2 (by rw [e]), he.1.1.1, he.1.1.2, he.1.2⟩
  · cases he

/-- Non-vacuity of `C73_reads` and `C73_edits`: the factor is the clone, and `c += c` after the product changes elements that are
not listed. -/
example : ∃ (h k : Heap Int) (d : Nat), History h ∧ Edits d h k ∧ h.st[d]? ≠ k.st[d]? ∧ ¬ Consults h 4 d ∧
    requiresGrad h 4 = true ∧ Interior h 4 ∧ SameEnd (Unaffected (fun e => e = d) 4 h k) (backward 4 h) (backward 4 k) := by
  obtain ⟨h, hp, e⟩ := programs (P := edited 4 1 unlisted) beside (by decide) (by decide +kernel)
  obtain ⟨k, d, h1, h2, h3, h4, h5⟩ := edited_spec e
  have hh := program_history hp
  exact ⟨h, k, d, hh, h1, h2, unlisted_sound h3, h4, h5, C73_edits hh h1 (unlisted_sound h3)⟩

/-- `x = [1, 2]` (0), `c = [3, 4]` (1), `z = x + c` (2), `s = z.sum()` (3). -/
def added : List (Call Int) :=
  [.fromBlob [.f 1, .f 2] [2] .f32, .setRequiresGrad 0 true, .fromBlob [.f 3, .f 4] [2] .f32, .add 0 1, .sum 2]

/-- No products, quotients or recorded slopes, and no gradients yet. -/
def onlySums (h : Heap Int) : Bool :=
  h.ts.all fun (i : Impl) => i.grad.isNone && i.gradFn.all fun (g : GradFn) => decide (g.kind = .add) || decide (g.kind = .sum)

/-- Non-vacuity of `C73_linear`. -/
example : ∃ (h k : Heap Int), History h ∧ h ≠ k ∧ requiresGrad h 3 = true ∧ Interior h 3 ∧
    (∀ x g, From h 3 x → opOf h x = some g → g.kind ≠ .mul ∧ g.kind ≠ .div ∧ ∀ a, g.kind ≠ .knownGrad a) ∧
    DifferOn (fun d => ∀ x, From h 3 x → gradStore h x ≠ some d) h k := by
  obtain ⟨h, hp, e⟩ := programs (P := edited 3 1 fun h _ => onlySums h) added (by decide) (by decide +kernel)
  obtain ⟨k, d, h1, h2, h3, h4, h5⟩ := edited_spec e
  have hall : ∀ (x : Nat) (i : Impl), h.ts[x]? = some i → i.grad = none ∧ ∀ g, i.gradFn = some g → g.kind = .add ∨ g.kind = .sum := fun x i hi => by
    have := List.all_eq_true.1 h3 i (List.mem_of_getElem? hi)
    simp only [Bool.and_eq_true, Option.isNone_iff_eq_none] at this
    refine ⟨this.1, fun g hg => ?_⟩
    have h' := this.2
    rw [hg] at h'
    simpa using h'
  have hw := edits_writes h1
  refine ⟨h, k, program_history hp, fun e => h2 (by rw [e]), h4, h5, fun x g _ ho => ?_, hw.ts.symm, hw.gver.symm, hw.len.symm, fun d hd => ?_⟩
  · unfold opOf at ho
    cases hi : h.ts[x]? with
    | none => rw [hi] at ho; cases ho
    | some i =>
      rw [hi] at ho
      rcases (hall x i hi).2 g ho with e | e <;> rw [e] <;> simp
  · refine absurd (fun x _ e => ?_) hd
    unfold gradStore at e
    cases hi : h.ts[x]? with
    | none => rw [hi] at e; cases e
    | some i => rw [hi] at e; simp [(hall x i hi).1] at e

/-- `x = [2, 3]` (0), `p = x * x` (1), `s = p.sum()` (2), `e = p.detach()` (3). -/
def squaresOut : Heap ℚ := after squares (.detach 1)

/-- Non-vacuity of `C38_changed_partial`: `e += e` changes the elements of the product before `s.backward()`. -/
example : ∃ (d : Nat) (k : Heap ℚ), Forward squaresOut [3, 2, 1, 0] ∧ requiresGrad squaresOut 2 = true ∧ Interior squaresOut 2 ∧
    vol (shapeOf squaresOut 2) = 1 ∧ Smooth squaresOut 2 ∧ Edits d squaresOut k ∧ squaresOut.st[d]? ≠ k.st[d]? ∧
    DifferOn (fun e => e = d) squaresOut k ∧ ∀ e, e = d → ¬ Consults squaresOut 2 e := by
  have hf : Forward squaresOut [3, 2, 1, 0] := forward_returns squares_forward _ 3 trivial (by decide) (by decide +kernel)
  have hd : (squaresOut.ts[3]?).map (·.data) = some 1 := by decide +kernel
  cases hi : squaresOut.ts[3]? with
  | none => rw [hi] at hd; cases hd
  | some i =>
    rw [hi] at hd
    have hd : i.data = 1 := Option.some.inj hd
    have hne : (match addAssign 3 3 squaresOut with
      | .ok () k => decide ((squaresOut.st[1]?).map (·.blob) ≠ (k.st[1]?).map (·.blob))
      | _ => false) = true := by decide +kernel
    cases hk : addAssign 3 3 squaresOut with
    | throw _ _ => rw [hk] at hne; cases hne
    | ub _ => rw [hk] at hne; cases hne
    | ok a k =>
      rw [hk] at hne
      have he : Edits 1 squaresOut k := .returned (.refl _) hi hd hk
      have hw := edits_writes he
      refine ⟨1, k, hf, by decide +kernel, by unfold Interior; decide +kernel, by decide +kernel,
        smooth_of_check [3, 2, 1, 0] (by decide +kernel), he, fun e => ?_,
        ⟨hw.ts.symm, hw.gver.symm, hw.len.symm, fun e he => (hw.other e he).symm⟩, fun e e' => e' ▸ unlisted_sound (by decide +kernel)⟩
      simp only [decide_eq_true_eq] at hne
      exact hne (by rw [e])

end INNC
