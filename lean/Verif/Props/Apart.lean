import Verif.Lemmas.Apart
import Verif.Props.BackFrame
import Verif.Props.Noexcept
/-
C57: gradients live apart from the tensors a program computes with.
-/
namespace INNC
open Spec Tensor
variable {F : Type} [FOps F]

/-- **C57**: as long as a program does not ask for gradients through `grad()`, no variable shares its storage with the gradient of
any tensor: no element of a variable is at the same place as an element of a gradient. -/
theorem C57_apart {h : Heap F} {vs : List Nat} (hu : Ungraded h vs) {v : Nat} (hv : v ∈ vs) {x g : Nat} {i : Impl} (hx : h.ts[x]? = some i)
    (hg : i.grad = some g) (k k' : List Nat) : v ≠ g ∧ ¬ SamePlace h v k g k' := by
  obtain ⟨iv, hiv, hn⟩ := ungraded_values hu v hv
  refine ⟨?_, ?_⟩
  · rintro rfl
    exact hn (gradIn_iff.2 ⟨x, i, v, iv, hx, hg, hiv, rfl⟩)
  · rintro ⟨a, b, ha, hb, e, _⟩
    rw [hiv] at ha
    obtain rfl := Option.some.inj ha
    exact hn (gradIn_iff.2 ⟨x, i, g, b, hx, hg, hb, e.symm⟩)

/-- **C57**: in such a program `backward()`, from any root, returning or throwing, changes no element of any variable. -/
theorem C57_backward {h h' : Heap F} {vs : List Nat} (hu : Ungraded h vs) {t : Nat} (hp : Propagates t h h') {v : Nat} (hv : v ∈ vs)
    {dt : DType} {s : List Nat} {f : List Nat → Val F} (hd : Denotes h v dt s f) : Denotes h' v dt s f := by
  refine C52_elements (ungraded_history hu) hp hd fun y i _ hi e => ?_
  obtain ⟨iv, hiv, hn⟩ := ungraded_values hu v hv
  rw [hi] at hiv
  obtain rfl := Option.some.inj hiv
  exact hn ⟨y, e⟩

/-- **C33** for `backward()`: in such a program, if `backward()` throws at any point, the types, shapes and elements of all variables are
as before. (Gradients computed before the exception stay.) -/
theorem C33_backward_values {h h' : Heap F} {vs : List Nat} (hu : Ungraded h vs) {t : Nat} {e : Exc} (hr : Tensor.backward t h = .throw e h')
    {v : Nat} (hv : v ∈ vs) {dt : DType} {s : List Nat} {f : List Nat → Val F} (hd : Denotes h v dt s f) : Denotes h' v dt s f :=
  C57_backward hu (.inr ⟨e, hr⟩) hv hd

/-- **C57**: nor does `zero_grad()` on any tensor. -/
theorem C57_zero_grad {h h' : Heap F} {vs : List Nat} (hu : Ungraded h vs) {t : Nat} (he : zeroGrad t h = .ok () h') {v : Nat} (hv : v ∈ vs)
    {dt : DType} {s : List Nat} {f : List Nat → Val F} (hd : Denotes h v dt s f) : Denotes h' v dt s f := by
  obtain ⟨i, hi, h1, h2, hr⟩ := hd
  obtain ⟨iv, hiv, hn⟩ := ungraded_values hu v hv
  rw [hi] at hiv
  obtain rfl := Option.some.inj hiv
  by_cases ht : t < h.ts.length
  · obtain ⟨h2', e, ets, est⟩ := C56_zero_grad (ungraded_history hu) ht
    rw [he] at e
    cases e
    refine ⟨i, by rw [ets]; exact hi, h1, h2, hr.extends fun s hs => ?_⟩
    rw [est i.data fun e => hn ⟨t, e⟩, hs]
  · have : getT t h = .ub .nullptr := by unfold getT; rw [List.getElem?_eq_none (by omega)]
    unfold zeroGrad at he
    rw [M.bind_ub this] at he
    cases he

/-! ### A program -/

def isGrad : Call F → Bool
  | .grad _ => true
  | _ => false

/-- Run a list of calls on variables, catching exceptions; the variables are collected. -/
def collect : List (Call F) → Heap F → List Nat → Option (Heap F × List Nat)
  | [], h, vs => some (h, vs)
  | c :: cs, h, vs =>
    if isGrad c || !(args c).all (vs.contains ·) then none
    else match c.run h with
      | .ok o h' => collect cs h' (o.toList ++ vs)
      | .throw _ h' => collect cs h' vs
      | .ub _ => none

theorem ungraded_collect : ∀ (cs : List (Call F)) {h h' : Heap F} {vs vs' : List Nat}, Ungraded h vs → collect cs h vs = some (h', vs') → Ungraded h' vs'
  | [], h, h', vs, vs', hu, e => by
    cases e
    exact hu
  | c :: cs, h, h', vs, vs', hu, e => by
    unfold collect at e
    split at e
    · cases e
    · rename_i hc
      simp only [Bool.or_eq_true, Bool.not_eq_true', not_or, Bool.not_eq_true, Bool.not_eq_false] at hc
      have h1 : ∀ t, c ≠ .grad t := fun t e => by rw [e] at hc; simp [isGrad] at hc
      have h2 : ∀ a ∈ args c, a ∈ vs := fun a ha => by simpa using List.all_eq_true.1 hc.2 a ha
      split at e
      · exact ungraded_collect cs (hu.returned h1 h2 ‹_›) e
      · exact ungraded_collect cs (hu.threw h1 h2 ‹_›) e
      · cases e

/-- `x = ones({2}, f32); x.requires_grad(true); v = x["1"]; y = v * v; y.backward(); x.stride();` (which throws) `z = x.sum();` -/
def c57Program : List (Call Int) :=
  [.ones [2] .f32, .setRequiresGrad 1 true, .slice 1 ['1'], .mul 2 2, .backward 5, .stride 1, .sum 1]

theorem collected {P : Heap F × List Nat → Bool} (cs : List (Call F)) (hp : (collect cs Heap.empty []).any P = true) :
    ∃ h vs, Ungraded h vs ∧ P (h, vs) = true := by
  cases hc : collect cs Heap.empty [] with
  | none => rw [hc] at hp; cases hp
  | some p => exact ⟨p.1, p.2, ungraded_collect cs .start hc, by rw [hc] at hp; exact hp⟩

/-- Non-vacuity: a state of such a program with a view, in which `x` has a gradient, and `backward()` returns. -/
example : ∃ (h h' : Heap Int) (vs : List Nat), Ungraded h vs ∧ 1 ∈ vs ∧ (gradStore h 1).isSome = true ∧ Propagates 8 h h' := by
  obtain ⟨h, vs, hu, e⟩ := collected (F := Int) (P := fun p => p.2.contains 1 && (gradStore p.1 1).isSome &&
    (match backward 8 p.1 with | .ok _ _ => true | _ => false)) c57Program (by decide +kernel)
  simp only [Bool.and_eq_true] at e
  cases hb : backward 8 h with
  | ok a h' => exact ⟨h, h', vs, hu, by simpa using e.1.1, e.1.2, .inl hb⟩
  | throw a h' => rw [hb] at e; simp at e
  | ub u => rw [hb] at e; simp at e

/-- Non-vacuity of `C33_backward_values`: `x = ones({2}); d = ones({}); q = x / d; s = q.sum();` with both tracked; `s.backward()` throws half-way. -/
def c33Program : List (Call Int) :=
  [.ones [2] .f32, .setRequiresGrad 1 true, .ones [] .f32, .setRequiresGrad 3 true, .div 1 3, .sum 4]

example : ∃ (h h' : Heap Int) (vs : List Nat), Ungraded h vs ∧ 1 ∈ vs ∧ Tensor.backward 5 h = .throw .runtime h' := by
  obtain ⟨h, vs, hu, e⟩ := collected (F := Int) (P := fun p => p.2.contains 1 &&
    (match Tensor.backward 5 p.1 with | .throw .runtime _ => true | _ => false)) c33Program (by decide +kernel)
  simp only [Bool.and_eq_true] at e
  cases hb : Tensor.backward 5 h with
  | ok a h' => rw [hb] at e; simp at e
  | throw a h' =>
    rw [hb] at e
    cases a <;> simp at e
    exact ⟨h, h', vs, hu, e, hb⟩
  | ub u => rw [hb] at e; simp at e

/-- Why `grad()` is excluded: `g = x.grad()` is the gradient itself, and the next `backward()` changes it from 6 to 12. -/
theorem C57_grad_moves : result ((do
    let x ← createScalar .f32 (.f (3 : Int))
    setRequiresGrad x true
    let y ← mulT x x
    backward y
    let g ← gradOf x
    let a ← Tensor.toString (g.getD 0)
    let z ← mulT x x
    backward z
    let b ← Tensor.toString (g.getD 0)
    return (String.ofList a, String.ofList b) : M Int (String × String)) Heap.empty) = some ("6", "12") := by
  decide +kernel

end INNC
