import Verif.Lemmas.ForwardRuns
import Verif.Lemmas.Abs
import Verif.Lemmas.FeedTrain
/-
A check that the calls of a given program are permitted, to exhibit programs that compute gradients in the examples.
-/
namespace INNC
open Spec Tensor
variable {F : Type} [FOps F]

def modest (s : List Nat) (dt : DType) : Bool := decide (vol s * dt.size < 4611686018427387904)

theorem modest_ok {s : List Nat} {dt : DType} (h : modest s dt = true) : Modest s dt := by
  unfold modest at h
  rw [decide_eq_true_eq] at h
  exact h

def dense (v : Layout) : Bool := decide (v = Layout.contig v.sizes) && decide (vol v.sizes < 9223372036854775808)

theorem dense_ok {v : Layout} (h : dense v = true) : Dense v := by
  unfold dense at h
  rw [Bool.and_eq_true, decide_eq_true_eq, decide_eq_true_eq] at h
  rw [h.1]
  exact dense_contig h.2

/-- Whether every tensor of the list that exists satisfies the condition. -/
def every (h : Heap F) (l : List Nat) (p : Nat → Impl → Bool) : Bool := l.all fun x => (h.ts[x]?).all (p x)

omit [FOps F] in
theorem every_ok {h : Heap F} {l : List Nat} {p : Nat → Impl → Bool} (he : every h l p = true) {x : Nat} {i : Impl} (hx : x ∈ l)
    (hi : h.ts[x]? = some i) : p x i = true := by
  unfold every at he
  have := List.all_eq_true.1 he x hx
  rw [hi] at this
  simpa using this

def propagates (h : Heap F) (t : Nat) : Bool :=
  let l := (List.range (t + 1)).reverse.foldl (fun l x => if l.contains x then l ++ operands h x else l) [t]
  covers h t l && every h [t] (fun _ i => dense i.view) &&
  every h l (fun x i => modest i.view.sizes i.dtype && (!i.requiresGrad || dense i.view || i.grad.isSome) &&
    i.gradFn.all fun f => ((f.accOutway == 0 && i.requiresGrad) || x == t) &&
      match f.kind, f.inputs with
      | .div, [a, b] => every h [a, b] (fun _ j => j.requiresGrad) && decide (shapeOf h b = shapeOf h x)
      | _, _ => true)

theorem propagates_ok {h : Heap F} {t : Nat} (hp : propagates h t = true) : Propagable h t := by
  unfold propagates at hp
  simp only [Bool.and_eq_true] at hp
  obtain ⟨⟨hc, hr⟩, hl⟩ := hp
  have all : ∀ x i, From h t x → h.ts[x]? = some i → (Modest i.view.sizes i.dtype ∧
      (i.requiresGrad = true → Dense i.view ∨ i.grad.isSome = true)) ∧ ∀ f, i.gradFn = some f → (((f.accOutway = 0 ∧ i.requiresGrad = true) ∨ x = t) ∧
      ∀ a b, f.kind = .div → f.inputs = [a, b] → (∀ y ∈ [a, b], ∀ i, h.ts[y]? = some i → i.requiresGrad = true) ∧ shapeOf h b = shapeOf h x) := by
    intro x i hx hi
    have := every_ok hl (from_covers hc hx) hi
    simp only [Bool.and_eq_true, Bool.or_eq_true, Bool.not_eq_true'] at this
    obtain ⟨⟨h1, h2⟩, h3⟩ := this
    refine ⟨⟨modest_ok h1, fun hq => ?_⟩, fun f hf => ?_⟩
    · rcases h2 with (h2 | h2) | h2
      · rw [hq] at h2; cases h2
      · exact .inl (dense_ok h2)
      · exact .inr h2
    · rw [hf] at h3
      simp only [Option.all_some, Bool.and_eq_true, Bool.or_eq_true, beq_iff_eq] at h3
      refine ⟨h3.1, fun a b hk hab => ?_⟩
      have h4 := h3.2
      rw [hk, hab] at h4
      simp only [Bool.and_eq_true, decide_eq_true_eq] at h4
      exact ⟨fun y hy j hj => every_ok h4.1 hy hj, h4.2⟩
  refine ⟨fun x g hx hxt hg => ?_, fun i hi => ⟨dense_ok (every_ok hr (by simp) hi), (all t i .root hi).1.1⟩, fun x i hx hi => (all x i hx hi).1,
    fun x f a b hx hf hk hab => ?_⟩
  · obtain ⟨i, hi, hf⟩ := opOf_at hg
    rcases ((all x i hx hi).2 g hf).1 with h1 | h1
    · refine ⟨h1.1, fun j hj => ?_⟩
      rw [hi] at hj
      obtain rfl := Option.some.inj hj
      exact h1.2
    · exact absurd h1 hxt
  · obtain ⟨i, hi, hf'⟩ := opOf_at hf
    exact ((all x i hx hi).2 f hf').2 a b hk hab

/-- Whether a call is permitted; `false` for calls that are not needed in the examples. -/
def permits (h : Heap F) : Call F → Bool
  | .backward t => propagates h t
  | .grad t => every h [t] fun _ i => i.grad.all fun g => (h.ts[g]?).all fun j => (h.st[j.data]?).any (·.blob.isSome)
  | .slice t _ | .transpose t _ _ => every h [t] fun _ i => !i.requiresGrad || i.grad.isSome || (dense i.view && modest i.view.sizes i.dtype)
  | .ones s dt | .zeros s dt => modest s dt
  | .add l r | .sub l r | .mul l r | .div l r => modest (maxShape (shapeOf h l) (shapeOf h r)) .f64
  | .sum _ | .addAssign _ _ | .setRequiresGrad _ _ | .setRetainGrad _ _ | .zeroGrad _ | .toString _ | .detach _ => true
  | _ => false

omit [FOps F] in
theorem roomy_ok {h : Heap F} {t : Nat}
    (he : every h [t] (fun _ i => !i.requiresGrad || i.grad.isSome || (dense i.view && modest i.view.sizes i.dtype)) = true) : Roomy h t := by
  intro i hi hr
  have := every_ok he (x := t) (by simp) hi
  simp only [hr, Bool.not_true, Bool.false_or, Bool.or_eq_true, Bool.and_eq_true] at this
  rcases this with h1 | h1
  · exact .inl h1
  · exact .inr ⟨dense_ok h1.1, modest_ok h1.2⟩

theorem permits_ok {h : Heap F} {c : Call F} (hp : permits h c = true) : Permitted h c := by
  cases c with
  | backward t => exact propagates_ok hp
  | grad t =>
    intro i g j hi hg hj
    have := every_ok hp (x := t) (by simp) hi
    rw [hg] at this
    simp only [Option.all_some, hj] at this
    cases hs : h.st[j.data]? with
    | none => rw [hs] at this; simp at this
    | some s =>
      rw [hs] at this
      simp only [Option.any_some] at this
      obtain ⟨c, hc⟩ := Option.isSome_iff_exists.1 this
      exact ⟨s, c, rfl, hc⟩
  | slice t s => exact ⟨trivial, roomy_ok hp⟩
  | transpose t a b => exact ⟨trivial, roomy_ok hp⟩
  | ones s dt => exact modest_ok hp
  | zeros s dt => exact modest_ok hp
  | add l r => exact modest_ok hp
  | sub l r => exact modest_ok hp
  | mul l r => exact modest_ok hp
  | div l r => exact modest_ok hp
  | sum | addAssign | setRequiresGrad | setRetainGrad | zeroGrad | toString | detach => trivial
  | _ => cases hp

/-- The state and the variables of a program, if all its calls are permitted and have their arguments among the variables. -/
def trains : List (Call F) → Heap F → List Nat → Option (Heap F × List Nat)
  | [], h, vs => some (h, vs)
  | c :: cs, h, vs =>
    if permits h c && (args c).all vs.contains then
      match c.run h with
      | .ok o h' => trains cs h' (o.toList ++ vs)
      | .throw _ h' => trains cs h' vs
      | .ub _ => none
    else none

theorem trained_trains : ∀ (cs : List (Call F)) {h h' : Heap F} {vs vs' : List Nat}, Trained h vs → trains cs h vs = some (h', vs') → Trained h' vs'
  | [], h, h', vs, vs', ht, e => by
    simp only [trains, Option.some.injEq, Prod.mk.injEq] at e
    obtain ⟨rfl, rfl⟩ := e
    exact ht
  | c :: cs, h, h', vs, vs', ht, e => by
    unfold trains at e
    split at e
    · rename_i hc
      rw [Bool.and_eq_true, List.all_eq_true] at hc
      have hp := permits_ok hc.1
      have hin : ∀ a ∈ args c, a ∈ vs := fun a ha => by simpa using hc.2 a ha
      cases hr : c.run h with
      | ok o h1 => rw [hr] at e; exact trained_trains cs (ht.returned hp hin hr) e
      | throw ex h1 => rw [hr] at e; exact trained_trains cs (ht.threw hp hin hr) e
      | ub u => rw [hr] at e; cases e
    · cases e

/-- A state of a program that computes gradients, with a decidable property. -/
theorem training {P : Heap F → List Nat → Bool} (cs : List (Call F)) (hp : (trains cs Heap.empty []).any (fun p => P p.1 p.2) = true) :
    ∃ h vs, Trained h vs ∧ P h vs = true := by
  cases hr : trains cs Heap.empty [] with
  | none => rw [hr] at hp; simp at hp
  | some p => exact ⟨p.1, p.2, trained_trains cs .start hr, by rw [hr] at hp; simpa using hp⟩

end INNC
