import Verif.Lemmas.LinkedRun
import Verif.Lemmas.Examples
/-
Property C66: programs handle floats only through the operations of the float arithmetic.
-/
namespace INNC
open Spec Tensor
variable {F G : Type} [FOps F] [FOps G] {R : DType → F → G → Prop}

/-- **C66.** Run the same calls over two float arithmetics, with related numbers as data, where related operands have related
results (the relation may depend on the element type). If the run over the second arithmetic has no undefined behaviour, neither has the run over the first; the calls
return the same tensors and throw the same exceptions, and the final states are related: same tensors, same integers,
related floats. -/
theorem C66_session (P : Preserved R) {cs : List (Call F)} {cs' : List (Call G)} (hc : List.Forall₂ (LinkedCall R) cs cs')
    {h : Heap F} {h' : Heap G} (hh : LinkedHeap R h h') {out : List Reply} {k' : Heap G} (e : session cs' h' = some (out, k')) :
    ∃ k, session cs h = some (out, k) ∧ LinkedHeap R k k' :=
  session_link P hc hh e

/-- **C66**, elements: in related states a tensor that can be read in the second one can be read in the first one, and its
elements are equal integers or related floats. -/
theorem C66_elements {h : Heap F} {h' : Heap G} (hh : LinkedHeap R h h') {t : Nat} {dt : DType} {s : List Nat}
    {g : List Nat → Val G} (hd : Denotes h' t dt s g) :
    ∃ f, Denotes h t dt s f ∧ ∀ idx, InBox s idx → LinkedVal R dt (f idx) (g idx) := by
  obtain ⟨i, hi, rfl, rfl, hr⟩ := hd
  obtain ⟨st', cells', hst', hdt, hblob, hlen, hcells⟩ := hr.cells
  obtain ⟨st, st₂, hst, hst₂, hl⟩ | ⟨_, hn⟩ := forall₂_getElem? hh.st i.data
  swap
  · rw [hn] at hst'; cases hst'
  rw [hst'] at hst₂
  obtain rfl := Option.some.inj hst₂
  have hb := hl.blob
  rw [hblob] at hb
  cases hbl : st.blob with
  | none => rw [hbl] at hb; cases hb
  | some cells =>
    rw [hbl] at hb
    cases hb with
    | some hb =>
    have key : ∀ idx, InBox i.view.sizes idx → ∃ v, (∃ p : Nat, position i.view idx = p ∧ cells[p]? = some (some v)) ∧ LinkedVal R i.dtype v (g idx) := by
      intro idx hidx
      obtain ⟨p, hp, hc⟩ := hcells idx hidx
      rcases forall₂_getElem? hb p with ⟨a, b, ha, hb', hab⟩ | ⟨_, hb'⟩
      · rw [hc] at hb'
        cases hb'
        cases a with
        | none => cases hab
        | some v => exact ⟨v, ⟨p, hp, ha⟩, by rw [← hdt, ← hl.dt]; exact hab⟩
      · rw [hc] at hb'; cases hb'
    classical
    refine ⟨fun idx => if hx : InBox i.view.sizes idx then (key idx hx).choose else .i 0, ⟨i, by rw [hh.ts]; exact hi, rfl, rfl,
      hr.strides, hr.offset, ⟨st, cells, hst, by rw [hl.dt]; exact hdt, hbl, by rw [hb.length_eq]; exact hlen, fun idx hidx => ?_⟩,
      fun idx hidx => ?_⟩, fun idx hidx => ?_⟩
    · rw [dif_pos hidx]; exact (key idx hidx).choose_spec.1
    · rw [dif_pos hidx]
      have h1 := (key idx hidx).choose_spec.2
      have h2 := hr.typed idx hidx
      revert h1 h2
      cases (key idx hidx).choose <;> cases g idx <;> intro h1 h2 <;> first | exact h2 | exact h1.elim | skip
      cases (show _ = _ from h1)
      exact h2
    · show LinkedVal R _ (dite _ _ _) _
      rw [dif_pos hidx]; exact (key idx hidx).choose_spec.2

theorem emptyLinked : LinkedHeap R (Heap.empty : Heap F) (Heap.empty : Heap G) := ⟨.nil, rfl, rfl⟩

/-- **C66**, outlines: what the calls return and throw, and the types, shapes, strides, flags and recorded operations of all
tensors can be found without knowing any float: by running the calls with all floats erased (which is undefined only if the
program converts floats to integers, or has undefined behaviour whatever the floats are). Integer tensors have the same
elements. Calls that compare or print floats are not included. -/
theorem C66_outline {cs : List (Call F)} {cs' : List (Call Unit)} (hc : Outline cs cs') {out : List Reply} {k' : Heap Unit}
    (e : session cs' Heap.empty = some (out, k')) :
    ∃ k, session cs Heap.empty = some (out, k) ∧ k.ts = k'.ts ∧ ∀ t dt s g, Denotes k' t dt s g →
      ∃ f, Denotes k t dt s f ∧ ∀ idx, InBox s idx → ∀ n, g idx = .i n → f idx = .i n := by
  have P : Preserved (fun (_ : DType) (_ : F) (_ : Unit) => True) :=
    ⟨fun _ => trivial, fun _ _ => trivial, fun _ _ _ _ _ => trivial, fun _ _ _ _ _ _ _ => trivial, fun _ _ _ _ _ _ _ => trivial,
      fun _ _ _ _ _ _ _ => trivial, fun _ _ _ _ _ _ _ => trivial, fun _ _ _ _ => trivial, fun _ _ _ _ _ e => by cases e⟩
  obtain ⟨k, hk, hl⟩ := C66_session P hc emptyLinked e
  refine ⟨k, hk, hl.ts, fun t dt s g hd => ?_⟩
  obtain ⟨f, hf, hv⟩ := C66_elements hl hd
  refine ⟨f, hf, fun idx hidx n hn => ?_⟩
  have := hv idx hidx
  rw [hn] at this
  revert this
  cases f idx <;> intro this
  · exact congrArg Val.i this
  · cases this

/-- **C66**, the same program on other data: two runs of the same calls that differ only in floats, even over different float
arithmetics, return and throw alike and end with the same tensors. -/
theorem C66_data {cs₁ : List (Call F)} {cs₂ : List (Call G)} {cs' : List (Call Unit)} (h₁ : Outline cs₁ cs') (h₂ : Outline cs₂ cs')
    (hd : (session cs' Heap.empty).isSome) :
    ∃ out k₁ k₂, session cs₁ Heap.empty = some (out, k₁) ∧ session cs₂ Heap.empty = some (out, k₂) ∧ k₁.ts = k₂.ts := by
  obtain ⟨⟨out, k'⟩, e⟩ := Option.isSome_iff_exists.1 hd
  obtain ⟨k₁, e₁, t₁, _⟩ := C66_outline h₁ e
  obtain ⟨k₂, e₂, t₂, _⟩ := C66_outline h₂ e
  exact ⟨out, k₁, k₂, e₁, e₂, t₁.trans t₂.symm⟩

/-- **C66**, definedness: if the relation is preserved in both directions, one run has undefined behaviour exactly if the
other one has. -/
theorem C66_defined (P : Preserved R) (P' : Preserved fun t y x => R t x y) {cs : List (Call F)} {cs' : List (Call G)}
    (hc : List.Forall₂ (LinkedCall R) cs cs') (hc' : List.Forall₂ (LinkedCall fun t y x => R t x y) cs' cs) :
    session cs Heap.empty = none ↔ session cs' Heap.empty = none := by
  constructor
  · intro h
    cases e : session cs' Heap.empty with
    | none => rfl
    | some r =>
      obtain ⟨k, hk, _⟩ := C66_session P hc emptyLinked (out := r.1) (k' := r.2) e
      rw [hk] at h; cases h
  · intro h
    cases e : session cs Heap.empty with
    | none => rfl
    | some r =>
      obtain ⟨k, hk, _⟩ := C66_session P' hc' emptyLinked (out := r.1) (k' := r.2) e
      rw [hk] at h; cases h

/-- **C66**, text: in related states a tensor prints alike if related floats do. -/
theorem C66_text (S : ShownAlike R) {h : Heap F} {h' : Heap G} (hh : LinkedHeap R h h') {t : Nat} {txt : List Char} {k' : Heap G}
    (e : Tensor.toString t h' = .ok txt k') : ∃ k, Tensor.toString t h = .ok txt k := by
  have := toString_link S t h h' hh
  rw [e] at this
  revert this
  cases Tensor.toString t h <;> intro this
  · exact ⟨_, by rw [this.1]⟩
  · exact this.elim
  · exact this.elim

/-! ### Example -/

/-- `x = from_blob({2., 3.}); x.requires_grad(true); y = x * x; s = y.sum(); s.backward(); x.grad(); x.backward()` -/
def exSession {F : Type} (a b : F) : List (Call F) :=
  [.fromBlob [.f a, .f b] [2] .f64, .setRequiresGrad 0 true, .mul 0 0, .sum 1, .backward 2, .grad 0, .backward 0]

theorem exSession_linked (a b : F) (a' b' : G) (ha : R .f64 a a') (hb : R .f64 b b') :
    List.Forall₂ (LinkedCall R) (exSession a b) (exSession a' b') :=
  .cons (.fromBlob (.cons ⟨rfl, ha⟩ (.cons ⟨rfl, hb⟩ .nil))) (.cons (.setRequiresGrad _ _) (.cons (.mul _ _) (.cons (.sum _) (.cons (.backward _)
    (.cons (.grad _) (.cons (.backward _) .nil))))))

/-- Without knowing the numbers: the last call throws (`x` is not the result of an operation), all others return. -/
example : (session (exSession () ()) Heap.empty).map Prod.fst = some [.returned (some 0), .returned none, .returned (some 1),
    .returned (some 2), .returned none, .returned (some 8), .threw .runtime] := by decide +kernel

/-- So they do for all numbers of all float arithmetics. -/
example (a b : F) : ∃ k, session (exSession a b) Heap.empty = some ([.returned (some 0), .returned none, .returned (some 1),
    .returned (some 2), .returned none, .returned (some 8), .threw .runtime], k) := by
  have hd : (session (exSession () ()) Heap.empty).map Prod.fst = some [.returned (some 0), .returned none, .returned (some 1),
    .returned (some 2), .returned none, .returned (some 8), .threw .runtime] := by decide +kernel
  cases e : session (exSession () ()) Heap.empty with
  | none => rw [e] at hd; cases hd
  | some r =>
    rw [e] at hd
    obtain ⟨k, hk, _⟩ := C66_outline (cs := exSession a b) (exSession_linked a b () () trivial trivial) (out := r.1) (k' := r.2) e
    exact ⟨k, by rw [hk, Option.some.inj hd]⟩

end INNC
