import Verif.Props.Linked
import Verif.Props.Construct
import Verif.Lemmas.Format
/-
Property C68: elements are numbers of the element type of their tensor.
-/
namespace INNC
open Spec Tensor
variable {F : Type} [FOps F]

/-- **C68.** If a set of floats for each element type is closed under the operations and contains all floats the program
passes in, then after any sequence of calls every float element of every tensor is in the set of the tensor's type: elements
reach a tensor only as results of operations carried out in the type of that tensor, or converted to it. -/
theorem C68_closed {N : DType → F → Prop} (K : Closed N) {cs : List (Call F)} (hc : ∀ c ∈ cs, NumbersIn N c) {out : List Reply}
    {k : Heap F} (e : session cs Heap.empty = some (out, k)) {t : Nat} {dt : DType} {s : List Nat} {f : List Nat → Val F}
    (hd : Denotes k t dt s f) {idx : List Nat} (hidx : InBox s idx) {x : F} (hx : f idx = .f x) : N dt x := by
  obtain ⟨k', e', hl⟩ := C66_session (among_preserved K) (forall₂_self fun c h => among_call (hc c h)) emptyLinked e
  rw [e] at e'
  obtain rfl : k = k' := congrArg Prod.snd (Option.some.inj e')
  obtain ⟨g, hg, hv⟩ := C66_elements hl hd
  have := hv idx hidx
  rw [hx] at this
  revert this
  cases hgx : g idx with
  | i n => exact fun h => h.elim
  | f y =>
    intro h
    obtain ⟨_, rfl, h⟩ := h
    exact h

/-- **C68**, IEEE floats: in a program that only passes in `float`s and `double`s, every element of an `f32` tensor is a binary32
number and every element of an `f64` tensor a binary64 number (with at most 24 or 53 significant bits, see `Ieee.InFormat`). -/
theorem C68_ieee {cs : List (Call Ieee)} (hc : ∀ c ∈ cs, NumbersIn Ieee.InFormat c) {out : List Reply} {k : Heap Ieee}
    (e : session cs Heap.empty = some (out, k)) {t : Nat} {dt : DType} {s : List Nat} {f : List Nat → Val Ieee}
    (hd : Denotes k t dt s f) {idx : List Nat} (hidx : InBox s idx) {x : Ieee} (hx : f idx = .f x) : Ieee.InFormat dt x :=
  C68_closed Ieee.format_closed hc e hd hidx hx

/-- **C68**, conversions: in such a program, converting an `f32` tensor to `f64` keeps every element exactly, and converting the
result back gives the original elements. -/
theorem C68_widen {cs : List (Call Ieee)} (hc : ∀ c ∈ cs, NumbersIn Ieee.InFormat c) {out : List Reply} {k : Heap Ieee}
    (e : session cs Heap.empty = some (out, k)) {t : Nat} {s : List Nat} {f : List Nat → Val Ieee} (hd : Denotes k t .f32 s f)
    (hsize : vol s * 8 < 9223372036854775808) :
    ∃ t1 h1 t2 h2, Tensor.toType t .f64 k = .ok t1 h1 ∧ Tensor.toType t1 .f32 h1 = .ok t2 h2 ∧
      Denotes h1 t1 .f64 s f ∧ Denotes h2 t2 .f32 s f ∧ Denotes h2 t .f32 s f := by
  have hd0 := hd
  have key : ∀ idx, InBox s idx → convert .f32 .f64 (f idx) = some (f idx) ∧ convert .f64 .f32 (f idx) = some (f idx) := by
    intro idx hidx
    obtain ⟨i, hi, h1, rfl, hr⟩ := hd
    have ht := hr.typed idx hidx
    cases hx : f idx with
    | i n => rw [hx, hasType_i, h1] at ht; cases ht.1
    | f x =>
      have hf := C68_ieee hc e hd0 hidx hx
      exact ⟨congrArg (fun y => some (Val.f y)) (Ieee.cvt_format (Ieee.format_widen hf)),
        congrArg (fun y => some (Val.f y)) (Ieee.cvt_format hf)⟩
  obtain ⟨i, hi, hdt, rfl, hr⟩ := hd
  obtain ⟨h1, e1, b1⟩ := toType_ok (dt := .f64) hi hr (by rw [hdt]; decide) (fun h => by cases h.2) hsize
    (fun idx hb => by rw [hdt]; exact (key idx hb).1)
  obtain ⟨d, hobj, _⟩ := b1.obj
  obtain ⟨j, hj, hj1, hj2, hjr⟩ := b1.denotes
  rw [hobj] at hj
  obtain rfl := Option.some.inj hj
  obtain ⟨h2, e2, b2⟩ := toType_ok (dt := .f32) hobj hjr (fun h => by cases h) (fun h => by cases h.2)
    (show vol i.view.sizes * 4 < _ by omega) (fun idx hb => (key idx hb).2)
  exact ⟨_, h1, _, h2, e1, e2, b1.denotes, b2.denotes, hd0.of_extends (b1.ext.trans b2.ext)⟩

/-! ### Examples -/

/-- The nearest `float` and the nearest `double` to 0.1. -/
def tenthF : Ieee := Ieee.decimal .f32 false 1 10
def tenthD : Ieee := Ieee.decimal .f64 false 1 10

attribute [local irreducible] Ieee.InFormat in
theorem tenthF_in : Ieee.InFormat .f32 tenthF := by unfold tenthF; exact Ieee.decimal_format .f32 false 1 10
attribute [local irreducible] Ieee.InFormat in
theorem tenthD_in : Ieee.InFormat .f64 tenthD := by unfold tenthD; exact Ieee.decimal_format .f64 false 1 10
theorem tenthD_rounds : FOps.cvt .f32 tenthD = tenthF ∧ tenthF ≠ tenthD := by decide +kernel

attribute [local irreducible] tenthF tenthD

/-- `x = from_blob({0.1f, 0.1f}); x.requires_grad(true); y = x * x; s = y.sum(); s.backward(); z = x.type(f64); w = full({2}, 0.1, f32)` -/
def floatCalls : List (Call Ieee) :=
  [.fromBlob [.f tenthF, .f tenthF] [2] .f32, .setRequiresGrad 0 true, .mul 0 0, .sum 1, .backward 2, .toType 0 .f64,
    .fullReal [2] tenthD .f32]

theorem floatCalls_in : ∀ c ∈ floatCalls, NumbersIn Ieee.InFormat c := by
  intro c hc
  unfold floatCalls at hc
  simp only [List.mem_cons, List.not_mem_nil, or_false] at hc
  rcases hc with rfl | rfl | rfl | rfl | rfl | rfl | rfl <;> try exact trivial
  · intro v hv
    simp only [List.mem_cons, List.not_mem_nil, or_false] at hv
    rcases hv with rfl | rfl <;> exact ⟨rfl, tenthF_in⟩
  · exact tenthD_in

/-- They run without undefined behaviour. The first element of `y` is 0.01 rounded twice, as a `float`; those of `w` are `float`s too. -/
example : (session floatCalls Heap.empty).map (fun r => (r.1.length,
    [1, 9].map fun t => (((r.2.ts[t]?.bind fun i => r.2.st[i.data]?).bind Storage.blob).bind fun c => c[0]?))) =
    some (7, [some (some (.f (FOps.mul .f32 tenthF tenthF))), some (some (.f tenthF))]) := by decide +kernel

/-- Without the hypothesis it fails: `f32` does not have the `double` nearest to 0.1. -/
example : ¬ Ieee.InFormat .f32 tenthD := fun h => tenthD_rounds.2 (tenthD_rounds.1.symm.trans (Ieee.cvt_format h))

end INNC
