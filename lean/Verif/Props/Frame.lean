import Verif.Lemmas.Calls
import Verif.Lemmas.Build
import Verif.Lemmas.Examples
import Verif.Spec.Frame
/-
C19 (operations leave their operands alone), C33 (failing operations change nothing), C30 (clone and detach).
-/
namespace INNC
open Spec Tensor
variable {F : Type} [FOps F]

section
variable {h0 : Heap F} {I : Heap F → Prop}

theorem post_some' {x : M F Nat} {h : Heap F} {Q : Nat → Heap F → Prop} (hx : Post I (x h) Q) :
    Post I (some' x h) fun r h' => ∃ t, r = some t ∧ Q t h' := by
  unfold some'
  exact post_bind hx fun t h' hh' hq => post_pure hh' ⟨t, rfl, hq⟩

theorem post_none' {α : Type} {x : M F α} {h : Heap F} {Q : α → Heap F → Prop} (hx : Post I (x h) Q) :
    Post I (none' x h) fun r _ => r = none := by
  unfold none'
  exact post_bind hx fun t h' hh' hq => post_pure hh' rfl

theorem new_some {o : Out (Heap F) (Option Nat)} (h : Post I o fun r h' => ∃ t, r = some t ∧ IsNew h0 t h') :
    Post I o fun r h' => ∀ t, r = some t → IsNew h0 t h' :=
  post_mono h fun r h' ⟨t, e, hn⟩ u hu => by rw [e] at hu; cases hu; exact hn

/-- The computing functions, for any invariant of the objects that existed. -/
theorem computes_post (hI : FrameInv h0 I) {c : Call F} (hc : Computes c = true) {h : Heap F} (hh : I h) :
    Post I (c.run h) fun r h' => ∀ t, r = some t → IsNew h0 t h' := by
  cases c <;> first | (simp [Computes] at hc; done) | skip
  case init tree => exact hI.ofInit hh tree
  case randnLike rnd t =>
    unfold Call.run
    refine post_bind (post_getT hh) fun i h1 hh1 hi => ?_
    obtain ⟨rfl, hi⟩ := hi
    exact new_some (post_some' (hI.randn hh1 _ _ _))
  all_goals refine new_some (post_some' ?_)
  case scalar dt v => exact post_mono (hI.createScalar hh dt v) fun _ _ h => h.1
  case empty s dt => exact post_mono (hI.create hh dt _ _) fun _ _ h => h.1
  case ones s dt => exact hI.ones hh s dt
  case zeros s dt => exact post_mono (hI.zeros hh s dt) fun _ _ h => h.1
  case onesLike t => exact hI.onesLike hh t
  case zerosLike t => exact post_mono (hI.zerosLike hh t) fun _ _ h => h.1
  case fullInt s n dt => exact hI.full hh s _ _ dt
  case fullReal s x dt => exact hI.full hh s _ _ dt
  case eye n m dt => exact hI.eye hh n m dt
  case fromBlob data s dt => exact hI.fromBlob hh data s dt
  case randn rnd s dt => exact hI.randn hh rnd s dt
  case clone t => exact hI.clone hh t
  case contiguous t => exact hI.clone hh t
  case add l r => exact hI.addT hh l r
  case sub l r => exact hI.subT hh l r
  case mul l r => exact hI.mulT hh l r
  case div l r => exact hI.divT hh l r
  case neg t => exact hI.negT hh t
  case cmp op l r => exact hI.cmp hh op l r
  case sum t => exact hI.sumT hh t
  case mean t => exact hI.meanT hh t
  case abs t => exact hI.absT hh t
  case max t => exact hI.extreme hh _ t
  case min t => exact hI.extreme hh _ t
  case cat ts d => exact hI.catT hh ts d

theorem queries_keeps {R : Heap F → Heap F → Prop} [Pre R] {c : Call F} (hc : Queries c = true) : Keeps R c.run := by
  cases c <;> first | (simp [Queries] at hc; done) | skip
  case grad t => exact keeps_gradOf t
  case all t => exact keeps_none' (keeps_allT t)
  case toString t => exact keeps_none' (keeps_toString t)
  case stride t => exact keeps_none' (keeps_stride t)
  case query t => exact keeps_none' (keeps_getT t)
  case pos t => exact keeps_bind (keeps_pure _) fun _ => keeps_pure _

theorem views_post (hI : FlagInv h0 I) {c : Call F} (hc : ViewsOrFlags c = true) {h : Heap F} (hh : I h) :
    Post I (c.run h) fun _ _ => True := by
  cases c <;> first | (simp [ViewsOrFlags] at hc; done) | skip
  case slice t s => exact post_true (post_some' (hI.slice hh t s))
  case transpose t a b => exact post_true (post_some' (hI.transpose hh t a b))
  case reshape t s => exact post_true (post_some' (hI.reshape hh t s))
  case reshapeAs t u => exact post_true (post_some' (hI.reshapeAs hh t u))
  case detach t => exact post_true (post_some' (hI.toFrameInv.detach hh t))
  case setRequiresGrad t b => exact post_true (post_none' (hI.setRequiresGrad hh t b))
  case setRetainGrad t b => exact post_true (post_none' (hI.setRetainGrad hh t b))
end

/-! ### C19 -/

/-- **C19**: a computing function leaves every existing tensor and storage exactly as it was, and its result is a new
tensor on a new storage. -/
theorem C19_independent (c : Call F) (hc : Computes c = true) (h h' : Heap F) (r : Option Nat)
    (hr : c.run h = .ok r h') : Extends h h' ∧ ∀ t, r = some t → Fresh h h' t := by
  have := computes_post (frameInv_extends h) hc (Extends.refl h)
  rw [hr] at this
  exact this

/-- **C19**: a computing function that throws leaves every existing tensor and storage exactly as it was. -/
theorem C19_throwing (c : Call F) (hc : Computes c = true) (h h' : Heap F) (e : Exc)
    (hr : c.run h = .throw e h') : Extends h h' := by
  have := computes_post (frameInv_extends h) hc (Extends.refl h)
  rw [hr] at this
  exact this

/-- **C19**, type conversion: the result is the operand itself or a new tensor on a new storage. -/
theorem C19_type (t : Nat) (dt : DType) (h h' : Heap F) (r : Nat) (hr : toType t dt h = .ok r h') :
    Extends h h' ∧ (Fresh h h' r ∨ (r = t ∧ h' = h)) := by
  have := (frameInv_extends h).toType (Extends.refl h) t dt
  rw [hr] at this
  exact this

/-- **C19**, queries: nothing changes. -/
theorem C19_queries (c : Call F) (hc : Queries c = true) (h h' : Heap F) (r : Option Nat)
    (hr : c.run h = .ok r h') : h' = h :=
  (queries_keeps (R := fun a b : Heap F => b = a) hc).ok hr

/-- **C19**, views and flags: the shape, type and elements of every existing tensor are as before. -/
theorem C19_views (c : Call F) (hc : ViewsOrFlags c = true) (h h' : Heap F) (r : Option Nat)
    (hr : c.run h = .ok r h') : Preserves h h' := by
  have := views_post (flagInv_preserves h) hc (Preserves.refl h)
  rw [hr] at this
  exact this.1

/-- What `Extends` and `Preserves` mean for elements: a tensor denotes the same elements afterwards. -/
theorem C19_elements (h h' : Heap F) (hp : Preserves h h') (t : Nat) (dt : DType) (sizes : List Nat)
    (f : List Nat → Val F) (hd : Denotes h t dt sizes f) : Denotes h' t dt sizes f := preserves_denotes hp hd

/-- Non-vacuity: on the example heap adding the row `b` to the matrix `a` returns (a new tensor) and cat-ing tensors of
different rank throws. -/
example : (result ((Call.add 0 1 : Call Int).run exHeap)).isSome = true ∧
    thrown ((Call.cat [0, 1] 0 : Call Int).run exHeap) = some .runtime ∧
    (result ((Call.slice 0 "1".toList : Call Int).run exHeap)).isSome = true ∧
    result ((Call.toType 0 .i64 : Call Int).run exHeap) = some (some 3) ∧
    result ((Call.toType 0 .i16 : Call Int).run exHeap) = some (some 0) := by decide +kernel

/-! ### C33 -/

/-- **C33** (partial): a call that throws leaves the shape, type and elements of every existing tensor as they were.
Missing: `+=`, of which it is false (see `C33_add_assign_changes`), and `backward` after its initial checks (the
checks are `C36_rejected`). -/
theorem C33_throw_partial (c : Call F) (h1 : ∀ t r, c ≠ .addAssign t r) (h2 : ∀ t, c ≠ .backward t)
    (h h' : Heap F) (e : Exc) (hr : c.run h = .throw e h') : Preserves h h' := by
  by_cases hc : Computes c = true
  · exact (C19_throwing c hc h h' e hr).preserves
  by_cases hq : Queries c = true
  · exact (queries_keeps (R := Preserves) hq).throw hr
  by_cases hv : ViewsOrFlags c = true
  · have := views_post (flagInv_preserves h) hv (Preserves.refl h)
    rw [hr] at this
    exact this
  cases c <;> first | (simp [Computes] at hc; done) | (simp [Queries] at hq; done) | (simp [ViewsOrFlags] at hv; done) | skip
  case toType t dt =>
    have := post_some' ((frameInv_preserves h).toType (Preserves.refl h) t dt)
    rw [show some' (toType t dt) h = .throw e h' from hr] at this
    exact this
  case addAssign t r => exact absurd rfl (h1 t r)
  case backward t => exact absurd rfl (h2 t)
  case zeroGrad t => exact absurd hr (noThrow_none' (noThrow_zeroGrad t) h e h')
  case release t => exact absurd hr (noThrow_none' (noThrow_release t) h e h')

/-- **C33** is false of `+=`: adding a 2x3 tensor to a 2x2 tensor throws, but only after the first row has changed. -/
theorem C33_add_assign_changes :
    let start : M Int (Nat × Nat) := do
      let a ← zeros [2, 2] .i32
      let b ← ones [2, 3] .i32
      return (a, b)
    let after (h : Heap Int) : Option (List Char) :=
      match start h with
      | .ok (a, b) h1 =>
        match addAssign a b h1 with
        | .throw _ h2 => result (Tensor.toString a h2)
        | _ => none
      | _ => none
    after Heap.empty = some "[[1, 1], [0, 0]]".toList := by decide +kernel

example : thrown ((Call.slice 0 "5".toList : Call Int).run exHeap) = some .runtime ∧
    thrown ((Call.setRequiresGrad 0 true : Call Int).run exHeap) = some .runtime ∧
    thrown ((Call.reshape 0 [4, 2] : Call Int).run exHeap) = some .runtime := by decide +kernel

/-! ### C30 -/

theorem addAssign_writes {u r : Nat} {h : Heap F} {i : Impl} (hi : h.ts[u]? = some i) :
    match addAssign u r h with
    | .ok _ h' => Writes (fun d => d = i.data) h h'
    | .throw _ h' => Writes (fun d => d = i.data) h h'
    | .ub _ => True := by
  unfold addAssign
  rw [M.bind_ok (getT_ok hi)]
  have : Keeps (Writes fun d => d = i.data) (do
      expect (!i.requiresGrad)
      let j ← getT r
      tensorAdd i.dtype j.dtype i i j : M F Unit) :=
    keeps_bind (keeps_expect _) fun _ => keeps_bind (keeps_getT _) fun j =>
      keeps_tensorAdd (D := fun d => d = i.data) rfl _ _ _ _
  have := this h
  revert this
  generalize ((do
      expect (!i.requiresGrad)
      let j ← getT r
      tensorAdd i.dtype j.dtype i i j : M F Unit) h) = o
  cases o <;> exact id

theorem edits_writes {d : Nat} {h h' : Heap F} (he : Edits d h h') : Writes (fun e => e = d) h h' := by
  induction he with
  | refl => exact Pre.refl _
  | @returned _ _ u r _ _ hi hd hr ih =>
    have := addAssign_writes (r := r) hi
    rw [hr, hd] at this
    exact Pre.trans ih this
  | @threw _ _ u r _ _ _ hi hd hr ih =>
    have := addAssign_writes (r := r) hi
    rw [hr, hd] at this
    exact Pre.trans ih this

/-- In-place changes on one storage leave the tensors on every other storage alone. -/
theorem edits_other {d : Nat} {h h' : Heap F} (he : Edits d h h') {t : Nat} {i : Impl} (hi : h.ts[t]? = some i)
    (hne : i.data ≠ d) {dt : DType} {s : List Nat} {f : List Nat → Val F} (hd : Denotes h t dt s f) :
    Denotes h' t dt s f := by
  have hw := edits_writes he
  obtain ⟨j, hj, rfl, rfl, hr⟩ := hd
  rw [hi] at hj
  obtain rfl : i = j := by simpa using hj
  exact ⟨i, by rw [hw.ts]; exact hi, rfl, rfl, hr.extends fun s hs => by rw [hw.other _ hne]; exact hs⟩

/-- **C30**, clone: the result is a new tensor with the same type, shape and elements on its own storage; after any
in-place changes to tensors on the original's storage the clone has the old elements, and after any in-place changes to
tensors on the clone's storage the original has the old elements. -/
theorem C30_clone (h : Heap F) (t : Nat) (dt : DType) (sizes : List Nat) (f : List Nat → Val F)
    (hd : Denotes h t dt sizes f) (hsize : vol sizes * dt.size < 9223372036854775808) :
    ∃ u h' i j, clone t h = .ok u h' ∧ Denotes h' u dt sizes f ∧ Extends h h' ∧
      h'.ts[t]? = some i ∧ h'.ts[u]? = some j ∧ i.data ≠ j.data ∧
      (∀ h'', Edits i.data h' h'' → Denotes h'' u dt sizes f) ∧
      (∀ h'', Edits j.data h' h'' → Denotes h'' t dt sizes f) := by
  obtain ⟨h', i, hi, e, b⟩ := clone_ok hd hsize
  obtain ⟨_, j, hj, hlt⟩ := b.fresh
  obtain ⟨i', hi', _, _, hr⟩ := id hd
  rw [hi] at hi'
  obtain rfl : i = i' := by simpa using hi'
  have hlt' := hr.data_lt
  have hi2 := b.ext.ts _ _ hi
  refine ⟨_, h', i, j, e, b.denotes, b.ext, hi2, hj, by omega, fun h'' he => ?_, fun h'' he => ?_⟩
  · exact edits_other he hj (by omega) b.denotes
  · exact edits_other he hi2 (by omega) (preserves_denotes b.ext.preserves hd)

/-- **C30**, detach: the result is a new tensor that does not require grad, is not the result of an operation and has no
gradient, and denotes the original's elements, now and after any later in-place changes to their storage. -/
theorem C30_detach (h : Heap F) (t : Nat) (i : Impl) (hi : h.ts[t]? = some i) :
    ∃ u h' j, detach t h = .ok u h' ∧ Extends h h' ∧ h.ts.length ≤ u ∧ h'.ts[u]? = some j ∧
      j.requiresGrad = false ∧ j.gradFn = none ∧ j.grad = none ∧ SameStorage h' t u ∧
      ∀ h'', Edits i.data h' h'' → ∀ dt sizes f, Denotes h'' t dt sizes f ↔ Denotes h'' u dt sizes f := by
  refine ⟨h.ts.length, { h with ts := h.ts ++ [⟨i.dtype, i.view, i.data, none, false, false, none⟩] },
    ⟨i.dtype, i.view, i.data, none, false, false, none⟩, ?_, ?_, Nat.le_refl _, by simp, rfl, rfl, rfl, ?_, ?_⟩
  · unfold detach
    rw [M.bind_ok (getT_ok hi)]
    rfl
  · exact ⟨fun t j hj => by rw [List.getElem?_append_left (getElem?_lt hj)]; exact hj, fun _ _ h => h⟩
  · exact ⟨i, ⟨i.dtype, i.view, i.data, none, false, false, none⟩,
      by rw [List.getElem?_append_left (getElem?_lt hi)]; exact hi, by simp, rfl⟩
  · intro h'' he dt sizes f
    have hw := edits_writes he
    have h1 : h''.ts[t]? = some i := by
      rw [hw.ts, List.getElem?_append_left (getElem?_lt hi)]; exact hi
    have h2 : h''.ts[h.ts.length]? = some ⟨i.dtype, i.view, i.data, none, false, false, none⟩ := by
      rw [hw.ts]; simp
    constructor
    · rintro ⟨j, hj, a, b, hr⟩
      rw [h1] at hj
      obtain rfl : i = j := by simpa using hj
      exact ⟨_, h2, a, b, hr.flags rfl rfl rfl⟩
    · rintro ⟨j, hj, a, b, hr⟩
      rw [h2] at hj
      obtain rfl : (⟨i.dtype, i.view, i.data, none, false, false, none⟩ : Impl) = j := by simpa using hj
      exact ⟨_, h1, a, b, hr.flags rfl rfl rfl⟩

/-- Non-vacuity: cloning the transposed view, then adding in place to the original. -/
example : result ((do
      let c ← clone 2
      addAssign 0 0
      let s ← Tensor.toString c
      let d ← detach 0
      addAssign d d
      return (s, ← Tensor.toString 0) : M Int _) exHeap) =
    some ("[[1, 4], [2, 5], [3, 6]]".toList, "[[4, 8, 12], [16, 20, 24]]".toList) := by decide +kernel

end INNC
