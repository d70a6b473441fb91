import Verif.Lemmas.GraphKeep
import Verif.Lemmas.Cycles
import Verif.Props.Frame
/-
In a state that calls have led to, everything that an object refers to exists, and what a call returns exists.
-/
namespace INNC
open Spec Tensor
section
variable {F : Type} [FOps F]

/-- Everything the tensors refer to exists. -/
structure Existing (h : Heap F) : Prop where
  data : ∀ (x : Nat) (i : Impl), h.ts[x]? = some i → i.data < h.st.length
  grad : ∀ (x : Nat) (i : Impl) (g : Nat), h.ts[x]? = some i → i.grad = some g → g < h.ts.length
  inputs : ∀ (x : Nat) (i : Impl) (f : GradFn) (y : Nat), h.ts[x]? = some i → i.gradFn = some f → y ∈ f.inputs → y < h.ts.length
  slopes : ∀ (x : Nat) (i : Impl) (f : GradFn) (g : Nat), h.ts[x]? = some i → i.gradFn = some f → f.kind = .knownGrad g → g < h.ts.length

omit [FOps F] in
theorem lt_of_get {l : List Impl} {x : Nat} {i : Impl} (h : l[x]? = some i) : x < l.length := by
  by_contra hc
  rw [List.getElem?_eq_none (by omega)] at h
  cases h

theorem existing_history {h : Heap F} (hh : History h) : Existing h := by
  have V := valid_history hh
  have G := graph_history hh
  have L := levelled_history hh
  refine ⟨fun x i hi => V.data x i hi, fun x i g hi hg => V.grad x g i hi hg, fun x i f y hi hf hy => ?_, fun x i f g hi hf hk => ?_⟩
  · have := G.older x y (by
      unfold Uses operands
      rw [opOf_some hi, hf]
      exact hy)
    exact this.trans (lt_of_get hi)
  · obtain ⟨_, j, hj, _⟩ := L x g ⟨i, hi, .inr ⟨f, hf, hk⟩⟩
    exact lt_of_get hj

/-- If the computation returns, the tensor it returns exists; `n` tensors are known to exist before. -/
def Found (n : Nat) (x : M F Nat) : Prop := ∀ h r h', n ≤ h.ts.length → x h = .ok r h' → r < h'.ts.length

omit [FOps F] in
theorem found_ret {n r : Nat} (h : r < n) : Found n (pure r : M F Nat) := fun _ _ _ hn e => by cases e; omega

omit [FOps F] in
theorem found_bind {α : Type} {n : Nat} {x : M F α} {f : α → M F Nat} (hx : Keeps VK x) (hf : ∀ a, Found n (f a)) : Found n (x >>= f) := by
  intro h r h' hn e
  rw [M.bind_def] at e
  have hk := hx h
  revert e hk
  cases x h with
  | ok a h1 => exact fun e hk => hf a h1 r h' (hn.trans hk.tlen) e
  | throw a h1 => intro e; cases e
  | ub u => intro e; cases e

omit [FOps F] in
theorem found_new {n : Nat} {x : M F Nat} {f : Nat → M F Nat} (hx : Found n x) (hf : ∀ a, Found (a + 1) (f a)) : Found n (x >>= f) := by
  intro h r h' hn e
  rw [M.bind_def] at e
  have hk := hx h
  revert e hk
  cases x h with
  | ok a h1 => exact fun e hk => hf a h1 r h' (hk a h1 hn rfl) e
  | throw a h1 => intro e; cases e
  | ub u => intro e; cases e

omit [FOps F] in
theorem found_ite {n : Nat} {c : Prop} [Decidable c] {x y : M F Nat} (hx : Found n x) (hy : Found n y) : Found n (if c then x else y) := by
  split
  · exact hx
  · exact hy

omit [FOps F] in
theorem found_createOn (n : Nat) (dt : DType) (v : Layout) (d : Nat) : Found (F := F) n (createOn dt v d) := by
  intro h r h' _ e
  cases e
  show h.ts.length < (h.ts ++ [_]).length
  simp

omit [FOps F] in
theorem found_none {n : Nat} {u : UB} : Found (F := F) n (M.undef u) := fun _ _ _ _ e => by cases e
omit [FOps F] in
theorem found_raise {n : Nat} {u : Exc} : Found (F := F) n (M.raise u) := fun _ _ _ _ e => by cases e

theorem found_makeView (n : Nat) (dt : DType) (v : Layout) (d b : Nat) : Found (F := F) n (makeView dt v d b) := by
  unfold makeView
  refine found_new (found_createOn _ _ _ _) fun r => found_bind (keeps_getT _) fun i => found_ite (found_ret (Nat.lt_succ_self _)) ?_
  exact found_bind (valid_setGradFn _ _ _) fun _ => found_bind (valid_shareGradStorage _ _) fun _ => found_ret (Nat.lt_succ_self _)

theorem found_clone (n t : Nat) : Found (F := F) n (clone t) := by
  intro h r h' _ e
  obtain ⟨_, i, hi, _⟩ := (C19_independent (.clone t) rfl h h' (some r) (by
    simp only [Call.run, some', bind, M.bind]; rw [e]; rfl)).2 r rfl
  exact lt_of_get hi

theorem found_reshapeSizes (n t : Nat) (s : List Nat) : Found (F := F) n (reshapeSizes t s) := by
  unfold reshapeSizes
  refine found_bind (keeps_getT _) fun i => found_bind (keeps_expect _) fun _ => ?_
  have rest : ∀ (m : Nat) (early : Option Nat), (∀ r, early = some r → r < m) → Found m
      (match early with
      | some r => (pure r : M F Nat)
      | none =>
        if i.view.sizes.length < i.view.strides.length then M.undef .vecOob
        else do
          let iso ← M.lift (isometry i.view.sizes i.view.strides)
          if iso then do
            let strides ← if s.length ≠ 0 then do
                let last ← M.lift (vecAt i.view.strides (i.view.strides.length - 1))
                pure (scaledStrides last s)
              else pure i.view.strides
            makeView i.dtype ⟨s, strides, i.view.offset⟩ i.data t
          else do
            let m ← clone t
            let mi ← getT m
            makeView i.dtype (Layout.contig s) mi.data m) := by
    intro m early he
    cases early with
    | some r => exact found_ret (he r rfl)
    | none =>
      refine found_ite found_none (found_bind (keeps_lift _) fun iso => found_ite (found_ite ?_ ?_) ?_)
      · exact found_bind (keeps_lift _) fun _ => found_makeView _ _ _ _ _
      · exact found_makeView _ _ _ _ _
      · exact found_bind (valid_clone t) fun m => found_bind (keeps_getT _) fun _ => found_makeView _ _ _ _ _
  refine found_ite ?_ (rest n none fun _ e => by cases e)
  refine found_new (found_makeView _ _ _ _ _) fun r => rest _ (if i.requiresGrad = true then none else some r) fun r' e => ?_
  split at e
  · cases e
  · cases e; exact Nat.lt_succ_self _

/-- What a call returns exists, if the tensors it is called on do. -/
theorem returned_lt {h h' : Heap F} (hh : Existing h) {c : Call F} (ha : ∀ a ∈ args c, a < h.ts.length ∨ c ≠ .pos a) {t : Nat}
    (e : c.run h = .ok (some t) h') : t < h'.ts.length := by
  by_cases hp : Computes c = true
  · obtain ⟨_, i, hi, _⟩ := (C19_independent c hp h h' _ e).2 t rfl
    exact lt_of_get hi
  have S : ∀ {x : M F Nat}, Found 0 x → some' x h = .ok (some t) h' → t < h'.ts.length := fun {x} hx e => by
    unfold some' at e
    rw [M.bind_def] at e
    cases hx' : x h with
    | ok a h1 => rw [hx'] at e; cases e; exact hx _ _ _ (Nat.zero_le _) hx'
    | throw a h1 => rw [hx'] at e; cases e
    | ub u => rw [hx'] at e; cases e
  have N : ∀ {α : Type} {x : M F α}, none' x h = .ok (some t) h' → t < h'.ts.length := fun {α x} e => by
    unfold none' at e
    rw [M.bind_def] at e
    cases hx' : x h with
    | ok a h1 => rw [hx'] at e; cases e
    | throw a h1 => rw [hx'] at e; cases e
    | ub u => rw [hx'] at e; cases e
  cases c <;> first | (exact absurd rfl hp) | (exact N e) | skip
  case slice u s => exact S (found_bind (keeps_getT _) fun _ => found_bind (keeps_lift _) fun _ => found_makeView _ _ _ _ _) e
  case transpose u a b => exact S (found_bind (keeps_getT _) fun _ => found_bind (keeps_lift _) fun _ => found_makeView _ _ _ _ _) e
  case reshape u s => exact S (found_bind (keeps_getT _) fun _ => found_bind (keeps_lift _) fun _ => found_reshapeSizes _ _ _) e
  case reshapeAs u w => exact S (found_bind (keeps_getT _) fun _ => found_reshapeSizes _ _ _) e
  case detach u => exact S (found_bind (keeps_getT _) fun _ => found_createOn _ _ _ _) e
  case toType u dt =>
    have : toType u dt h = .ok t h' := by
      change some' (toType u dt) h = _ at e
      unfold some' at e
      rw [M.bind_def] at e
      cases hx' : toType u dt h with
      | ok a h1 => rw [hx'] at e; cases e; rfl
      | throw a h1 => rw [hx'] at e; cases e
      | ub u => rw [hx'] at e; cases e
    obtain ⟨_, ⟨_, i, hi, _⟩ | ⟨rfl, rfl⟩⟩ := C19_type u dt h h' t this
    · exact lt_of_get hi
    · unfold toType at this
      rw [M.bind_def] at this
      unfold getT at this
      cases hu : h'.ts[t]? with
      | none => rw [hu] at this; cases this
      | some i => exact lt_of_get hu
  case pos u =>
    cases e
    exact (ha t (by simp [args])).resolve_right fun hn => hn rfl
  case grad u =>
    change gradOf u h = _ at e
    unfold gradOf at e
    rw [M.bind_def] at e
    unfold getT at e
    cases hu : h.ts[u]? with
    | none => rw [hu] at e; cases e
    | some i =>
      rw [hu] at e
      change (Out.ok i.grad h : Out (Heap F) _) = _ at e
      injection e with e1 e2
      subst e2
      exact hh.grad u i t hu e1

end
end INNC
