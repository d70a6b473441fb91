import Verif.Lemmas.TrackBack
import Verif.Lemmas.Build
import Verif.Lemmas.Examples
import Verif.Lemmas.Runs
import Verif.Props.Frame
import Verif.Spec.Grad
/-
C34 (only floating-point tensors require grad), C35 (gradient tracking follows the operands).
-/
namespace INNC
open Spec Tensor
variable {F : Type} [FOps F]

section
variable {h : Heap F}

theorem Res'.asks {r : Nat} {dt : DType} {b : Bool} {h : Heap F} (hr : Res' r dt b h) : requiresGrad h r = b := by
  obtain ⟨j, hj, _, rfl⟩ := hr
  unfold requiresGrad
  rw [hj]

theorem trk_flag {x : M F Nat} {b : Bool}
    (hx : Post (Trk h) (x h) fun r h' => requiresGrad h' r = b) :
    Post (Trk h) (some' x h) fun r h' => ∀ t, r = some t → requiresGrad h' t = b := by
  refine post_mono (post_some' hx) fun r h' ⟨t, e, hn⟩ u hu => ?_
  rw [e] at hu
  cases hu
  exact hn

theorem asks_some {t : Nat} {i : Impl} (hi : h.ts[t]? = some i) : requiresGrad h t = i.requiresGrad := by
  unfold requiresGrad
  rw [hi]

theorem trk_binary (ht : FlagOK h) {k : Kernel F}
    (hk : ∀ (L R : DType) (d l r : Impl), Keeps (Writes fun _ => True) (k L R d l r)) (b : BackKind) {l r : Nat} (o : Bool)
    (hex : ∀ t ∈ [l, r], ∃ i, h.ts[t]? = some i) :
    Post (Trk h) (applyBinary k b l r o h) fun t h' => requiresGrad h' t = (requiresGrad h l || requiresGrad h r) := by
  obtain ⟨i, hi⟩ := hex l (by simp)
  obtain ⟨j, hj⟩ := hex r (by simp)
  rw [asks_some hi, asks_some hj]
  exact post_mono (Trk.applyBinary ⟨ht, Same.refl h⟩ hk b hi hj o) fun _ _ h => h.2.asks

theorem made_asks {h0 : Heap F} {b : Bool} {o : Out (Heap F) Nat} {dt : DType} (hx : Post (Trk h0) o fun r h' => Made h0 r dt b h') :
    Post (Trk h0) o fun r h' => requiresGrad h' r = b := post_mono hx fun _ _ h => h.2.asks

/-- Calls that return a tracked tensor. -/
theorem tracked_post (hf : FlagOK h) {c : Call F} {ops : List Nat} (hc : tracked c = some ops)
    (hex : ∀ t ∈ ops, ∃ i, h.ts[t]? = some i) :
    Post (Trk h) (c.run h) fun r h' => ∀ t, r = some t → requiresGrad h' t = ops.any (requiresGrad h) := by
  have ht : Trk h h := ⟨hf, Same.refl h⟩
  have one : ∀ t, [t].any (requiresGrad h) = requiresGrad h t := fun t => by simp
  have two : ∀ t u, [t, u].any (requiresGrad h) = (requiresGrad h t || requiresGrad h u) := fun t u => by simp
  cases c <;> first | (simp [tracked] at hc; done) | skip
  all_goals
    simp only [tracked, Option.some.injEq] at hc
    subst hc
  case cat ts d =>
    refine trk_flag (post_mono (ht.catT ts d) fun r h' ⟨dt, hm⟩ => ?_)
    rw [hm.2.asks]
    rfl
  case add l r => rw [two]; exact trk_flag (trk_binary hf (fun _ _ _ _ _ => keeps_tensorAdd trivial _ _ _ _) _ _ hex)
  case sub l r => rw [two]; exact trk_flag (trk_binary hf (fun _ _ _ _ _ => keeps_tensorSub trivial _ _ _ _) _ _ hex)
  case mul l r => rw [two]; exact trk_flag (trk_binary hf (fun _ _ _ _ _ => keeps_tensorMul trivial _ _ _ _) _ _ hex)
  case div l r => rw [two]; exact trk_flag (trk_binary hf (fun _ _ _ _ _ => keeps_tensorDiv trivial _ _ _ _) _ _ hex)
  all_goals
    rw [one]
    obtain ⟨i, hi⟩ := hex _ (List.mem_singleton.2 rfl)
    refine trk_flag ?_
    rw [asks_some hi]
  case slice t s => exact made_asks (ht.slice hi s)
  case transpose t a b => exact made_asks (ht.transpose hi a b)
  case reshape t s => exact made_asks (ht.reshape hi hi s)
  case reshapeAs t u => exact made_asks (ht.reshapeAs hi hi u)
  case clone t => exact made_asks (ht.clone hi)
  case contiguous t => exact made_asks (ht.clone hi)
  case sum t => exact made_asks (ht.sumT hi)
  case mean t => exact made_asks (ht.meanT hi)
  case abs t => exact made_asks (ht.absT hi)
  case max t => exact made_asks (ht.extreme _ hi)
  case min t => exact made_asks (ht.extreme _ hi)
  case neg t => exact made_asks (ht.negT hi)
  case pos t => exact post_pure ht (asks_some hi)
  case toType t dt => exact post_mono (ht.toType hi dt) fun _ _ h => h.asks

theorem untracked_post (hf : FlagOK h) {c : Call F} (hc : Untracked c = true) :
    Post (Trk h) (c.run h) fun r h' => ∀ t, r = some t → requiresGrad h' t = false := by
  have ht : Trk h h := ⟨hf, Same.refl h⟩
  cases c <;> first | (simp [Untracked] at hc; done) | skip
  case init tree => exact post_mono (ht.ofInit tree) fun r h' hr t e => (hr t e).elim fun _ hm => hm.2.asks
  case randnLike rnd t =>
    unfold Call.run
    refine post_bind (post_getT ht) fun i h1 hh1 hi => ?_
    obtain ⟨rfl, hi⟩ := hi
    exact trk_flag (made_asks (hh1.randn _ _ _))
  all_goals refine trk_flag ?_
  case scalar dt v => exact post_mono (ht.createScalar dt v) fun _ _ h => h.1.2.asks
  case empty s dt => exact post_mono (ht.create' dt _ _) fun _ _ h => h.1.2.asks
  case ones s dt => exact post_mono (ht.ones s dt) fun _ _ h => h.1.2.asks
  case zeros s dt => exact post_mono (ht.zeros s dt) fun _ _ h => h.1.2.asks
  case onesLike t => exact post_mono (ht.onesLike t) fun _ _ h => h.1.elim fun _ h => h.2.asks
  case zerosLike t => exact post_mono (ht.zerosLike t) fun _ _ h => h.1.elim fun _ h => h.2.asks
  case fullInt s n dt => exact post_mono (ht.full s _ _ dt) fun _ _ h => h.1.2.asks
  case fullReal s x dt => exact post_mono (ht.full s _ _ dt) fun _ _ h => h.1.2.asks
  case eye n m dt => exact made_asks (ht.eye n m dt)
  case fromBlob data s dt => exact made_asks (ht.fromBlob data s dt)
  case randn rnd s dt => exact made_asks (ht.randn rnd s dt)
  case cmp op l r => exact made_asks (ht.cmp op l r)
  case detach t =>
    unfold Tensor.detach
    refine post_bind (post_getT ht) fun i h1 hh1 hi => ?_
    obtain ⟨rfl, hi⟩ := hi
    exact post_mono (hh1.createOn _ _ _) fun r h' hr => asks_some hr.1

omit [FOps F] in
theorem trk_exists {I : Heap F → Prop} {α : Type} {t : Nat} {f : Impl → M F α} {Q : α → Heap F → Prop}
    (hx : ∀ i, h.ts[t]? = some i → Post I ((getT t >>= f) h) Q) : Post I ((getT t >>= f) h) Q := by
  cases hi : h.ts[t]? with
  | some i => exact hx i hi
  | none =>
    rw [M.bind_def]
    unfold getT
    rw [hi]
    trivial

theorem trk_binary' {h0 : Heap F} (ht : Trk h0 h) {k : Kernel F}
    (hk : ∀ (L R : DType) (d l r : Impl), Keeps (Writes fun _ => True) (k L R d l r)) (b : BackKind) (l r : Nat) (o : Bool) :
    Post (Trk h0) (applyBinary k b l r o h) fun _ _ => True := by
  cases hi : h.ts[l]? with
  | none =>
    refine post_bind (Q := fun _ _ => False) ?_ fun _ _ _ hf => hf.elim
    exact trk_exists fun i hi' => absurd hi' (by rw [hi]; simp)
  | some i =>
    cases hj : h.ts[r]? with
    | none =>
      refine post_bind (Q := fun _ _ => False) ?_ fun _ _ _ hf => hf.elim
      unfold applyNoGradBinary
      rw [M.bind_ok (getT_ok hi)]
      exact trk_exists fun i hi' => absurd hi' (by rw [hj]; simp)
    | some j => exact post_true (ht.applyBinary hk b hi hj o)

/-- Every call other than `requires_grad(bool)` keeps the type, shape, storage and flag of every tensor. -/
theorem run_post (hf : FlagOK h) {c : Call F} (hc : flagged c = none) : Post (Trk h) (c.run h) fun _ _ => True := by
  have ht : Trk h h := ⟨hf, Same.refl h⟩
  by_cases hu : Untracked c = true
  · exact post_true (untracked_post hf hu)
  by_cases hq : Queries c = true
  · exact post_true (post_reads (queries_keeps hq) ht)
  cases c <;> first | (simp [Untracked] at hu; done) | (simp [Queries] at hq; done) | (simp [flagged] at hc; done) | skip
  case addAssign t r => exact post_true (post_none' (ht.addAssign t r))
  case setRetainGrad t b => exact post_true (post_none' (ht.setRetainGrad t b))
  case zeroGrad t => exact post_true (post_none' (ht.zeroGrad t))
  case release t => exact post_true (post_none' (ht.release t))
  case backward t => exact post_true (post_none' (ht.backward t))
  case cat ts d => exact post_true (post_some' (ht.catT ts d))
  all_goals refine post_true (post_some' (Q := fun _ _ => True) ?_)
  case slice t s => exact trk_exists fun i hi => post_true (ht.slice hi s)
  case transpose t a b => exact trk_exists fun i hi => post_true (ht.transpose hi a b)
  case reshape t s => exact trk_exists fun i hi => post_true (ht.reshape hi hi s)
  case clone t => exact trk_exists fun i hi => post_true (ht.clone hi)
  case contiguous t => exact trk_exists fun i hi => post_true (ht.clone hi)
  case sum t => exact trk_exists fun i hi => post_true (ht.sumT hi)
  case mean t => exact trk_exists fun i hi => post_true (ht.meanT hi)
  case abs t => exact trk_exists fun i hi => post_true (ht.absT hi)
  case max t => exact trk_exists fun i hi => post_true (ht.extreme _ hi)
  case min t => exact trk_exists fun i hi => post_true (ht.extreme _ hi)
  case toType t dt => exact trk_exists fun i hi => post_true (ht.toType hi dt)
  case reshapeAs t u =>
    unfold reshapeAs
    refine post_bind (post_getT ht) fun j h1 hh1 hj => ?_
    obtain ⟨rfl, hj⟩ := hj
    unfold reshapeSizes
    exact trk_exists fun i hi => post_true (hh1.reshapeSizes hi hi _)
  case add l r => exact trk_binary' ht (fun _ _ _ _ _ => keeps_tensorAdd trivial _ _ _ _) _ _ _ _
  case sub l r => exact trk_binary' ht (fun _ _ _ _ _ => keeps_tensorSub trivial _ _ _ _) _ _ _ _
  case mul l r => exact trk_binary' ht (fun _ _ _ _ _ => keeps_tensorMul trivial _ _ _ _) _ _ _ _
  case div l r => exact trk_binary' ht (fun _ _ _ _ _ => keeps_tensorDiv trivial _ _ _ _) _ _ _ _
  case neg t =>
    exact post_bind (ht.createScalar _ _) fun z h1 hh1 hz =>
      trk_binary' hh1 (fun _ _ _ _ _ => keeps_tensorSub trivial _ _ _ _) _ _ _ _

/-- `requires_grad(bool)`. -/
theorem setFlag_post (hf : FlagOK h) (t : Nat) (b : Bool) :
    Post FlagOK (setRequiresGrad t b h) fun _ h' => requiresGrad h' t = b ∧ ∀ u, u ≠ t → h'.ts[u]? = h.ts[u]? := by
  unfold setRequiresGrad
  refine trk_exists fun i hi => ?_
  rw [M.bind_ok (getT_ok hi)]
  have key : (b = true → i.dtype.isFloat = true) → Post FlagOK ((do
      let i ← getT t
      setT t { i with requiresGrad := b } : M F Unit) h) fun _ h' => requiresGrad h' t = b ∧
        ∀ u, u ≠ t → h'.ts[u]? = h.ts[u]? := by
    intro hb
    rw [M.bind_ok (getT_ok hi)]
    refine ⟨fun u j hj hr => ?_, ?_, fun u hu => List.getElem?_set_ne (Ne.symm hu)⟩
    · by_cases hu : t = u
      · subst hu
        have hj : (h.ts.set t _)[t]? = some j := hj
        rw [List.getElem?_set_self (getElem?_lt hi)] at hj
        obtain rfl := Option.some.inj hj
        exact hb hr
      · have hj : (h.ts.set t _)[u]? = some j := hj
        rw [List.getElem?_set_ne hu] at hj
        exact hf u j hj hr
    · exact asks_some (i := { i with requiresGrad := b }) (List.getElem?_set_self (getElem?_lt hi))
  cases b
  · exact key (fun h => by simp at h)
  · refine post_bind (Q := fun _ h' => h' = h ∧ i.dtype.isFloat = true) ?_ fun _ h' hh' e => ?_
    · unfold expect
      rw [apply_ite (fun x : M F Unit => x h)]
      split
      · rename_i hc
        refine ⟨hf, rfl, ?_⟩
        revert hc
        cases i.dtype <;> decide
      · exact hf
    · obtain ⟨rfl, hfl⟩ := e
      exact key fun _ => hfl

theorem run_flagOK (hf : FlagOK h) (c : Call F) : Post FlagOK (c.run h) fun _ _ => True := by
  by_cases hc : flagged c = none
  · have := run_post hf hc
    cases he : c.run h with
    | ok r h' => rw [he] at this; exact ⟨this.1.1, trivial⟩
    | throw e h' => rw [he] at this; exact this.1
    | ub u => trivial
  · cases c <;> first | (simp [flagged] at hc; done) | skip
    case setRequiresGrad t b => exact post_true (post_none' (setFlag_post hf t b))

theorem history_flagOK (hh : History h) : FlagOK h := by
  induction hh with
  | start => intro t i hi; simp [Heap.empty] at hi
  | @returned _ _ c _ _ hr ih =>
    have := run_flagOK ih c
    rw [hr] at this
    exact this.1
  | @threw _ _ c _ _ hr ih =>
    have := run_flagOK ih c
    rw [hr] at this
    exact this
end

/-! ### C34 -/

/-- **C34**: after any history of API calls only tensors of type f32 or f64 require grad. -/
theorem C34_floating (h : Heap F) (hh : History h) (t : Nat) (hr : requiresGrad h t = true) :
    dtypeOf h t = some .f32 ∨ dtypeOf h t = some .f64 := by
  unfold requiresGrad at hr
  unfold dtypeOf
  cases hi : h.ts[t]? with
  | none => rw [hi] at hr; simp at hr
  | some i =>
    rw [hi] at hr
    have := history_flagOK hh t i hi hr
    revert this
    simp only [Option.map_some, Option.some.injEq]
    cases i.dtype <;> decide

/-- **C34**: asking an integer tensor to require grad throws `std::runtime_error` and changes nothing; on a
floating-point tensor it succeeds and changes the flag of that tensor only. -/
theorem C34_set (h : Heap F) (t : Nat) (i : Impl) (hi : h.ts[t]? = some i) :
    (i.dtype.isFloat = false → setRequiresGrad t true h = .throw .runtime h) ∧
    (i.dtype.isFloat = true → setRequiresGrad t true h = .ok () { h with ts := h.ts.set t { i with requiresGrad := true } }) ∧
    setRequiresGrad t false h = .ok () { h with ts := h.ts.set t { i with requiresGrad := false } } := by
  unfold setRequiresGrad
  rw [M.bind_ok (getT_ok hi), M.bind_ok (getT_ok hi)]
  refine ⟨fun hf => ?_, fun hf => ?_, ?_⟩
  · revert hf
    cases i.dtype <;> first | (intro; rfl) | (intro hc; exact absurd hc (by decide))
  · have : (decide (i.dtype = .f32) || decide (i.dtype = .f64)) = true := by
      revert hf
      cases i.dtype <;> decide
    rw [this]
    show ((getT t >>= _ : M F Unit) h) = _
    rw [M.bind_ok (getT_ok hi)]
    rfl
  · simp only [Bool.false_eq_true, if_false]
    rw [M.bind_ok (getT_ok hi)]
    rfl

/-- Non-vacuity: a history that ends with a tensor that requires grad, after an integer tensor was refused. -/
example : ∃ h : Heap Int, History h ∧ (requiresGrad h 1 && !requiresGrad h 0 && dtypeOf h 0 == some .i32) = true :=
  reachable [.empty [2] .i32, .setRequiresGrad 0 true, .empty [2] .f64, .setRequiresGrad 1 true] (by decide +kernel)

/-! ### C35 -/

/-- **C35**: in any reachable state, the result of a differentiable function requires grad exactly when one of its tensor
operands does. -/
theorem C35_tracked (h : Heap F) (hh : History h) (c : Call F) (ops : List Nat) (hc : tracked c = some ops)
    (hex : ∀ t ∈ ops, ∃ i, h.ts[t]? = some i) (r : Nat) (h' : Heap F) (hr : c.run h = .ok (some r) h') :
    requiresGrad h' r = true ↔ ∃ t ∈ ops, requiresGrad h t = true := by
  have := tracked_post (history_flagOK hh) hc hex
  rw [hr] at this
  rw [this.2 r rfl, List.any_eq_true]

/-- **C35**: the result of a constructor, a comparison or `detach` does not require grad. -/
theorem C35_untracked (h : Heap F) (hh : History h) (c : Call F) (hc : Untracked c = true)
    (r : Nat) (h' : Heap F) (hr : c.run h = .ok (some r) h') : requiresGrad h' r = false := by
  have := untracked_post (history_flagOK hh) hc
  rw [hr] at this
  exact this.2 r rfl

/-- **C35**: no call changes the flag of an existing tensor, except `requires_grad(bool)` on that tensor; even a call that
throws does not. -/
theorem C35_flags_kept (h : Heap F) (hh : History h) (c : Call F) (t : Nat) (i : Impl) (hi : h.ts[t]? = some i)
    (hc : flagged c ≠ some t) :
    (∀ r h', c.run h = .ok r h' → requiresGrad h' t = requiresGrad h t) ∧
    (∀ e h', c.run h = .throw e h' → requiresGrad h' t = requiresGrad h t) := by
  by_cases hn : flagged c = none
  · have := run_post (history_flagOK hh) hn
    constructor
    · intro r h' hr
      rw [hr] at this
      obtain ⟨j, hj, _, _, _, e⟩ := this.1.2 t i hi
      rw [asks_some hi, asks_some hj, e]
    · intro r h' hr
      rw [hr] at this
      obtain ⟨j, hj, _, _, _, e⟩ := this.2 t i hi
      rw [asks_some hi, asks_some hj, e]
  · cases c <;> first | (simp [flagged] at hn; done) | skip
    case setRequiresGrad u b =>
    have hut : t ≠ u := fun e => hc (by rw [e]; rfl)
    have key := setFlag_post (history_flagOK hh) u b
    constructor
    · intro r h' hr
      have hr : none' (setRequiresGrad u b) h = .ok r h' := hr
      unfold none' at hr
      rw [M.bind_def] at hr
      cases he : setRequiresGrad u b h with
      | ok a h1 =>
        rw [he] at hr key
        obtain ⟨_, rfl⟩ : none = r ∧ h1 = h' := by simpa [M.pure_run] using hr
        unfold requiresGrad
        rw [key.2.2 t hut]
      | throw e h1 => rw [he] at hr; simp at hr
      | ub e => rw [he] at hr; simp at hr
    · intro e h' hr
      have hr : none' (setRequiresGrad u b) h = .throw e h' := hr
      unfold none' at hr
      rw [M.bind_def] at hr
      cases hu : h.ts[u]? with
      | none =>
        have : setRequiresGrad u b h = .ub .nullptr := by
          unfold setRequiresGrad
          rw [M.bind_def]
          unfold getT
          rw [hu]
        rw [this] at hr
        simp at hr
      | some j =>
        have hs := C34_set h u j hu
        cases b
        · rw [hs.2.2] at hr; simp [M.pure_run] at hr
        · cases hf : j.dtype.isFloat
          · rw [hs.1 hf] at hr
            obtain ⟨_, rfl⟩ : _ ∧ h = h' := by simpa using hr
            rfl
          · rw [hs.2.1 hf] at hr; simp [M.pure_run] at hr

/-- Non-vacuity: `a` requires grad, `b` does not; `a + b` does, `b + b` and `a < b` do not. -/
example : ∃ h : Heap Int, History h ∧ (requiresGrad h 0 && !requiresGrad h 1 &&
    result ((Call.add 0 1).run h) == some (some 2) && result ((Call.add 1 1).run h) == some (some 2) &&
    result ((Call.cmp .lt 0 1).run h) == some (some 2)) = true :=
  reachable [.zeros [2] .f32, .zeros [2] .f64, .setRequiresGrad 0 true] (by decide +kernel)

end INNC
