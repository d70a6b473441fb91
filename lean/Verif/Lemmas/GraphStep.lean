import Verif.Lemmas.Graph
/-
One step of back-propagation: what it does to counters and gradients.
-/
namespace INNC
open Spec Tensor
variable {F : Type}

/-- From `h` to `h'` only contents of storages, gradients of the tensors of `m`, and the arrival counters of the tensors
of `l` (for those that require grad, by the multiplicity in `l`) changed; gradients that existed were kept; new tensors
are leaves. -/
structure Upd (l m : List Nat) (h h' : Heap F) : Prop where
  gver : h'.gver = h.gver
  old : ∀ x i, h.ts[x]? = some i → ∃ gr, h'.ts[x]? = some { i with
      grad := gr
      gradFn := i.gradFn.map fun g => { g with accOutway := g.accOutway + if i.requiresGrad then l.count x else 0 } } ∧
    (x ∉ m → gr = i.grad) ∧ (i.grad.isSome → gr = i.grad) ∧ (x ∈ m → i.requiresGrad = true → gr.isSome)
  new : ∀ x i, h.ts.length ≤ x → h'.ts[x]? = some i → i.gradFn = none

theorem Upd.len {l m : List Nat} {h h' : Heap F} (hu : Upd l m h h') : h.ts.length ≤ h'.ts.length := by
  by_contra hc
  obtain ⟨gr, hj, _⟩ := hu.old h'.ts.length _ (List.getElem?_eq_getElem (by omega))
  rw [List.getElem?_eq_none (Nat.le_refl _)] at hj
  simp at hj

theorem upd_of_ts {h h' : Heap F} (e : h'.ts = h.ts) (ev : h'.gver = h.gver) : Upd [] [] h h' := by
  refine ⟨ev, fun x i hi => ⟨i.grad, ?_, fun _ => rfl, fun _ => rfl, by simp⟩, fun x i hx hi => ?_⟩
  · rw [e, hi]
    cases i with
    | mk dt v d g rq rt gf => cases gf <;> simp
  · rw [e, List.getElem?_eq_none hx] at hi
    simp at hi

theorem upd_refl (h : Heap F) : Upd [] [] h h := upd_of_ts rfl rfl

theorem Upd.trans {l m l' m' : List Nat} {h h1 h2 : Heap F} (a : Upd l m h h1) (b : Upd l' m' h1 h2) :
    Upd (l ++ l') (m ++ m') h h2 := by
  refine ⟨b.gver.trans a.gver, fun x i hi => ?_, fun x i hx hi => ?_⟩
  · obtain ⟨gr, e1, e2, e3, e4⟩ := a.old x i hi
    obtain ⟨gr', f1, f2, f3, f4⟩ := b.old x _ e1
    refine ⟨gr', ?_, fun hx => ?_, fun hx => ?_, fun hx hr => ?_⟩
    · rw [f1]
      simp only [Option.map_map, Option.some.injEq, Impl.mk.injEq, true_and]
      congr 1
      funext g
      simp only [Function.comp_apply, List.count_append]
      congr 1
      split
      · omega
      · omega
    · rw [List.mem_append, not_or] at hx
      rw [f2 hx.2, e2 hx.1]
    · rw [f3 (by simp only; rw [e3 hx]; exact hx), e3 hx]
    · rcases List.mem_append.1 hx with hx | hx
      · have := e4 hx hr
        rw [f3 this]; exact this
      · exact f4 hx hr
  · by_cases hlt : x < h1.ts.length
    · have e1 := List.getElem?_eq_getElem hlt
      obtain ⟨gr', f1, _⟩ := b.old x _ e1
      rw [hi] at f1
      rw [Option.some.inj f1]
      simp only [a.new x _ hx e1, Option.map_none]
    · exact b.new x i (by omega) hi

theorem Upd.weaken {l m m' : List Nat} {h h' : Heap F} (a : Upd l m h h') (hm : ∀ x ∈ m, x ∈ m')
    (hs : ∀ x ∈ m', x ∉ m → ∀ i, h.ts[x]? = some i → i.requiresGrad = true → i.grad.isSome) : Upd l m' h h' :=
  ⟨a.gver, fun x i hi => by
    obtain ⟨gr, e1, e2, e3, e4⟩ := a.old x i hi
    refine ⟨gr, e1, fun hx => e2 fun hc => hx (hm x hc), e3, fun hx hr => ?_⟩
    by_cases hxm : x ∈ m
    · exact e4 hxm hr
    · have := hs x hx hxm i hi hr
      rw [e3 this]; exact this, a.new⟩

theorem upd_newT {h : Heap F} {i : Impl} (hi : i.gradFn = none) : Upd [] [] h { h with ts := h.ts ++ [i] } := by
  refine ⟨rfl, fun x j hj => ⟨j.grad, ?_, fun _ => rfl, fun _ => rfl, by simp⟩, fun x j hx hj => ?_⟩
  · simp only
    rw [List.getElem?_append_left (getElem?_lt hj), hj]
    cases j with
    | mk dt v d g rq rt gf => cases gf <;> simp
  · simp only at hj
    rw [List.getElem?_append_right hx] at hj
    have : j = i := by
      cases hk : x - h.ts.length with
      | zero => simpa [hk] using hj.symm
      | succ n => simp [hk] at hj
    rw [this, hi]

theorem upd_setGrad {h : Heap F} {p : Nat} {i : Impl} (hi : h.ts[p]? = some i) (hn : i.grad = none) (gr : Nat) :
    Upd [] [p] h { h with ts := h.ts.set p { i with grad := some gr } } := by
  refine ⟨rfl, fun x j hj => ?_, fun x j hx hj => ?_⟩
  · by_cases hpx : p = x
    · subst hpx
      rw [hi] at hj
      obtain rfl := Option.some.inj hj
      refine ⟨some gr, ?_, fun hc => absurd (List.mem_singleton.2 rfl) hc, fun hc => by rw [hn] at hc; simp at hc, fun _ _ => rfl⟩
      simp only
      rw [List.getElem?_set_self (getElem?_lt hi)]
      cases i with
      | mk dt v d g rq rt gf => cases gf <;> simp
    · refine ⟨j.grad, ?_, fun _ => rfl, fun _ => rfl, fun hc => absurd (List.mem_singleton.1 hc) (Ne.symm hpx)⟩
      simp only
      rw [List.getElem?_set_ne hpx, hj]
      cases j with
      | mk dt v d g rq rt gf => cases gf <;> simp
  · simp only at hj
    rw [List.getElem?_eq_none (by simpa using hx)] at hj
    simp at hj

theorem upd_setAcc {h : Heap F} {p : Nat} {i : Impl} {g : GradFn} (hi : h.ts[p]? = some i) (hr : i.requiresGrad = true)
    (hg : i.gradFn = some g) :
    Upd [p] [] h { h with ts := h.ts.set p { i with gradFn := some { g with accOutway := g.accOutway + 1 } } } := by
  refine ⟨rfl, fun x j hj => ?_, fun x j hx hj => ?_⟩
  · by_cases hpx : p = x
    · subst hpx
      rw [hi] at hj
      obtain rfl := Option.some.inj hj
      refine ⟨i.grad, ?_, fun _ => rfl, fun _ => rfl, by simp⟩
      simp only
      rw [List.getElem?_set_self (getElem?_lt hi), hg, hr]
      simp
    · refine ⟨j.grad, ?_, fun _ => rfl, fun _ => rfl, by simp⟩
      simp only
      rw [List.getElem?_set_ne hpx, hj]
      cases j with
      | mk dt v d g rq rt gf => cases gf <;> simp [List.count_cons, hpx]
  · simp only at hj
    rw [List.getElem?_eq_none (by simpa using hx)] at hj
    simp at hj

theorem upd_one {h : Heap F} {p : Nat} {i : Impl} (hi : h.ts[p]? = some i) (hr : i.requiresGrad = false ∨ i.gradFn = none) :
    Upd [p] [] h h := by
  refine ⟨rfl, fun x j hj => ⟨j.grad, ?_, fun _ => rfl, fun _ => rfl, by simp⟩, fun x j hx hj => ?_⟩
  · by_cases hpx : p = x
    · subst hpx
      rw [hi] at hj
      obtain rfl := Option.some.inj hj
      rw [hi]
      rcases hr with hr | hr
      · cases i with
        | mk dt v d g rq rt gf => cases gf <;> simp_all
      · cases i with
        | mk dt v d g rq rt gf => simp_all
    · rw [hj]
      cases j with
      | mk dt v d g rq rt gf => cases gf <;> simp [List.count_cons, hpx]
  · rw [List.getElem?_eq_none hx] at hj
    simp at hj

/-! ### Programs -/

/-- If the program completes, the effect is as described by `Upd`. -/
def Does {α : Type} (x : M F α) (h : Heap F) (l m : List Nat) : Prop := ∀ a h', x h = .ok a h' → Upd l m h h'

theorem Does.bind {α β : Type} {x : M F α} {f : α → M F β} {h : Heap F} {l m l' m' : List Nat}
    (hx : Does x h l m) (hf : ∀ a h', x h = .ok a h' → Does (f a) h' l' m') : Does (x >>= f) h (l ++ l') (m ++ m') := by
  intro b h2 e
  rw [M.bind_def] at e
  cases hxh : x h with
  | ok a h1 => rw [hxh] at e; exact (hx a h1 hxh).trans (hf a h1 hxh b h2 e)
  | throw e' h1 => rw [hxh] at e; simp at e
  | ub u => rw [hxh] at e; simp at e

/-- A step that changes no tensor. -/
theorem Does.bind0 {α β : Type} {x : M F α} {f : α → M F β} {h : Heap F} {l m : List Nat}
    (hx : Does x h [] []) (hf : ∀ a h', x h = .ok a h' → Does (f a) h' l m) : Does (x >>= f) h l m :=
  Does.bind hx hf

/-- A step that changes nothing. -/
theorem Does.read {α β : Type} {x : M F α} {f : α → M F β} {h : Heap F} {l m : List Nat}
    (hx : Keeps (fun a b : Heap F => b = a) x) (hf : ∀ a, x h = .ok a h → Does (f a) h l m) : Does (x >>= f) h l m := by
  intro b h2 e
  rw [M.bind_def] at e
  have hk := hx h
  cases hxh : x h with
  | ok a h1 =>
    rw [hxh] at e hk
    have : h1 = h := hk
    subst this
    exact hf a hxh b h2 e
  | throw e' h1 => rw [hxh] at e; simp at e
  | ub u => rw [hxh] at e; simp at e

theorem does_pure {α : Type} (a : α) (h : Heap F) : Does (pure a : M F α) h [] [] := by
  intro b h' e
  injection e with e1 e2
  subst e2
  exact upd_refl _

theorem does_undef {α : Type} (u : UB) (h : Heap F) (l m : List Nat) : Does (M.undef u : M F α) h l m := by
  intro b h' e
  cases e

theorem does_raise {α : Type} (u : Exc) (h : Heap F) (l m : List Nat) : Does (M.raise u : M F α) h l m := by
  intro b h' e
  cases e

theorem does_writes {α : Type} {x : M F α} {D : Nat → Prop} (hx : Keeps (Writes D) x) (h : Heap F) : Does x h [] [] := by
  intro b h' e
  have := hx h
  rw [e] at this
  exact upd_of_ts this.ts this.gver

theorem getT_some {t : Nat} {h h' : Heap F} {i : Impl} (e : getT t h = .ok i h') : h.ts[t]? = some i := by
  have := post_getT (I := fun _ => True) (t := t) (h := h) trivial
  rw [e] at this
  exact this.2.2

theorem inputAt_some {g : GradFn} {k a : Nat} {h h' : Heap F} (e : inputAt g k h = .ok a h') : g.inputs[k]? = some a := by
  unfold inputAt vecAt at e
  cases hk : g.inputs[k]? with
  | none => rw [hk] at e; cases e
  | some b => rw [hk] at e; cases e; rfl

variable [FOps F]

theorem does_newS (s : Storage F) (h : Heap F) : Does (newS s) h [] [] := by
  intro b h' e
  cases e
  exact upd_of_ts rfl rfl

theorem does_createOn (dt : DType) (v : Layout) (d : Nat) (h : Heap F) : Does (createOn dt v d) h [] [] := by
  intro b h' e
  cases e
  exact upd_newT rfl

theorem does_create (dt : DType) (v : Layout) (b : Bool) (h : Heap F) : Does (create dt v b) h [] [] := by
  unfold create mkStorage
  refine Does.bind0 ?_ fun d h1 _ => does_createOn _ _ _ _
  split
  · split
    · exact does_newS _ _
    · exact does_raise _ _ _ _
  · exact does_newS _ _

theorem does_allocS (d : Nat) (h : Heap F) : Does (allocS d) h [] [] := by
  unfold allocS
  refine Does.read (keeps_getS _) fun s _ => ?_
  split
  · intro b h' e
    cases e
    exact upd_of_ts rfl rfl
  · exact does_raise _ _ _ _

theorem does_setGrad {p : Nat} {i : Impl} {h : Heap F} (hi : h.ts[p]? = some i) (hn : i.grad = none) (gr : Nat) :
    Does (setT p { i with grad := some gr }) h [] [p] := by
  intro b h' e
  cases e
  exact upd_setGrad hi hn gr

theorem does_tryAccUpdate (p : Nat) (h : Heap F) : Does (tryAccUpdate p) h [p] [p] := by
  unfold tryAccUpdate
  refine Does.read (keeps_getT _) fun i hi => ?_
  have hi := getT_some hi
  have rest : ∀ (H : Heap F), (∃ k, H.ts[p]? = some k ∧ k.grad = i.grad) → Does (match i.grad with
    | none => do
      let g ← INNC.create i.dtype i.view true
      let i ← getT p
      INNC.setT p { i with grad := some g }
      let gi ← getT g
      zeroS gi.data
    | some g => do
      let gi ← getT g
      let al ← isAllocS gi.data
      if !al then do
        INNC.allocS gi.data
        zeroS gi.data
      else pure () : M F Unit) H [] [p] := by
    intro H hH
    cases hgr : i.grad with
    | none =>
      refine Does.bind0 (does_create _ _ _ _) fun g h1 e1 => ?_
      refine Does.read (keeps_getT _) fun j hj => ?_
      have hj := getT_some hj
      have hn : j.grad = none := by
        obtain ⟨k, hk, hkg⟩ := hH
        obtain ⟨gr, f1, f2, _⟩ := (does_create _ _ _ _ _ _ e1).old p k hk
        rw [hj] at f1
        rw [Option.some.inj f1]
        simp only
        rw [f2 (by simp), hkg, hgr]
      exact Does.bind (l := []) (m := [p]) (m' := []) (does_setGrad hj hn _) fun _ h2 _ =>
        Does.read (keeps_getT _) fun gi _ => does_writes (keeps_zeroS (D := fun _ => True) trivial) _
    | some g =>
      have : Does (do
        let gi ← getT g
        let al ← isAllocS gi.data
        if !al then do
          INNC.allocS gi.data
          zeroS gi.data
        else pure () : M F Unit) H [] [] := by
        refine Does.read (keeps_getT _) fun gi _ => ?_
        refine Does.read (keeps_isAllocS _) fun al _ => ?_
        split
        · exact Does.bind0 (does_allocS _ _) fun _ h1 _ => does_writes (keeps_zeroS (D := fun _ => True) trivial) _
        · exact does_pure _ _
      refine fun b h' e => (this b h' e).weaken (by simp) fun x hx _ j hj _ => ?_
      obtain ⟨k, hk, hkg⟩ := hH
      rw [List.mem_singleton.1 hx, hk] at hj
      rw [← Option.some.inj hj, hkg, hgr]; rfl
  by_cases hr : i.requiresGrad = true
  · rw [if_neg (by simp [hr])]
    cases hg : i.gradFn with
    | none =>
      intro b h' e
      exact (upd_one hi (.inr hg)).trans (rest h ⟨i, hi, rfl⟩ b h' e)
    | some g =>
      refine Does.bind (l := [p]) (m := []) (l' := []) (m' := [p]) (fun b h' e => by cases e; exact upd_setAcc hi hr hg) fun _ h1 e1 => rest _ ?_
      cases e1
      exact ⟨_, List.getElem?_set_self (getElem?_lt hi), rfl⟩
  · rw [if_pos (by simp [hr])]
    intro b h' e
    cases e
    refine (upd_one hi (.inl (by simpa using hr))).weaken (by simp) fun x hx _ j hj hjr => ?_
    rw [List.mem_singleton.1 hx, hi] at hj
    rw [← Option.some.inj hj] at hjr
    exact absurd hjr hr

theorem does_mulAddF (d a b : Nat) (h : Heap F) : Does (mulAddF d a b) h [] [] := by
  unfold mulAddF
  refine Does.read (keeps_getT _) fun i _ => ?_
  refine Does.read (keeps_getT _) fun i _ => ?_
  refine Does.read (keeps_getT _) fun i _ => ?_
  split
  · exact does_writes (keeps_tensorMulAccF (D := fun _ => True) trivial _ _ _ _ _) _
  · exact does_undef _ _ _ _

theorem does_addAssign (t r : Nat) (h : Heap F) : Does (addAssign t r) h [] [] := by
  unfold addAssign
  refine Does.read (keeps_getT _) fun i _ => ?_
  refine Does.read (keeps_expect _) fun _ _ => ?_
  refine Does.read (keeps_getT _) fun i _ => ?_
  exact does_writes (keeps_tensorAdd (D := fun _ => True) trivial _ _ _ _) _

theorem does_tryAccGrad (p : Nat) (w o : Option Nat) (h : Heap F) : Does (tryAccGrad p w o) h [p] [p] := by
  unfold tryAccGrad
  refine Does.read (keeps_getT _) fun i hi => ?_
  have hi := getT_some hi
  by_cases hr : i.requiresGrad = true
  · rw [if_neg (by simp [hr])]
    refine Does.bind (l := [p]) (m := [p]) (l' := []) (m' := []) (does_tryAccUpdate p h) fun _ h1 _ => ?_
    cases w with
    | none => cases o with
      | none => exact does_pure _ _
      | some o => exact does_undef _ _ _ _
    | some w => cases o with
      | none => exact Does.read (keeps_derefGrad _) fun g _ => does_addAssign _ _ _
      | some o =>
        refine Does.read (keeps_getT _) fun wi _ => ?_
        refine Does.read (keeps_derefGrad _) fun g _ => ?_
        split
        · exact does_mulAddF _ _ _ _
        · exact does_mulAddF _ _ _ _
  · rw [if_pos (by simp [hr])]
    intro b h' e
    cases e
    refine (upd_one hi (.inl (by simpa using hr))).weaken (by simp) fun x hx _ j hj hjr => ?_
    rw [List.mem_singleton.1 hx, hi] at hj
    rw [← Option.some.inj hj] at hjr
    exact absurd hjr hr

theorem does_catBackGo (t dim : Nat) : ∀ (xs : List Nat) (s : Nat) (h : Heap F), Does (catBackGo t dim s xs) h xs xs
  | [], _, h => does_pure _ _
  | x :: xs, s, h => by
    unfold catBackGo
    refine Does.read (keeps_getT _) fun i _ => ?_
    refine Does.read (keeps_getT _) fun i _ => ?_
    refine Does.read (keeps_lift _) fun i _ => ?_
    refine Does.read (keeps_derefGrad _) fun i _ => ?_
    refine Does.read (keeps_getT _) fun i _ => ?_
    refine Does.bind0 (does_createOn _ _ _ _) fun r h1 _ => ?_
    refine Does.bind (l := [x]) (m := [x]) (does_tryAccGrad _ _ _ _) fun _ h2 _ => ?_
    refine Does.read (keeps_getT _) fun i _ => ?_
    refine Does.read (keeps_lift _) fun i _ => ?_
    exact does_catBackGo t dim xs _ _

theorem does_divBackNum (d a b : Nat) (h : Heap F) : Does (divBackNum d a b) h [] [] := by
  unfold divBackNum
  refine Does.read (keeps_getT _) fun i _ => ?_
  refine Does.read (keeps_getT _) fun i _ => ?_
  refine Does.read (keeps_getT _) fun i _ => ?_
  split
  · exact does_writes (keeps_tensorDivBackNum (D := fun _ => True) trivial _ _ _ _ _) _
  · exact does_undef _ _ _ _

theorem does_divBackDen (t d : Nat) (h : Heap F) : Does (divBackDen t d) h [] [] := by
  unfold divBackDen
  refine Does.read (keeps_getT _) fun i _ => ?_
  refine Does.read (keeps_getT _) fun i _ => ?_
  split
  · refine Does.read (keeps_derefGrad _) fun _ _ => ?_
    refine Does.read (keeps_derefGrad _) fun _ _ => ?_
    refine Does.read (keeps_getT _) fun i _ => ?_
    refine Does.read (keeps_getT _) fun i _ => ?_
    exact does_writes (keeps_tensorDivBackDen (D := fun _ => True) trivial _ _ _ _ _) _
  · exact does_undef _ _ _ _

theorem does_createScalar (dt : DType) (v : Val F) (h : Heap F) : Does (createScalar dt v) h [] [] := by
  unfold createScalar
  refine Does.bind0 (does_create _ _ _ _) fun t h1 _ => ?_
  refine Does.read (keeps_getT _) fun i _ => ?_
  exact Does.bind0 (does_writes (keeps_store (D := fun _ => True) trivial _ _ _) _) fun _ h2 _ => does_pure _ _

theorem does_ones (sizes : List Nat) (dt : DType) (h : Heap F) : Does (ones sizes dt) h [] [] := by
  unfold ones
  refine Does.bind0 (does_createScalar _ _ _) fun t h1 _ => ?_
  refine Does.bind0 (does_create _ _ _ _) fun t h1 _ => ?_
  refine Does.read (keeps_getT _) fun i _ => ?_
  refine Does.read (keeps_getT _) fun i _ => ?_
  exact Does.bind0 (does_writes (keeps_tensorFill (D := fun _ => True) trivial _ _ _) _) fun _ h2 _ => does_pure _ _

theorem does_onesLike (t : Nat) (h : Heap F) : Does (onesLike t) h [] [] := by
  unfold onesLike
  exact Does.read (keeps_getT _) fun i _ => does_ones _ _ _

theorem does_full (sizes : List Nat) (n : DType) (v : Val F) (dt : DType) (h : Heap F) : Does (full sizes n v dt) h [] [] := by
  unfold full
  refine Does.bind0 (does_createScalar _ _ _) fun t h1 _ => ?_
  refine Does.bind0 (does_create _ _ _ _) fun t h1 _ => ?_
  refine Does.read (keeps_getT _) fun i _ => ?_
  refine Does.read (keeps_getT _) fun i _ => ?_
  exact Does.bind0 (does_writes (keeps_tensorFill (D := fun _ => True) trivial _ _ _) _) fun _ h2 _ => does_pure _ _

theorem does_input {β : Type} {g : GradFn} {k a : Nat} {f : Nat → M F β} {h : Heap F} {l m : List Nat}
    (hk : g.inputs[k]? = some a) (hf : Does (f a) h l m) : Does (inputAt g k >>= f) h l m :=
  Does.read (keeps_inputAt _ _) fun b hb => by
    have := inputAt_some hb
    rw [hk] at this
    obtain rfl := Option.some.inj this
    exact hf

theorem length_two {l : List Nat} (h : l.length = 2) : ∃ a b, l = [a, b] := by
  match l, h with
  | [a, b], _ => exact ⟨a, b, rfl⟩

theorem length_one {l : List Nat} (h : l.length = 1) : ∃ a, l = [a] := by
  match l, h with
  | [a], _ => exact ⟨a, rfl⟩

theorem does_stepBack (t : Nat) (g : GradFn) (ha : Arity g.kind g.inputs.length) (h : Heap F) :
    Does (stepBack t g) h g.inputs g.inputs := by
  unfold stepBack
  unfold Arity at ha
  cases hk : g.kind with
  | add =>
    rw [hk] at ha
    obtain ⟨a, b, e⟩ := length_two ha
    have e0 : g.inputs[0]? = some a := by rw [e]; rfl
    have e1 : g.inputs[1]? = some b := by rw [e]; rfl
    rw [e]
    refine does_input e0 ?_
    refine Does.read (keeps_derefGrad _) fun o _ => ?_
    refine Does.bind (l := [a]) (m := [a]) (does_tryAccGrad _ _ _ _) fun _ h1 _ => ?_
    refine does_input e1 ?_
    exact Does.read (keeps_derefGrad _) fun o _ => does_tryAccGrad _ _ _ _
  | sub =>
    rw [hk] at ha
    obtain ⟨a, b, e⟩ := length_two ha
    have e0 : g.inputs[0]? = some a := by rw [e]; rfl
    have e1 : g.inputs[1]? = some b := by rw [e]; rfl
    rw [e]
    refine does_input e0 ?_
    refine Does.read (keeps_derefGrad _) fun o _ => ?_
    refine Does.bind (l := [a]) (m := [a]) (does_tryAccGrad _ _ _ _) fun _ h1 _ => ?_
    refine Does.bind0 (does_createScalar _ _ _) fun m h2 _ => ?_
    refine does_input e1 ?_
    exact Does.read (keeps_derefGrad _) fun o _ => does_tryAccGrad _ _ _ _
  | mul =>
    rw [hk] at ha
    obtain ⟨a, b, e⟩ := length_two ha
    have e0 : g.inputs[0]? = some a := by rw [e]; rfl
    have e1 : g.inputs[1]? = some b := by rw [e]; rfl
    rw [e]
    refine does_input e0 ?_
    refine does_input e1 ?_
    refine Does.read (keeps_derefGrad _) fun o _ => ?_
    refine Does.bind (l := [a]) (m := [a]) (does_tryAccGrad _ _ _ _) fun _ h1 _ => ?_
    refine does_input e1 ?_
    refine does_input e0 ?_
    exact Does.read (keeps_derefGrad _) fun o _ => does_tryAccGrad _ _ _ _
  | div =>
    rw [hk] at ha
    obtain ⟨a, b, e⟩ := length_two ha
    have e0 : g.inputs[0]? = some a := by rw [e]; rfl
    have e1 : g.inputs[1]? = some b := by rw [e]; rfl
    rw [e]
    refine does_input e0 ?_
    refine does_input e1 ?_
    refine Does.bind (l := [a]) (m := [a]) (does_tryAccUpdate _ _) fun _ h1 _ => ?_
    refine Does.read (keeps_derefGrad _) fun o _ => ?_
    refine Does.read (keeps_derefGrad _) fun o _ => ?_
    refine Does.bind0 (does_divBackNum _ _ _ _) fun _ h2 _ => ?_
    exact Does.bind (l := [b]) (m := [b]) (l' := []) (m' := []) (does_tryAccUpdate _ _) fun _ h3 _ => does_divBackDen _ _ _
  | sum =>
    rw [hk] at ha
    obtain ⟨a, e⟩ := length_one ha
    have e0 : g.inputs[0]? = some a := by rw [e]; rfl
    rw [e]
    refine does_input e0 ?_
    refine Does.bind0 (does_onesLike _ _) fun _ h2 _ => ?_
    exact Does.read (keeps_derefGrad _) fun o _ => does_tryAccGrad _ _ _ _
  | mean =>
    rw [hk] at ha
    obtain ⟨a, e⟩ := length_one ha
    have e0 : g.inputs[0]? = some a := by rw [e]; rfl
    rw [e]
    refine does_input e0 ?_
    refine Does.read (keeps_getT _) fun i _ => ?_
    exact Does.bind0 (does_full _ _ _ _ _) fun _ h2 _ => does_tryAccGrad _ _ _ _
  | noBack =>
    rw [hk] at ha
    obtain ⟨a, e⟩ := length_one ha
    have e0 : g.inputs[0]? = some a := by rw [e]; rfl
    rw [e]
    refine does_input e0 ?_
    exact does_tryAccGrad _ _ _ _
  | clone =>
    rw [hk] at ha
    obtain ⟨a, e⟩ := length_one ha
    have e0 : g.inputs[0]? = some a := by rw [e]; rfl
    rw [e]
    refine does_input e0 ?_
    exact Does.read (keeps_derefGrad _) fun o _ => does_tryAccGrad _ _ _ _
  | cat dim => exact does_catBackGo _ _ _ _ _
  | knownGrad k =>
    rw [hk] at ha
    obtain ⟨a, e⟩ := length_one ha
    have e0 : g.inputs[0]? = some a := by rw [e]; rfl
    rw [e]
    refine does_input e0 ?_
    exact Does.read (keeps_derefGrad _) fun o _ => does_tryAccGrad _ _ _ _

end INNC
