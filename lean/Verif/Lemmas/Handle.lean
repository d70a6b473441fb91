import Verif.Spec.Handle
import Verif.Lemmas.Monad
/-
Programs with variables of type `Tensor`.
-/
namespace INNC
open Spec Tensor
section
variable {F : Type}

theorem on_eq_rename (σ : Nat → Nat) (c : Call F) : c.on σ = rename σ c := by cases c <;> rfl

theorem on_congr {σ τ : Nat → Nat} {c : Call F} (h : ∀ a ∈ args c, σ a = τ a) : c.on σ = c.on τ := by
  cases c <;> simp only [args, List.mem_cons, List.not_mem_nil, or_false, forall_eq_or_imp, forall_eq] at h <;>
    simp only [Call.on, h]
  case cat ts d => rw [List.map_congr_left h]

theorem derefs_args (c : Call F) : ∀ v ∈ c.derefs, v ∈ args c := by
  cases c <;> simp [Call.derefs, args]

theorem Spec.Full.ptr {vs : List (Option Nat)} {v : Nat} (h : Full vs v) : ∃ t, Tensor.ptr vs v = some t ∧ vs[v]? = some (some t) := by
  obtain ⟨t, ht⟩ := h
  exact ⟨t, by unfold Tensor.ptr; rw [List.getD_eq_getElem?_getD, ht]; rfl, ht⟩

theorem ptr_some {vs : List (Option Nat)} {v t : Nat} : Tensor.ptr vs v = some t ↔ vs[v]? = some (some t) := by
  unfold Tensor.ptr
  rw [List.getD_eq_getElem?_getD]
  cases vs[v]? <;> simp

theorem Spec.Subvars.ptr {vs us : List (Option Nat)} (h : Subvars vs us) {v t : Nat} (ht : Tensor.ptr vs v = some t) : Tensor.ptr us v = some t :=
  ptr_some.2 (h.2 v t (ptr_some.1 ht))

variable [FOps F]

/-- A call on variables that hold tensors. -/
theorem callOn_full {vs : List (Option Nat)} {c : Call F} (h : ∀ v ∈ args c, Full vs v) (σ : Nat → Nat)
    (hσ : ∀ v ∈ args c, ptr vs v = some (σ v)) (H : Heap F) : callOn vs c H = (c.on σ).run H := by
  unfold callOn
  have h1 : (c.derefs.any fun v => (ptr vs v).isNone) = false := by
    rw [List.any_eq_false]
    intro v hv
    obtain ⟨t, ht, _⟩ := (h v (derefs_args c v hv)).ptr
    simp [ht]
  rw [h1]
  simp only [Bool.false_eq_true, if_false]
  split
  · rename_i v
    rw [hσ v (by simp [args])]
    rfl
  · rw [on_congr (τ := σ) fun a ha => by rw [hσ a ha]; rfl]

theorem callOn_within {vs us : List (Option Nat)} {c : Call F} (h : ∀ v ∈ args c, Full vs v) (hw : Subvars vs us) (H : Heap F) :
    callOn us c H = callOn vs c H := by
  have hσ : ∀ v ∈ args c, ptr vs v = some ((ptr vs v).getD 0) := fun v hv => by
    obtain ⟨t, ht, _⟩ := (h v hv).ptr
    rw [ht]; rfl
  rw [callOn_full h _ hσ, callOn_full (fun v hv => ?_) _ (fun v hv => hw.ptr (hσ v hv))]
  obtain ⟨t, _, ht⟩ := (h v hv).ptr
  exact ⟨t, hw.2 v t ht⟩

theorem Spec.Subvars.append {vs us : List (Option Nat)} (h : Subvars vs us) {o o' : Option Nat} (ho : ∀ t, o = some t → o' = some t) :
    Subvars (vs ++ [o]) (us ++ [o']) := by
  refine ⟨by simp [h.1], fun v t hv => ?_⟩
  rw [List.getElem?_append] at hv ⊢
  rw [← h.1]
  split at hv
  · rename_i hl; rw [if_pos hl]; exact h.2 v t hv
  · rename_i hl
    rw [if_neg hl]
    by_cases h0 : v - vs.length = 0
    · rw [h0] at hv ⊢
      simp at hv ⊢
      exact ho t hv
    · rw [List.getElem?_eq_none (by simp; omega)] at hv
      simp at hv

theorem Spec.Subvars.set {vs us : List (Option Nat)} (h : Subvars vs us) (a : Nat) {o o' : Option Nat} (ho : ∀ t, o = some t → o' = some t) :
    Subvars (vs.set a o) (us.set a o') := by
  refine ⟨by simp [h.1], fun v t hv => ?_⟩
  rw [List.getElem?_set] at hv ⊢
  split at hv
  · rename_i ha
    subst ha
    split at hv
    · rename_i hl
      rw [if_pos rfl, if_pos (h.1 ▸ hl)]
      rw [ho t (Option.some.inj hv)]
    · simp at hv
  · rename_i ha; rw [if_neg ha]; exact h.2 v t hv

theorem Spec.Subvars.erase {vs us : List (Option Nat)} (h : Subvars vs us) (a : Nat) : Subvars (vs.set a none) us := by
  refine ⟨by simp [h.1], fun v t hv => ?_⟩
  rw [List.getElem?_set] at hv
  split at hv
  · split at hv <;> simp at hv
  · exact h.2 v t hv

theorem exec_copying {vs us : List (Option Nat)} (hw : Subvars vs us) (s : HStmt F) (hu : ∀ v ∈ used s, Full vs v) (h : Heap F) :
    SameOut (s.exec vs h) ((copying s).exec us h) := by
  have hp : ∀ a t, ptr vs a = some t → ptr us a = some t := fun a t => hw.ptr
  cases s with
  | declare => exact ⟨rfl, hw.append (by simp)⟩
  | copy a => exact ⟨rfl, hw.append (hp a)⟩
  | take a => exact ⟨rfl, (hw.erase a).append (hp a)⟩
  | assign b a => exact ⟨rfl, hw.set b (hp a)⟩
  | give b a =>
    refine ⟨rfl, ?_⟩
    split
    · rename_i e
      subst e
      refine ⟨by simp [hw.1], fun v t hv => ?_⟩
      rw [List.getElem?_set]
      split
      · rename_i e
        subst e
        have hl : b < us.length := hw.1 ▸ (List.getElem?_eq_some_iff.1 hv).1
        rw [if_pos hl, hp b t (ptr_some.2 hv)]
      · exact hw.2 v t hv
    · exact (hw.erase a).set b (hp a)
  | call c =>
    have e := callOn_within hu hw h
    show SameOut ((callOn vs c >>= fun o => pure (if c.makes then vs ++ [o] else vs)) h) ((callOn us c >>= fun o => pure (if c.makes then us ++ [o] else us)) h)
    rw [M.bind_def, M.bind_def, e]
    cases callOn vs c h with
    | ok o h' =>
      refine ⟨rfl, ?_⟩
      split
      · exact hw.append (fun _ => id)
      · exact hw
    | throw e h' => exact ⟨rfl, rfl⟩
    | ub u => exact rfl
  | attempt c =>
    have e := callOn_within hu hw h
    simp only [copying, HStmt.exec, e]
    cases callOn vs c h with
    | ok o h' => exact ⟨rfl, hw⟩
    | throw e h' => exact ⟨rfl, hw⟩
    | ub u => exact rfl

theorem execAll_copying : ∀ (p : List (HStmt F)) {vs us : List (Option Nat)} {h : Heap F}, Subvars vs us → NeverEmpty p vs h →
    SameOut (execAll p vs h) (execAll (p.map copying) us h)
  | [], vs, us, h, hw, _ => ⟨rfl, hw⟩
  | s :: p, vs, us, h, hw, hc => by
    show SameOut ((s.exec vs >>= execAll p) h) (((copying s).exec us >>= execAll (p.map copying)) h)
    have e := exec_copying hw s hc.2.1 h
    rw [M.bind_def, M.bind_def]
    cases e1 : s.exec vs h with
    | ok vs' h' =>
      rw [e1] at e
      cases e2 : (copying s).exec us h with
      | ok us' h2 =>
        rw [e2] at e
        obtain ⟨rfl, hw'⟩ := e
        exact execAll_copying p hw' (hc.2.2 _ _ e1)
      | throw _ _ => rw [e2] at e; exact e.elim
      | ub _ => rw [e2] at e; exact e.elim
    | throw x h' =>
      rw [e1] at e
      cases e2 : (copying s).exec us h with
      | ok _ _ => rw [e2] at e; exact e.elim
      | throw _ _ => rw [e2] at e; exact e
      | ub _ => rw [e2] at e; exact e.elim
    | ub u =>
      rw [e1] at e
      cases e2 : (copying s).exec us h with
      | ok _ _ => rw [e2] at e; exact e.elim
      | throw _ _ => rw [e2] at e; exact e.elim
      | ub _ => rw [e2] at e; exact e

/-- A null pointer that is passed on is dereferenced. -/
theorem getAll_null : ∀ (l : List Nat) {h : Heap F}, (∃ a ∈ l, h.ts[a]? = none) → getAll l h = .ub .nullptr
  | [], h, hn => by obtain ⟨_, h1, _⟩ := hn; simp at h1
  | a :: l, h, hn => by
    unfold getAll
    cases ha : h.ts[a]? with
    | none =>
      have : (getT a : M F Impl) h = .ub .nullptr := by unfold getT; rw [ha]
      rw [M.bind_def, this]
    | some i =>
      have hg : (getT a : M F Impl) h = .ok i h := by unfold getT; rw [ha]
      have hr := getAll_null l (h := h) (by
        obtain ⟨b, hb, hb'⟩ := hn
        rcases List.mem_cons.1 hb with rfl | hb
        · rw [ha] at hb'; simp at hb'
        · exact ⟨b, hb, hb'⟩)
      rw [M.bind_def, hg]
      simp only
      rw [M.bind_def, hr]

theorem null_get {a : Nat} {h : Heap F} (ha : h.ts[a]? = none) : (getT a : M F Impl) h = .ub .nullptr := by unfold getT; rw [ha]

theorem callOn_empty {vs : List (Option Nat)} {c : Call F} (hc : ∀ v, c ≠ .toString v) {v : Nat} (hv : v ∈ args c) (he : ptr vs v = none)
    (h : Heap F) : callOn vs c h = .ub .nullptr ∨ ∃ e, callOn vs c h = .throw e h := by
  unfold callOn
  by_cases hd : v ∈ c.derefs
  · rw [if_pos (List.any_eq_true.2 ⟨v, hd, by simp [he]⟩)]
    exact .inl rfl
  · split
    · exact .inl rfl
    · rename_i hnd
      clear hnd
      have hnull : h.ts[(ptr vs v).getD h.ts.length]? = none := by rw [he]; simp
      cases c <;> simp only [args, Call.derefs, List.mem_cons, List.not_mem_nil, or_false, not_true_eq_false] at hv hd <;> try (exact absurd hv hd)
      case transpose t a b =>
        subst hv
        left
        simp only [Call.on, Call.run, some', Tensor.transpose]
        rw [M.bind_def, M.bind_def, null_get hnull]
      case reshape t s =>
        subst hv
        left
        simp only [Call.on, Call.run, some', Tensor.reshape]
        rw [M.bind_def, M.bind_def, null_get hnull]
      case toString t => exact absurd rfl (hc t)
      case cat ts d =>
        cases ts with
        | nil => simp at hv
        | cons t ts =>
          simp only [Call.on, Call.run, some', Tensor.catT, List.map_cons]
          cases h0 : h.ts[(ptr vs t).getD h.ts.length]? with
          | none => left; rw [M.bind_def, M.bind_def, null_get h0]
          | some i =>
            have hg : (getT ((ptr vs t).getD h.ts.length) : M F Impl) h = .ok i h := by unfold getT; rw [h0]
            rw [M.bind_def, M.bind_def, hg]
            simp only
            rw [M.bind_def]
            cases hx : decide (d < i.view.sizes.length) with
            | false => right; exact ⟨_, rfl⟩
            | true =>
              left
              have hm : getAll (ts.map fun v => (ptr vs v).getD h.ts.length) h = .ub .nullptr := getAll_null _ (by
                rcases List.mem_cons.1 hv with rfl | hv
                · rw [hnull] at h0; simp at h0
                · exact ⟨_, List.mem_map_of_mem hv, hnull⟩)
              have he : (expect true : M F Unit) h = .ok () h := rfl
              rw [he]
              simp only
              rw [M.bind_def, hm]

theorem some'_full {x : M F Nat} {h h' : Heap F} {o : Option Nat} (e : some' x h = .ok o h') : ∃ t, o = some t := by
  unfold some' at e
  rw [M.bind_def] at e
  cases hx : x h with
  | ok t h1 => rw [hx] at e; injection e with e1 e2; exact ⟨t, e1.symm⟩
  | throw _ _ => rw [hx] at e; cases e
  | ub _ => rw [hx] at e; cases e

theorem none'_full {α : Type} {x : M F α} {h h' : Heap F} {o : Option Nat} (e : none' x h = .ok o h') : o = none := by
  unfold none' at e
  rw [M.bind_def] at e
  cases hx : x h with
  | ok t h1 => rw [hx] at e; injection e with e1 e2; exact e1.symm
  | throw _ _ => rw [hx] at e; cases e
  | ub _ => rw [hx] at e; cases e

/-- What a call returns. -/
theorem run_makes {c : Call F} (hs : Solid (.call c)) (σ : Nat → Nat) {h h' : Heap F} {o : Option Nat} (e : (c.on σ).run h = .ok o h') :
    if c.makes then ∃ t, o = some t else o = none := by
  cases c <;> first
    | exact hs.elim
    | exact some'_full e
    | exact none'_full e
    | skip
  case randnLike rnd t =>
    simp only [Call.on, Call.run] at e
    rw [M.bind_def] at e
    cases hx : (getT (σ t) : M F Impl) h with
    | ok i h1 => rw [hx] at e; exact some'_full e
    | throw _ _ => rw [hx] at e; cases e
    | ub _ => rw [hx] at e; cases e

/-- The commands of C55, as statements. -/
theorem execAll_perform : ∀ (p : List (Command F)) {vs : List Nat} {h : Heap F}, (∀ c ∈ p, Solid c) →
    NeverEmpty (p.map statement) (vs.map some) h →
    execAll (p.map statement) (vs.map some) h = (perform p vs >>= fun us => pure (us.map some)) h
  | [], vs, h, _, _ => rfl
  | .call c :: p, vs, h, hs, hn => by
    have hp : ∀ v ∈ args c, ptr (vs.map some) v = some (vs.getD v 0) := fun v hv => by
      have hl := hn.1 v hv
      rw [List.length_map] at hl
      rw [ptr_some, List.getElem?_map, List.getElem?_eq_getElem hl, List.getD_eq_getElem?_getD, List.getElem?_eq_getElem hl]
      rfl
    have hc := callOn_full hn.2.1 (fun v => vs.getD v 0) hp h
    have hx : (HStmt.call c).exec (vs.map some) h = (callOn (vs.map some) c >>= fun o => pure (if c.makes then vs.map some ++ [o] else vs.map some)) h := rfl
    rw [M.bind_def, hc, on_eq_rename] at hx
    show ((HStmt.call c).exec (vs.map some) >>= execAll (p.map statement)) h =
      (((rename (fun v => vs.getD v 0) c).run >>= fun o => perform p (vs ++ o.toList)) >>= fun us => pure (us.map some)) h
    rw [M.bind_def (x := do let o ← (rename (fun v => vs.getD v 0) c).run; perform p (vs ++ o.toList))]
    rw [M.bind_def, M.bind_def]
    cases e : (rename (fun v => vs.getD v 0) c).run h with
    | ok o h1 =>
      rw [e] at hx
      have hm := run_makes (c := c) (hs (.call c) (by simp)) (fun v => vs.getD v 0) (by rw [on_eq_rename]; exact e)
      have hv : (if c.makes then vs.map some ++ [o] else vs.map some) = (vs ++ o.toList).map some := by
        split at hm
        · obtain ⟨t, rfl⟩ := hm; rename_i hm; simp [hm]
        · subst hm; rename_i hm; simp [hm]
      have hx' : (HStmt.call c).exec (vs.map some) h = .ok ((vs ++ o.toList).map some) h1 := by rw [hx, ← hv]; rfl
      have := execAll_perform p (vs := vs ++ o.toList) (h := h1) (fun c hc => hs c (by simp [hc])) (hn.2.2 _ _ hx')
      rw [hx']
      rw [M.bind_def] at this
      exact this
    | throw x h1 => rw [e] at hx; rw [hx]
    | ub u => rw [e] at hx; rw [hx]
  | .copy v :: p, vs, h, hs, hn => by
    have hl : v < (vs.map some).length := hn.1 v (by simp [statement, named])
    rw [List.length_map] at hl
    have hp : ptr (vs.map some) v = some (vs.getD v 0) := by
      rw [ptr_some, List.getElem?_map, List.getElem?_eq_getElem hl, List.getD_eq_getElem?_getD, List.getElem?_eq_getElem hl]
      rfl
    have hx : (HStmt.copy v : HStmt F).exec (vs.map some) h = .ok ((vs ++ [vs.getD v 0]).map some) h := by
      show Out.ok (vs.map some ++ [ptr (vs.map some) v]) h = _
      rw [hp]; simp
    have := execAll_perform p (vs := vs ++ [vs.getD v 0]) (h := h) (fun c hc => hs c (by simp [hc])) (hn.2.2 _ _ hx)
    show ((HStmt.copy v).exec (vs.map some) >>= execAll (p.map statement)) h = _
    rw [M.bind_def, hx]
    exact this
  | .assign v u :: p, vs, h, hs, hn => by
    have hl : u < (vs.map some).length := hn.1 u (by simp [statement, named])
    rw [List.length_map] at hl
    have hp : ptr (vs.map some) u = some (vs.getD u 0) := by
      rw [ptr_some, List.getElem?_map, List.getElem?_eq_getElem hl, List.getD_eq_getElem?_getD, List.getElem?_eq_getElem hl]
      rfl
    have hx : (HStmt.assign v u : HStmt F).exec (vs.map some) h = .ok ((vs.set v (vs.getD u 0)).map some) h := by
      show Out.ok ((vs.map some).set v (ptr (vs.map some) u)) h = _
      rw [hp, List.map_set]
    have := execAll_perform p (vs := vs.set v (vs.getD u 0)) (h := h) (fun c hc => hs c (by simp [hc])) (hn.2.2 _ _ hx)
    show ((HStmt.assign v u).exec (vs.map some) >>= execAll (p.map statement)) h = _
    rw [M.bind_def, hx]
    exact this
  | .attempt v :: p, vs, h, hs, hn => by
    have hl : v < (vs.map some).length := hn.1 v (by simp [statement, named, args])
    rw [List.length_map] at hl
    have hp : ∀ a ∈ args (.backward v : Call F), ptr (vs.map some) a = some (vs.getD a 0) := fun a ha => by
      obtain rfl : a = v := by simpa [args] using ha
      rw [ptr_some, List.getElem?_map, List.getElem?_eq_getElem hl, List.getD_eq_getElem?_getD, List.getElem?_eq_getElem hl]
      rfl
    have hc := callOn_full (c := (.backward v : Call F)) hn.2.1 (fun v => vs.getD v 0) hp h
    have hb : callOn (vs.map some) (.backward v) h = none' (backward (vs.getD v 0)) h := hc
    unfold none' at hb
    rw [M.bind_def] at hb
    show ((HStmt.attempt (.backward v)).exec (vs.map some) >>= execAll (p.map statement)) h =
      (perform (.attempt v :: p) vs >>= fun us => pure (us.map some)) h
    rw [M.bind_def, M.bind_def]
    simp only [HStmt.exec, perform]
    cases e : backward (vs.getD v 0) h with
    | ok a h1 =>
      rw [e] at hb
      rw [hb]
      have hx : (HStmt.attempt (.backward v) : HStmt F).exec (vs.map some) h = .ok (vs.map some) h1 := by simp only [HStmt.exec, hb]; rfl
      have := execAll_perform p (vs := vs) (h := h1) (fun c hc => hs c (by simp [hc])) (hn.2.2 _ _ hx)
      rw [M.bind_def] at this
      exact this
    | throw x h1 =>
      rw [e] at hb
      rw [hb]
      have hx : (HStmt.attempt (.backward v) : HStmt F).exec (vs.map some) h = .ok (vs.map some) h1 := by simp only [HStmt.exec, hb]
      have := execAll_perform p (vs := vs) (h := h1) (fun c hc => hs c (by simp [hc])) (hn.2.2 _ _ hx)
      rw [M.bind_def] at this
      exact this
    | ub u => rw [e] at hb; rw [hb]

theorem Spec.NeverEmpty.copying : ∀ (p : List (HStmt F)) {vs us : List (Option Nat)} {h : Heap F}, Subvars vs us → NeverEmpty p vs h →
    NeverEmpty (p.map Spec.copying) us h
  | [], _, _, _, _, _ => trivial
  | s :: p, vs, us, h, hw, hc => by
    have hn : named (Spec.copying s) = named s := by cases s <;> rfl
    have hu : used (Spec.copying s) = used s := by cases s <;> rfl
    refine ⟨fun v hv => ?_, fun v hv => ?_, fun us' h' e' => ?_⟩
    · rw [hn] at hv; rw [← hw.1]; exact hc.1 v hv
    · rw [hu] at hv
      obtain ⟨t, ht⟩ := hc.2.1 v hv
      exact ⟨t, hw.2 v t ht⟩
    · have e := exec_copying hw s hc.2.1 h
      rw [e'] at e
      cases e1 : s.exec vs h with
      | ok vs1 h1 =>
        rw [e1] at e
        obtain ⟨rfl, hw'⟩ := e
        exact Spec.NeverEmpty.copying p hw' (hc.2.2 _ _ e1)
      | throw _ _ => rw [e1] at e; exact e.elim
      | ub _ => rw [e1] at e; exact e.elim

/-- Does the program use only variables that hold a tensor? -/
def neverEmpty : List (HStmt F) → List (Option Nat) → Heap F → Bool
  | [], _, _ => true
  | s :: p, vs, h => (named s).all (· < vs.length) && (used s).all (fun v => ((vs[v]?).bind id).isSome) &&
    match s.exec vs h with
    | .ok us h' => neverEmpty p us h'
    | _ => true

theorem neverEmpty_sound : ∀ (p : List (HStmt F)) {vs : List (Option Nat)} {h : Heap F}, neverEmpty p vs h = true → NeverEmpty p vs h
  | [], _, _, _ => trivial
  | s :: p, vs, h, e => by
    unfold neverEmpty at e
    simp only [Bool.and_eq_true, List.all_eq_true, decide_eq_true_eq] at e
    refine ⟨e.1.1, fun v hv => ?_, fun us h' e' => ?_⟩
    · have := e.1.2 v hv
      cases hx : vs[v]? with
      | none => rw [hx] at this; simp at this
      | some o =>
        cases o with
        | none => rw [hx] at this; simp at this
        | some t => exact ⟨t, hx⟩
    · have h2 := e.2
      rw [e'] at h2
      exact neverEmpty_sound p h2
end
end INNC
