import Verif.Lemmas.TwinRun
import Verif.Lemmas.Existing
import Verif.Lemmas.Ends
import Verif.Lemmas.Handle
import Verif.Spec.Interleave
/-
A program in a state that holds a copy of its objects beside other ones.
-/
namespace INNC
open Spec Tensor
section
variable {F : Type}

/-- The clocks of two states, of which nothing else is known. -/
def apartClocks (h k : Heap F) : Clocks := ⟨h.gver, k.gver, False, False.elim⟩

/-- The second state holds a copy of the first one under other names. -/
structure Inside (W : Naming F) (h k : Heap F) : Prop where
  ts : ∀ x i, h.ts[x]? = some i → ∃ i', k.ts[W.t x]? = some i' ∧ TwinImpl W (apartClocks h k) i i'
  st : ∀ d, d < h.st.length → k.st[W.s d]? = h.st[d]?

theorem Inside.lt {W : Naming F} {h k : Heap F} (H : Inside W h k) {x : Nat} (hx : x < h.ts.length) : W.t x < k.ts.length := by
  obtain ⟨i', hi, _⟩ := H.ts x _ (List.getElem?_eq_getElem hx)
  exact lt_of_get hi

theorem Inside.ltS {W : Naming F} {h k : Heap F} (H : Inside W h k) {x : Nat} (hx : x < h.st.length) : W.s x < k.st.length := by
  have := H.st x hx
  by_contra hc
  rw [List.getElem?_eq_none (by omega), List.getElem?_eq_getElem hx] at this
  cases this

/-- New objects get the next names. -/
def Naming.extend (W : Naming F) (h k : Heap F) (H : Inside W h k) : Naming F where
  t x := if x < h.ts.length then W.t x else k.ts.length + (x - h.ts.length)
  s x := if x < h.st.length then W.s x else k.st.length + (x - h.st.length)
  tinj a b e := by
    dsimp only at e
    split at e <;> split at e
    · exact W.tinj e
    · have := H.lt ‹a < _›; omega
    · have := H.lt ‹b < _›; omega
    · omega
  sinj a b e := by
    dsimp only at e
    split at e <;> split at e
    · exact W.sinj e
    · have := H.ltS ‹a < _›; omega
    · have := H.ltS ‹b < _›; omega
    · omega
  base := k

theorem extend_old {W : Naming F} {h k : Heap F} (H : Inside W h k) {x : Nat} (hx : x < h.ts.length) : (W.extend h k H).t x = W.t x :=
  if_pos hx

theorem extend_new {W : Naming F} {h k : Heap F} (H : Inside W h k) (j : Nat) : (W.extend h k H).t (h.ts.length + j) = k.ts.length + j := by
  show (if _ then _ else _) = _
  rw [if_neg (by omega), Nat.add_sub_cancel_left]

theorem extendS_old {W : Naming F} {h k : Heap F} (H : Inside W h k) {x : Nat} (hx : x < h.st.length) : (W.extend h k H).s x = W.s x :=
  if_pos hx

theorem extendS_new {W : Naming F} {h k : Heap F} (H : Inside W h k) (j : Nat) : (W.extend h k H).s (h.st.length + j) = k.st.length + j := by
  show (if _ then _ else _) = _
  rw [if_neg (by omega), Nat.add_sub_cancel_left]

theorem twinImpl_rename {W W' : Naming F} {V : Clocks} {h : Heap F} (E : Existing h) {x : Nat} {i i' : Impl} (hi : h.ts[x]? = some i)
    (ht : ∀ x, x < h.ts.length → W'.t x = W.t x) (hs : ∀ x, x < h.st.length → W'.s x = W.s x) (H : TwinImpl W V i i') :
    TwinImpl W' V i i' := by
  obtain ⟨f, hf, rfl⟩ := H
  refine ⟨f, ?_, ?_⟩
  · cases hfn : i.gradFn with
    | none => rw [hfn] at hf; cases hf; exact .none
    | some g =>
      rw [hfn] at hf
      cases hf with
      | some hf =>
        refine .some ⟨hf.kind.trans ?_, hf.inputs.trans ?_, hf.nOutway, hf.accOutway, hf.hv, hf.kv, hf.sync⟩
        · cases hk : g.kind with
          | knownGrad a => exact congrArg BackKind.knownGrad (ht a (E.slopes x i g a hi hfn hk)).symm
          | _ => rfl
        · exact List.map_congr_left fun y hy => (ht y (E.inputs x i g y hi hfn hy)).symm
  · unfold Naming.im
    rw [hs _ (E.data x i hi)]
    cases hg : i.grad with
    | none => rfl
    | some g => simp only [Option.map_some, ht g (E.grad x i g hi hg)]

/-- The start of a call. -/
theorem Inside.start {W : Naming F} {h k : Heap F} (H : Inside W h k) (E : Existing h) :
    Twin (W.extend h k H) (apartClocks h k) h k where
  hv := rfl
  kv := rfl
  later := le_rfl
  newT := extend_new H
  newS := extendS_new H
  ts x := by
    by_cases hx : x < h.ts.length
    · have hi := List.getElem?_eq_getElem hx
      obtain ⟨i', hi', ht⟩ := H.ts x _ hi
      rw [extend_old H hx, hi, hi']
      exact .some (twinImpl_rename E hi (fun _ => extend_old H) (fun _ => extendS_old H) ht)
    · obtain ⟨j, rfl⟩ := Nat.exists_eq_add_of_le (Nat.not_lt.1 hx)
      rw [extend_new H, List.getElem?_eq_none (by omega), List.getElem?_eq_none (by omega)]
      exact .none
  st x := by
    by_cases hx : x < h.st.length
    · rw [extendS_old H hx]
      exact H.st x hx
    · obtain ⟨j, rfl⟩ := Nat.exists_eq_add_of_le (Nat.not_lt.1 hx)
      rw [extendS_new H, List.getElem?_eq_none (by omega), List.getElem?_eq_none (by omega)]
  restT _ _ := rfl
  restS _ _ := rfl

/-- The end of a call. -/
theorem Twin.inside {W : Naming F} {V : Clocks} {h k : Heap F} (H : Twin W V h k) : Inside W h k where
  ts x i hi := by
    have := H.ts x
    rw [hi] at this
    revert this
    cases k.ts[W.t x]? with
    | none => intro h; cases h
    | some i' =>
      intro h
      cases h with
      | some h =>
        obtain ⟨f, hf, rfl⟩ := h
        refine ⟨_, rfl, f, ?_, rfl⟩
        revert hf
        cases i.gradFn with
        | none => intro hf; cases hf; exact .none
        | some g =>
          intro hf
          cases hf with
          | some hf => exact .some ⟨hf.kind, hf.inputs, hf.nOutway, hf.accOutway, hf.hv.trans H.hv.ge, hf.kv.trans H.kv.ge, False.elim⟩
  st d _ := H.st d

/-- The tensors of `h`, in `k`, are old ones or new ones. -/
structure Carried (W W' : Naming F) (h h' k k' : Heap F) : Prop where
  inside : Inside W' h' k'
  tlen : h.ts.length ≤ h'.ts.length
  slen : h.st.length ≤ h'.st.length
  old : ∀ x, x < h.ts.length → W'.t x = W.t x
  oldS : ∀ x, x < h.st.length → W'.s x = W.s x
  new : ∀ x, h.ts.length ≤ x → k.ts.length ≤ W'.t x
  newS : ∀ x, h.st.length ≤ x → k.st.length ≤ W'.s x
  rest : ∀ y, y < k.ts.length → (∀ x, x < h.ts.length → W.t x ≠ y) → k'.ts[y]? = k.ts[y]?
  restS : ∀ y, y < k.st.length → (∀ x, x < h.st.length → W.s x ≠ y) → k'.st[y]? = k.st[y]?
  later : k.gver ≤ k'.gver
  shift : ∀ j, W'.t (h.ts.length + j) = k.ts.length + j
  shiftS : ∀ j, W'.s (h.st.length + j) = k.st.length + j
  grow : k'.ts.length + h.ts.length = k.ts.length + h'.ts.length
  growS : k'.st.length + h.st.length = k.st.length + h'.st.length

theorem Inside.moved {W : Naming F} {V : Clocks} {h k h' k' : Heap F} (H : Inside W h k) (T : Twin (W.extend h k H) V h' k')
    (tlen : h.ts.length ≤ h'.ts.length) (slen : h.st.length ≤ h'.st.length) : Carried W (W.extend h k H) h h' k k' where
  inside := T.inside
  tlen := tlen
  slen := slen
  old _ := extend_old H
  oldS _ := extendS_old H
  new x hx := by
    obtain ⟨j, rfl⟩ := Nat.exists_eq_add_of_le hx
    rw [extend_new H]; omega
  newS x hx := by
    obtain ⟨j, rfl⟩ := Nat.exists_eq_add_of_le hx
    rw [extendS_new H]; omega
  rest y hy hr := T.restT y fun x => by
    by_cases hx : x < h.ts.length
    · rw [extend_old H hx]; exact hr x hx
    · obtain ⟨j, rfl⟩ := Nat.exists_eq_add_of_le (Nat.not_lt.1 hx)
      rw [extend_new H]; omega
  restS y hy hr := T.restS y fun x => by
    by_cases hx : x < h.st.length
    · rw [extendS_old H hx]; exact hr x hx
    · obtain ⟨j, rfl⟩ := Nat.exists_eq_add_of_le (Nat.not_lt.1 hx)
      rw [extendS_new H]; omega
  later := T.later
  shift := extend_new H
  shiftS := extendS_new H
  grow := by
    have h1 := T.newT 0
    have h2 := extend_new H (h'.ts.length - h.ts.length)
    rw [show h.ts.length + (h'.ts.length - h.ts.length) = h'.ts.length + 0 by omega, h1] at h2
    omega
  growS := by
    have h1 := T.newS 0
    have h2 := extendS_new H (h'.st.length - h.st.length)
    rw [show h.st.length + (h'.st.length - h.st.length) = h'.st.length + 0 by omega, h1] at h2
    omega

theorem Inside.stay {W : Naming F} {h k : Heap F} (H : Inside W h k) (E : Existing h) : Carried W (W.extend h k H) h h k k :=
  H.moved (H.start E) le_rfl le_rfl

/-- The variables hold tensors that exist. -/
def Held (h : Heap F) (vs : List (Option Nat)) : Prop := ∀ t, some t ∈ vs → t < h.ts.length

theorem held_ptr {h : Heap F} {vs : List (Option Nat)} (H : Held h vs) {v t : Nat} (e : ptr vs v = some t) : t < h.ts.length := by
  rw [ptr_some] at e
  exact H t (List.mem_of_getElem? e)

theorem ptr_map (f : Nat → Nat) (vs : List (Option Nat)) (v : Nat) : ptr (vs.map (Option.map f)) v = (ptr vs v).map f := by
  unfold ptr
  rw [List.getD_eq_getElem?_getD, List.getD_eq_getElem?_getD, List.getElem?_map]
  cases vs[v]? <;> rfl

theorem map_held {h : Heap F} {vs : List (Option Nat)} (H : Held h vs) {f g : Nat → Nat} (e : ∀ x, x < h.ts.length → f x = g x) :
    vs.map (Option.map f) = vs.map (Option.map g) := by
  refine List.map_congr_left fun o ho => ?_
  cases o with
  | none => rfl
  | some t => exact congrArg some (e t (H t ho))

theorem on_on [FOps F] (σ τ : Nat → Nat) (c : Call F) : (c.on σ).on τ = c.on fun v => τ (σ v) := by
  cases c <;> first | rfl | (simp only [Call.on, List.map_map]; rfl)

variable [FOps F]

theorem callOn_twin {W : Naming F} {h k : Heap F} (H : Inside W h k) (E : Existing h) {vs : List (Option Nat)} (hv : Held h vs) (c : Call F) :
    ∃ V', OutTwin (W.extend h k H) V' (W.extend h k H).Ret (callOn vs c h) (callOn (vs.map (Option.map W.t)) c k) := by
  have hany : (c.derefs.any fun v => (ptr (vs.map (Option.map W.t)) v).isNone) = c.derefs.any fun v => (ptr vs v).isNone := by
    congr 1
    funext v
    rw [ptr_map, Option.isNone_map]
  unfold callOn
  rw [hany]
  split
  · exact ⟨apartClocks h k, .inr rfl⟩
  have hon : ∀ c : Call F, c.on (fun v => (ptr (vs.map (Option.map W.t)) v).getD k.ts.length) =
      (c.on fun v => (ptr vs v).getD h.ts.length).on (W.extend h k H).t := by
    intro c
    rw [on_on]
    congr 1
    funext v
    rw [ptr_map]
    cases hp : ptr vs v with
    | none => exact (extend_new H 0).symm
    | some t => exact (extend_old H (held_ptr hv hp)).symm
  split
  · rename_i v _
    refine ⟨apartClocks h k, ?_⟩
    rw [ptr_map]
    cases hp : ptr vs v with
    | none => exact none'_twin (MTwin.pure (Q := Eq) rfl) h k (H.start E)
    | some t =>
      show OutTwin _ _ _ (none' (Tensor.toString t) h) (none' (Tensor.toString (W.t t)) k)
      rw [← extend_old H (held_ptr hv hp)]
      exact none'_twin (toString_twin t) h k (H.start E)
  · rename_i hc
    obtain ⟨V', h'⟩ := call_twin (W := W.extend h k H) (V := apartClocks h k) (c.on fun v => (ptr vs v).getD h.ts.length)
    refine ⟨V', ?_⟩
    rw [hon]
    exact h' h k (H.start E)

/-- A call on variables is a call, or `to_string()` on an empty variable. -/
theorem callOn_run {vs : List (Option Nat)} {c : Call F} {h : Heap F} (hn : ∀ u, callOn vs c h ≠ .ub u) :
    (∃ σ : Nat → Nat, callOn vs c h = (c.on σ).run h ∧ ∀ v ∈ c.derefs, ptr vs v = some (σ v)) ∨ callOn vs c h = .ok none h := by
  unfold callOn at hn ⊢
  split at hn
  · exact absurd rfl (hn _)
  rename_i hany
  rw [if_neg hany]
  have hd : ∀ v ∈ c.derefs, ptr vs v = some ((ptr vs v).getD h.ts.length) := by
    intro v hv
    simp only [List.any_eq_true, not_exists, not_and] at hany
    have := hany v hv
    cases hp : ptr vs v with
    | none => rw [hp] at this; exact absurd rfl this
    | some t => rfl
  split
  · rename_i v
    cases hp : ptr vs v with
    | none => exact .inr rfl
    | some t => exact .inl ⟨fun _ => t, rfl, fun _ h => by cases h⟩
  · exact .inl ⟨_, rfl, hd⟩

theorem callOn_keeps {vs : List (Option Nat)} {c : Call F} {h : Heap F} (hh : History h) (hv : Held h vs) :
    (∀ o h', callOn vs c h = .ok o h' → History h' ∧ VK h h' ∧ ∀ t, o = some t → t < h'.ts.length) ∧
    ∀ x h', callOn vs c h = .throw x h' → History h' ∧ VK h h' := by
  refine ⟨fun o h' e => ?_, fun x h' e => ?_⟩
  · rcases callOn_run (vs := vs) (c := c) (h := h) (by rw [e]; exact fun u => nofun) with ⟨σ, he, hd⟩ | he
    · rw [e] at he
      have hk := valid_run (c.on σ) h
      rw [← he] at hk
      refine ⟨.returned hh he.symm, hk, fun t ht => ?_⟩
      subst ht
      refine returned_lt (existing_history hh) (c := c.on σ) (fun a _ => ?_) he.symm
      by_cases hc : c.on σ = .pos a
      · cases c <;> first | (cases hc; done) | skip
        cases hc
        exact .inl (held_ptr hv (hd _ (by simp [Call.derefs])))
      · exact .inr hc
    · rw [e] at he
      cases he
      exact ⟨hh, Pre.refl _, fun _ h => by cases h⟩
  · rcases callOn_run (vs := vs) (c := c) (h := h) (by rw [e]; exact fun u => nofun) with ⟨σ, he, hd⟩ | he
    · rw [e] at he
      have hk := valid_run (c.on σ) h
      rw [← he] at hk
      exact ⟨.threw hh he.symm, hk⟩
    · rw [e] at he; cases he

omit [FOps F] in
theorem held_set {h : Heap F} {vs : List (Option Nat)} (H : Held h vs) (b : Nat) {o : Option Nat} (ho : ∀ t, o = some t → t < h.ts.length) :
    Held h (vs.set b o) := fun t ht => by
  rcases List.mem_or_eq_of_mem_set ht with h | h
  · exact H t h
  · exact ho t h.symm

omit [FOps F] in
theorem held_append {h : Heap F} {vs : List (Option Nat)} (H : Held h vs) {o : Option Nat} (ho : ∀ t, o = some t → t < h.ts.length) :
    Held h (vs ++ [o]) := fun t ht => by
  rcases List.mem_append.1 ht with h | h
  · exact H t h
  · exact ho t (List.mem_singleton.1 h).symm

omit [FOps F] in
theorem held_mono {h h' : Heap F} {vs : List (Option Nat)} (H : Held h vs) (hl : h.ts.length ≤ h'.ts.length) : Held h' vs :=
  fun t ht => (H t ht).trans_le hl

/-- One statement. -/
theorem exec_moved {W : Naming F} {h k : Heap F} (H : Inside W h k) (hh : History h) {vs : List (Option Nat)} (hv : Held h vs) (s : HStmt F)
    {vs' : List (Option Nat)} {h' : Heap F} (e : s.exec vs h = .ok vs' h') :
    ∃ W' k', s.exec (vs.map (Option.map W.t)) k = .ok (vs'.map (Option.map W'.t)) k' ∧ Carried W W' h h' k k' ∧ History h' ∧ Held h' vs' := by
  have E := existing_history hh
  have hm := map_held hv (f := W.t) (g := (W.extend h k H).t) fun x hx => (extend_old H hx).symm
  have hp : ∀ a t, ptr vs a = some t → t < h.ts.length := fun a t => held_ptr hv
  cases s with
  | declare =>
    cases e
    refine ⟨_, k, ?_, H.stay E, hh, held_append hv fun _ h => by cases h⟩
    rw [hm]; simp [HStmt.exec]
  | copy a =>
    cases e
    refine ⟨_, k, ?_, H.stay E, hh, held_append hv (hp a)⟩
    rw [hm]; simp [HStmt.exec, ptr_map]
  | take a =>
    cases e
    refine ⟨_, k, ?_, H.stay E, hh, held_append (held_set hv _ fun _ h => by cases h) (hp a)⟩
    rw [hm]; simp [HStmt.exec, ptr_map, List.map_set]
  | assign b a =>
    cases e
    refine ⟨_, k, ?_, H.stay E, hh, held_set hv _ (hp a)⟩
    rw [hm]; simp [HStmt.exec, ptr_map, List.map_set]
  | give b a =>
    cases e
    refine ⟨_, k, ?_, H.stay E, hh, ?_⟩
    · rw [hm]
      by_cases hab : b = a <;> simp [HStmt.exec, ptr_map, List.map_set, hab] <;> rfl
    · split
      · exact hv
      · exact held_set (held_set hv _ fun _ h => by cases h) _ (hp a)
  | call c =>
    obtain ⟨V', T⟩ := callOn_twin H E hv c
    obtain ⟨K, _⟩ := callOn_keeps (c := c) hh hv
    simp only [HStmt.exec, M.bind_def] at e ⊢
    cases ho : callOn vs c h with
    | throw x h1 => rw [ho] at e; cases e
    | ub u => rw [ho] at e; cases e
    | ok o h1 =>
      rw [ho] at e T
      obtain ⟨hh', hk, hr⟩ := K o h1 ho
      cases e
      cases hq : callOn (vs.map (Option.map W.t)) c k with
      | throw x k1 => rw [hq] at T; exact T.elim
      | ub u => rw [hq] at T; exact T.elim
      | ok o' k1 =>
        rw [hq] at T
        refine ⟨_, k1, ?_, H.moved T.2 hk.tlen hk.slen, hh', ?_⟩
        · rw [hm, show o' = o.map (W.extend h k H).t from T.1]
          cases c.makes
          · rfl
          · simp
        · have := held_mono hv hk.tlen
          split
          · exact held_append this hr
          · exact this
  | attempt c =>
    obtain ⟨V', T⟩ := callOn_twin H E hv c
    obtain ⟨K, K'⟩ := callOn_keeps (c := c) hh hv
    simp only [HStmt.exec] at e ⊢
    cases ho : callOn vs c h with
    | ub u => rw [ho] at e; cases e
    | ok o h1 =>
      rw [ho] at e T
      obtain ⟨hh', hk, hr⟩ := K o h1 ho
      cases e
      cases hq : callOn (vs.map (Option.map W.t)) c k with
      | throw x k1 => rw [hq] at T; exact T.elim
      | ub u => rw [hq] at T; exact T.elim
      | ok o' k1 =>
        rw [hq] at T
        exact ⟨_, k1, by rw [hm], H.moved T.2 hk.tlen hk.slen, hh', held_mono hv hk.tlen⟩
    | throw x h1 =>
      rw [ho] at e T
      obtain ⟨hh', hk⟩ := K' x h1 ho
      cases e
      cases hq : callOn (vs.map (Option.map W.t)) c k with
      | ok o' k1 => rw [hq] at T; exact T.elim
      | ub u => rw [hq] at T; exact T.elim
      | throw x' k1 =>
        rw [hq] at T
        obtain ⟨_, V, T⟩ := T
        exact ⟨_, k1, by rw [hm], H.moved T hk.tlen hk.slen, hh', held_mono hv hk.tlen⟩

/-! ### Two programs -/

omit [FOps F] in
/-- The copies have no object in common. -/
structure Separate (W W' : Naming F) (h h' : Heap F) : Prop where
  ts : ∀ x y, x < h.ts.length → y < h'.ts.length → W.t x ≠ W'.t y
  st : ∀ x y, x < h.st.length → y < h'.st.length → W.s x ≠ W'.s y

omit [FOps F] in
theorem Separate.symm {W W' : Naming F} {h h' : Heap F} (S : Separate W W' h h') : Separate W' W h' h :=
  ⟨fun x y hx hy e => S.ts y x hy hx e.symm, fun x y hx hy e => S.st y x hy hx e.symm⟩

omit [FOps F] in
/-- What one program does leaves the copy of the other one's objects alone. -/
theorem Carried.other {W W' U : Naming F} {h h' g k k' : Heap F} (M : Carried W W' h h' k k') (H : Inside U g k) (E : Existing g)
    (S : Separate W U h g) : Inside U g k' ∧ Separate W' U h' g := by
  refine ⟨⟨fun x i hi => ?_, fun d hd => ?_⟩, ⟨fun x y hx hy e => ?_, fun x y hx hy e => ?_⟩⟩
  · obtain ⟨i', hi', f, hf, rfl⟩ := H.ts x i hi
    refine ⟨_, (M.rest _ (lt_of_get hi') fun z hz => S.ts z x hz (lt_of_get hi)).trans hi', f, ?_, rfl⟩
    revert hf
    cases i.gradFn with
    | none => intro hf; cases hf; exact .none
    | some g =>
      intro hf
      cases hf with
      | some hf => exact .some ⟨hf.kind, hf.inputs, hf.nOutway, hf.accOutway, hf.hv, hf.kv.trans M.later, False.elim⟩
  · exact (M.restS _ (H.ltS hd) fun z hz => S.st z d hz hd).trans (H.st d hd)
  · by_cases hx' : x < h.ts.length
    · rw [M.old x hx'] at e; exact S.ts x y hx' hy e
    · have := M.new x (Nat.not_lt.1 hx'); have := H.lt hy; omega
  · by_cases hx' : x < h.st.length
    · rw [M.oldS x hx'] at e; exact S.st x y hx' hy e
    · have := M.newS x (Nat.not_lt.1 hx'); have := H.ltS hy; omega

theorem interleave_inside : ∀ (p : List (Bool × HStmt F)) {W U : Naming F} {h g k : Heap F} {vs us vs' us' : List (Option Nat)} {h' g' : Heap F},
    Inside W h k → Inside U g k → History h → History g → Held h vs → Held g us → Separate W U h g →
    execAll (turnsOf true p) vs h = .ok vs' h' → execAll (turnsOf false p) us g = .ok us' g' →
    ∃ W' U' k', interleave p (vs.map (Option.map W.t)) (us.map (Option.map U.t)) k =
      .ok (vs'.map (Option.map W'.t), us'.map (Option.map U'.t)) k' ∧ Inside W' h' k' ∧ Inside U' g' k' ∧ Held h' vs' ∧ Held g' us'
  | [], W, U, h, g, k, vs, us, vs', us', h', g', hW, hU, _, _, hv, hu, _, e, e' => by
    cases e
    cases e'
    exact ⟨W, U, k, rfl, hW, hU, hv, hu⟩
  | (true, s) :: p, W, U, h, g, k, vs, us, vs', us', h', g', hW, hU, hh, hg, hv, hu, S, e, e' => by
    change execAll (s :: turnsOf true p) vs h = _ at e
    change execAll (turnsOf false p) us g = _ at e'
    unfold execAll at e
    rw [M.bind_def] at e
    cases hs : s.exec vs h with
    | throw x h1 => rw [hs] at e; cases e
    | ub u => rw [hs] at e; cases e
    | ok vs1 h1 =>
      rw [hs] at e
      obtain ⟨W1, k1, he, M, hh1, hv1⟩ := exec_moved hW hh hv s hs
      obtain ⟨hU1, S1⟩ := M.other hU (existing_history hg) S
      obtain ⟨W', U', k', hr, r⟩ := interleave_inside p M.inside hU1 hh1 hg hv1 hu S1 e e'
      refine ⟨W', U', k', ?_, r⟩
      unfold interleave
      rw [INNC.M.bind_def, he]
      exact hr
  | (false, s) :: p, W, U, h, g, k, vs, us, vs', us', h', g', hW, hU, hh, hg, hv, hu, S, e, e' => by
    change execAll (turnsOf true p) vs h = _ at e
    change execAll (s :: turnsOf false p) us g = _ at e'
    unfold execAll at e'
    rw [M.bind_def] at e'
    cases hs : s.exec us g with
    | throw x h1 => rw [hs] at e'; cases e'
    | ub u => rw [hs] at e'; cases e'
    | ok us1 g1 =>
      rw [hs] at e'
      obtain ⟨U1, k1, he, M, hg1, hu1⟩ := exec_moved hU hg hu s hs
      obtain ⟨hW1, S1⟩ := M.other hW (existing_history hh) S.symm
      obtain ⟨W', U', k', hr, r⟩ := interleave_inside p hW1 M.inside hh hg1 hv hu1 S1.symm e e'
      refine ⟨W', U', k', ?_, r⟩
      unfold interleave
      rw [INNC.M.bind_def, he]
      exact hr

omit [FOps F] in
theorem Inside.tensor {W : Naming F} {h k : Heap F} (H : Inside W h k) (E : Existing h) {x : Nat} (hx : x < h.ts.length) :
    SameTensor h k x (W.t x) := by
  have hi := List.getElem?_eq_getElem hx
  obtain ⟨i', hi', f, hf, rfl⟩ := H.ts x _ hi
  generalize h.ts[x] = i at *
  have hst := H.st i.data (E.data x i hi)
  refine ⟨⟨i, _, hi, hi', rfl, rfl, rfl, rfl, Option.isSome_map, ?_⟩, fun dt s g => ⟨?_, ?_⟩⟩
  · revert hf
    cases i.gradFn <;> cases f <;> intro hf <;> first | rfl | cases hf
  · rintro ⟨j, hj, hd, hs, hr⟩
    rw [hi] at hj
    obtain rfl := Option.some.inj hj
    obtain ⟨s, c, h1, h2⟩ := hr.cells
    exact ⟨_, hi', hd, hs, hr.strides, hr.offset, ⟨s, c, hst.trans h1, h2⟩, hr.typed⟩
  · rintro ⟨j, hj, hd, hs, hr⟩
    rw [hi'] at hj
    obtain rfl := Option.some.inj hj
    obtain ⟨s, c, h1, h2⟩ := hr.cells
    exact ⟨i, hi, hd, hs, hr.strides, hr.offset, ⟨s, c, hst.symm.trans h1, h2⟩, hr.typed⟩

omit [FOps F] in
theorem Inside.vars {W : Naming F} {h k : Heap F} (H : Inside W h k) (E : Existing h) {vs : List (Option Nat)} (hv : Held h vs) :
    SameVars h vs k (vs.map (Option.map W.t)) := by
  refine ⟨?_, fun a t t' i i' g g' ht ht' hi hi' hg hg' => ?_, fun a b => ?_⟩
  · rw [List.forall₂_map_right_iff, List.forall₂_same]
    intro o ho
    cases o with
    | none => exact .none
    | some t => exact .some (H.tensor E (hv t ho))
  · rw [ptr_map, ht] at ht'
    obtain rfl := Option.some.inj ht'
    obtain ⟨j, hj, f, _, rfl⟩ := H.ts t i hi
    rw [hi'] at hj
    obtain rfl := Option.some.inj hj
    rw [show (W.im i f).grad = i.grad.map W.t from rfl, hg] at hg'
    obtain rfl := Option.some.inj hg'
    exact H.tensor E (E.grad t i g hi hg)
  · rw [ptr_map, ptr_map, (Option.map_injective W.tinj).eq_iff]

omit [FOps F] in
/-- Nothing is inside anything. -/
theorem inside_empty (W : Naming F) (k : Heap F) : Inside W Heap.empty k :=
  ⟨fun x i hi => by simp [Heap.empty] at hi, fun d hd => by simp [Heap.empty] at hd⟩

def Naming.any (k : Heap F) : Naming F := ⟨id, id, Function.injective_id, Function.injective_id, k⟩

theorem execAll_moved : ∀ (p : List (HStmt F)) {W : Naming F} {h k : Heap F} {vs vs' : List (Option Nat)} {h' : Heap F},
    Inside W h k → History h → Held h vs → execAll p vs h = .ok vs' h' →
    ∃ W' k', execAll p (vs.map (Option.map W.t)) k = .ok (vs'.map (Option.map W'.t)) k' ∧ Inside W' h' k' ∧ History h' ∧ Held h' vs' ∧
      (∀ y, y < k.ts.length → (∀ x, x < h.ts.length → W.t x ≠ y) → k'.ts[y]? = k.ts[y]?) ∧
      (∀ y, y < k.st.length → (∀ x, x < h.st.length → W.s x ≠ y) → k'.st[y]? = k.st[y]?)
  | [], W, h, k, vs, vs', h', hW, hh, hv, e => by
    cases e
    exact ⟨W, k, rfl, hW, hh, hv, fun _ _ _ => rfl, fun _ _ _ => rfl⟩
  | s :: p, W, h, k, vs, vs', h', hW, hh, hv, e => by
    unfold execAll at e
    rw [M.bind_def] at e
    cases hs : s.exec vs h with
    | throw x h1 => rw [hs] at e; cases e
    | ub u => rw [hs] at e; cases e
    | ok vs1 h1 =>
      rw [hs] at e
      obtain ⟨W1, k1, he, M, hh1, hv1⟩ := exec_moved hW hh hv s hs
      obtain ⟨W', k', hr, hI, hH, hV, rT, rS⟩ := execAll_moved p M.inside hh1 hv1 e
      refine ⟨W', k', ?_, hI, hH, hV, fun y hy hn => ?_, fun y hy hn => ?_⟩
      · unfold execAll
        rw [INNC.M.bind_def, he]
        exact hr
      · have h1' := M.rest y hy hn
        refine (rT y ?_ fun x hx => ?_).trans h1'
        · rw [List.getElem?_eq_getElem hy] at h1'
          exact lt_of_get h1'
        · by_cases hx' : x < h.ts.length
          · rw [M.old x hx']; exact hn x hx'
          · have := M.new x (Nat.not_lt.1 hx'); omega
      · have h1' := M.restS y hy hn
        refine (rS y ?_ fun x hx => ?_).trans h1'
        · rw [List.getElem?_eq_getElem hy] at h1'
          by_contra hc
          rw [List.getElem?_eq_none (by omega)] at h1'
          cases h1'
        · by_cases hx' : x < h.st.length
          · rw [M.oldS x hx']; exact hn x hx'
          · have := M.newS x (Nat.not_lt.1 hx'); omega

/-- A statement that throws. -/
theorem exec_throws {W : Naming F} {h k : Heap F} (H : Inside W h k) (hh : History h) {vs : List (Option Nat)} (hv : Held h vs) (s : HStmt F)
    {x : Exc} {h' : Heap F} (e : s.exec vs h = .throw x h') : ∃ k', s.exec (vs.map (Option.map W.t)) k = .throw x k' := by
  cases s with
  | call c =>
    obtain ⟨V', T⟩ := callOn_twin H (existing_history hh) hv c
    simp only [HStmt.exec, INNC.M.bind_def] at e ⊢
    cases ho : callOn vs c h with
    | ok o h1 => rw [ho] at e; cases e
    | ub u => rw [ho] at e; cases e
    | throw y h1 =>
      rw [ho] at e T
      cases e
      cases hq : callOn (vs.map (Option.map W.t)) c k with
      | ok x k1 => rw [hq] at T; exact T.elim
      | ub u => rw [hq] at T; exact T.elim
      | throw y k1 =>
        rw [hq] at T
        exact ⟨k1, by rw [T.1]⟩
  | attempt c =>
    simp only [HStmt.exec] at e
    cases ho : callOn vs c h <;> rw [ho] at e <;> cases e
  | _ => cases e

theorem execAll_throws : ∀ (p : List (HStmt F)) {W : Naming F} {h k : Heap F} {vs : List (Option Nat)} {x : Exc} {h' : Heap F},
    Inside W h k → History h → Held h vs → execAll p vs h = .throw x h' → ∃ k', execAll p (vs.map (Option.map W.t)) k = .throw x k'
  | [], W, h, k, vs, x, h', _, _, _, e => by cases e
  | s :: p, W, h, k, vs, x, h', hW, hh, hv, e => by
    unfold execAll at e ⊢
    rw [INNC.M.bind_def] at e ⊢
    cases hs : s.exec vs h with
    | ub u => rw [hs] at e; cases e
    | throw y h1 =>
      rw [hs] at e
      cases e
      obtain ⟨k', he⟩ := exec_throws hW hh hv s hs
      exact ⟨k', by rw [he]⟩
    | ok vs1 h1 =>
      rw [hs] at e
      obtain ⟨W1, k1, he, M, hh1, hv1⟩ := exec_moved hW hh hv s hs
      rw [he]
      exact execAll_throws p M.inside hh1 hv1 e

/-! ### Undefined behaviour -/

theorem callOn_ends {h : Heap F} (hg : Graph h) (vs : List (Option Nat)) (c : Call F) : callOn vs c h ≠ .ub .fuel := by
  unfold callOn
  split
  · exact nofun
  split
  · rename_i v _
    cases ptr vs v with
    | none => exact nofun
    | some t => exact run_ends hg (.toString t)
  · exact run_ends hg _

/-- A call with undefined behaviour. -/
theorem callOn_ub {W : Naming F} {h k : Heap F} (H : Inside W h k) (hh : History h) {vs : List (Option Nat)} (hv : Held h vs) {c : Call F}
    {u : UB} (e : callOn vs c h = .ub u) : callOn (vs.map (Option.map W.t)) c k = .ub u := by
  obtain ⟨V', T⟩ := callOn_twin H (existing_history hh) hv c
  rw [e] at T
  rcases T with rfl | T
  · exact absurd e (callOn_ends (graph_history hh) vs c)
  · exact T

theorem exec_ub {W : Naming F} {h k : Heap F} (H : Inside W h k) (hh : History h) {vs : List (Option Nat)} (hv : Held h vs) (s : HStmt F)
    {u : UB} (e : s.exec vs h = .ub u) : s.exec (vs.map (Option.map W.t)) k = .ub u := by
  cases s with
  | call c =>
    simp only [HStmt.exec, INNC.M.bind_def] at e ⊢
    cases ho : callOn vs c h with
    | ok o h1 => rw [ho] at e; cases e
    | throw y h1 => rw [ho] at e; cases e
    | ub u =>
      rw [ho] at e
      cases e
      rw [callOn_ub H hh hv ho]
  | attempt c =>
    simp only [HStmt.exec] at e ⊢
    cases ho : callOn vs c h with
    | ok o h1 => rw [ho] at e; cases e
    | throw y h1 => rw [ho] at e; cases e
    | ub u =>
      rw [ho] at e
      cases e
      rw [callOn_ub H hh hv ho]
  | _ => cases e

theorem execAll_ub : ∀ (p : List (HStmt F)) {W : Naming F} {h k : Heap F} {vs : List (Option Nat)} {u : UB},
    Inside W h k → History h → Held h vs → execAll p vs h = .ub u → execAll p (vs.map (Option.map W.t)) k = .ub u
  | [], W, h, k, vs, u, _, _, _, e => by cases e
  | s :: p, W, h, k, vs, u, hW, hh, hv, e => by
    unfold execAll at e ⊢
    rw [INNC.M.bind_def] at e ⊢
    cases hs : s.exec vs h with
    | throw y h1 => rw [hs] at e; cases e
    | ub u =>
      rw [hs] at e
      cases e
      rw [exec_ub hW hh hv s hs]
    | ok vs1 h1 =>
      rw [hs] at e
      obtain ⟨W1, k1, he, M, hh1, hv1⟩ := exec_moved hW hh hv s hs
      rw [he]
      exact execAll_ub p M.inside hh1 hv1 e

/-- How two programs end together, in terms of how they end alone. -/
def Blame {α β γ : Type} (a : Out (Heap F) α) (b : Out (Heap F) β) : Out (Heap F) γ → Prop
  | .ok _ _ => (∃ r h, a = .ok r h) ∧ ∃ r h, b = .ok r h
  | .throw x _ => (∃ h, a = .throw x h) ∨ ∃ h, b = .throw x h
  | .ub u => a = .ub u ∨ b = .ub u

theorem interleave_blame : ∀ (p : List (Bool × HStmt F)) {W U : Naming F} {h g k : Heap F} {vs us : List (Option Nat)},
    Inside W h k → Inside U g k → History h → History g → Held h vs → Held g us → Separate W U h g →
    Blame (execAll (turnsOf true p) vs h) (execAll (turnsOf false p) us g)
      (interleave p (vs.map (Option.map W.t)) (us.map (Option.map U.t)) k)
  | [], W, U, h, g, k, vs, us, hW, hU, _, _, hv, hu, _ => ⟨⟨_, _, rfl⟩, _, _, rfl⟩
  | (true, s) :: p, W, U, h, g, k, vs, us, hW, hU, hh, hg, hv, hu, S => by
    change Blame (execAll (s :: turnsOf true p) vs h) (execAll (turnsOf false p) us g) _
    unfold interleave
    rw [INNC.M.bind_def, show execAll (s :: turnsOf true p) vs = (s.exec vs >>= fun r => execAll (turnsOf true p) r) from rfl,
      INNC.M.bind_def]
    cases hs : s.exec vs h with
    | throw x h1 =>
      obtain ⟨k', he⟩ := exec_throws hW hh hv s hs
      rw [he]
      exact .inl ⟨_, rfl⟩
    | ub u =>
      rw [exec_ub hW hh hv s hs]
      exact .inl rfl
    | ok vs1 h1 =>
      obtain ⟨W1, k1, he, M, hh1, hv1⟩ := exec_moved hW hh hv s hs
      obtain ⟨hU1, S1⟩ := M.other hU (existing_history hg) S
      rw [he]
      exact interleave_blame p M.inside hU1 hh1 hg hv1 hu S1
  | (false, s) :: p, W, U, h, g, k, vs, us, hW, hU, hh, hg, hv, hu, S => by
    change Blame (execAll (turnsOf true p) vs h) (execAll (s :: turnsOf false p) us g) _
    unfold interleave
    rw [INNC.M.bind_def, show execAll (s :: turnsOf false p) us = (s.exec us >>= fun r => execAll (turnsOf false p) r) from rfl,
      INNC.M.bind_def]
    cases hs : s.exec us g with
    | throw x h1 =>
      obtain ⟨k', he⟩ := exec_throws hU hg hu s hs
      rw [he]
      exact .inr ⟨_, rfl⟩
    | ub u =>
      rw [exec_ub hU hg hu s hs]
      exact .inr rfl
    | ok us1 g1 =>
      obtain ⟨U1, k1, he, M, hg1, hu1⟩ := exec_moved hU hg hu s hs
      obtain ⟨hW1, S1⟩ := M.other hW (existing_history hh) S.symm
      rw [he]
      exact interleave_blame p hW1 M.inside hh hg1 hv hu1 S1.symm

end
end INNC
