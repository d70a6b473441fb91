import Verif.Spec.Linked
/-
Running the same computation over two float arithmetics: every function of the model maps linked states to linked states.
-/
namespace INNC
open Spec Tensor
section
variable {F G : Type} {α α' β β' : Type}

/-- The second outcome is undefined, or both are of the same kind and related. -/
def ResLink (Q : α → β → Prop) : Res α → Res β → Prop
  | _, .ub _ => True
  | .ok a, .ok b => Q a b
  | .throw e, .throw e' => e = e'
  | _, _ => False

def OutLink (R : DType → F → G → Prop) (Q : α → β → Prop) : Out (Heap F) α → Out (Heap G) β → Prop
  | _, .ub _ => True
  | .ok a h, .ok b h' => Q a b ∧ LinkedHeap R h h'
  | .throw e h, .throw e' h' => e = e' ∧ LinkedHeap R h h'
  | _, _ => False

def MLink (R : DType → F → G → Prop) (Q : α → β → Prop) (m : M F α) (m' : M G β) : Prop :=
  ∀ h h', LinkedHeap R h h' → OutLink R Q (m h) (m' h')

theorem ResLink.bind {Q : α → β → Prop} {P : α' → β' → Prop} {x : Res α} {y : Res β} {f : α → Res α'} {g : β → Res β'}
    (hx : ResLink Q x y) (hf : ∀ a b, Q a b → ResLink P (f a) (g b)) : ResLink P (x >>= f) (y >>= g) := by
  cases x <;> cases y <;> first | exact hf _ _ hx | exact hx | exact trivial | exact hx.elim

theorem ResLink.pure {Q : α → β → Prop} {a : α} {b : β} (h : Q a b) : ResLink Q (pure a) (pure b) := h

theorem ResLink.same (r : Res α) : ResLink Eq r r := by
  cases r <;> first | exact rfl | exact trivial

theorem ResLink.ub {Q : α → β → Prop} (x : Res α) (u : UB) : ResLink Q x (.ub u) := by
  cases x <;> exact trivial

variable {R : DType → F → G → Prop}

theorem OutLink.ub {Q : α → β → Prop} (x : Out (Heap F) α) (u : UB) : OutLink R Q x (.ub u) := by
  cases x <;> exact trivial

theorem MLink.bind {Q : α → β → Prop} {P : α' → β' → Prop} {x : M F α} {y : M G β} {f : α → M F α'} {g : β → M G β'}
    (hx : MLink R Q x y) (hf : ∀ a b, Q a b → MLink R P (f a) (g b)) : MLink R P (x >>= f) (y >>= g) := by
  intro h h' hh
  show OutLink R P (M.bind x f h) (M.bind y g h')
  unfold M.bind
  have := hx h h' hh
  revert this
  cases x h <;> cases y h' <;> intro this <;>
    first | exact hf _ _ this.1 _ _ this.2 | exact this | exact trivial | exact this.elim

/-- A bind whose first result does not depend on the floats. -/
theorem MLink.bindEq {P : α' → β' → Prop} {x : M F α} {y : M G α} {f : α → M F α'} {g : α → M G β'}
    (hx : MLink R Eq x y) (hf : ∀ a, MLink R P (f a) (g a)) : MLink R P (x >>= f) (y >>= g) :=
  hx.bind fun a _ e => e ▸ hf a

/-- A bind whose first result is an element. -/
theorem MLink.bindVal {t : DType} {P : α' → β' → Prop} {x : M F (Val F)} {y : M G (Val G)} {f : Val F → M F α'} {g : Val G → M G β'}
    (hx : MLink R (LinkedVal R t) x y) (hf : ∀ a b, LinkedVal R t a b → MLink R P (f a) (g b)) :
    MLink R P (x >>= f) (y >>= g) :=
  hx.bind hf

theorem MLink.pure {Q : α → β → Prop} {a : α} {b : β} (h : Q a b) : MLink R Q (pure a) (pure b) :=
  fun _ _ hh => ⟨h, hh⟩

theorem MLink.undef {Q : α → β → Prop} (m : M F α) (u : UB) : MLink R Q m (M.undef u) := fun h _ _ => OutLink.ub (m h) u

theorem MLink.raise {Q : α → β → Prop} (e : Exc) : MLink R Q (M.raise e) (M.raise e) := fun _ _ hh => ⟨rfl, hh⟩

theorem MLink.lift {Q : α → β → Prop} {r : Res α} {r' : Res β} (hr : ResLink Q r r') : MLink R Q (M.lift r) (M.lift r') := by
  intro h h' hh
  cases r <;> cases r' <;> first | exact ⟨hr, hh⟩ | exact trivial | exact hr.elim

theorem MLink.liftSame (r : Res α) : MLink R Eq (M.lift r) (M.lift r) := MLink.lift (ResLink.same r)

theorem MLink.expect (b : Bool) : MLink R Eq (INNC.expect b) (INNC.expect b) := by
  unfold INNC.expect
  split
  · exact MLink.pure rfl
  · exact MLink.raise _

theorem MLink.ite {Q : α → β → Prop} {c : Prop} [Decidable c] {x x' : M F α} {y y' : M G β}
    (h : c → MLink R Q x y) (h' : ¬ c → MLink R Q x' y') : MLink R Q (if c then x else x') (if c then y else y') := by
  split
  · exact h ‹_›
  · exact h' ‹_›

theorem ResLink.ite {Q : α → β → Prop} {c : Prop} [Decidable c] {x x' : Res α} {y y' : Res β}
    (h : c → ResLink Q x y) (h' : ¬ c → ResLink Q x' y') : ResLink Q (if c then x else x') (if c then y else y') := by
  split
  · exact h ‹_›
  · exact h' ‹_›

/-! ### Primitive operations -/

theorem getT_link (t : Nat) : MLink R Eq (getT t) (getT t) := by
  intro h h' hh
  unfold getT
  rw [hh.ts]
  cases h'.ts[t]? with
  | none => exact trivial
  | some i => exact ⟨rfl, hh⟩

theorem setT_link (t : Nat) (i : Impl) : MLink R Eq (setT t i) (setT t i) :=
  fun h h' hh => ⟨rfl, hh.st, by show h.ts.set t i = h'.ts.set t i; rw [hh.ts], hh.gver⟩

theorem newT_link (i : Impl) : MLink R Eq (newT i) (newT i) :=
  fun h h' hh => ⟨by show h.ts.length = h'.ts.length; rw [hh.ts], hh.st, by show h.ts ++ [i] = h'.ts ++ [i]; rw [hh.ts], hh.gver⟩

theorem newS_link {s : Storage F} {s' : Storage G} (hs : LinkedStorage R s s') : MLink R Eq (newS s) (newS s') :=
  fun h h' hh => ⟨hh.st.length_eq, List.rel_append hh.st (.cons hs .nil), hh.ts, hh.gver⟩

theorem forall₂_getElem? {α β : Type} {P : α → β → Prop} {l : List α} {l' : List β} (h : List.Forall₂ P l l') (k : Nat) :
    (∃ a b, l[k]? = some a ∧ l'[k]? = some b ∧ P a b) ∨ (l[k]? = none ∧ l'[k]? = none) := by
  induction h generalizing k with
  | nil => exact .inr ⟨by simp, by simp⟩
  | cons hab _ ih =>
    cases k with
    | zero => exact .inl ⟨_, _, rfl, rfl, hab⟩
    | succ k => simpa using ih k

theorem forall₂_set {α β : Type} {P : α → β → Prop} {l : List α} {l' : List β} (h : List.Forall₂ P l l') (k : Nat) {a : α}
    {b : β} (hab : P a b) : List.Forall₂ P (l.set k a) (l'.set k b) := by
  induction h generalizing k with
  | nil => exact .nil
  | cons hc hl ih =>
    cases k with
    | zero => exact .cons hab hl
    | succ k => exact .cons hc (ih k)

theorem forall₂_map {α β γ δ : Type} {P : α → β → Prop} {Q : γ → δ → Prop} {f : α → γ} {g : β → δ} {l : List α} {l' : List β}
    (h : List.Forall₂ P l l') (hf : ∀ a b, P a b → Q (f a) (g b)) : List.Forall₂ Q (l.map f) (l'.map g) := by
  induction h with
  | nil => exact .nil
  | cons hab _ ih => exact .cons (hf _ _ hab) ih

theorem forall₂_self_map {α γ δ : Type} {Q : γ → δ → Prop} {f : α → γ} {g : α → δ} (l : List α)
    (hf : ∀ a, Q (f a) (g a)) : List.Forall₂ Q (l.map f) (l.map g) := by
  induction l with
  | nil => exact .nil
  | cons a _ ih => exact .cons (hf a) ih

theorem getS_link (d : Nat) : MLink R (LinkedStorage R) (getS d) (getS d) := by
  intro h h' hh
  unfold getS
  rcases forall₂_getElem? hh.st d with ⟨a, b, ha, hb, hab⟩ | ⟨_, hb⟩
  · rw [ha, hb]; exact ⟨hab, hh⟩
  · rw [hb]; exact OutLink.ub _ _

theorem setS_link (d : Nat) {s : Storage F} {s' : Storage G} (hs : LinkedStorage R s s') : MLink R Eq (setS d s) (setS d s') :=
  fun _ _ hh => ⟨rfl, forall₂_set hh.st d hs, hh.ts, hh.gver⟩

theorem freshBlob_link (dt : DType) (n : Nat) :
    List.Forall₂ (LinkedCell R dt) (freshBlob dt n : List (Option (Val F))) (freshBlob dt n) := by
  unfold freshBlob
  induction n / dt.size with
  | zero => exact .nil
  | succ k ih => exact .cons trivial ih

theorem mkStorage_link (dt : DType) (n : Nat) (b : Bool) : MLink R Eq (mkStorage dt n b) (mkStorage dt n b) := by
  unfold mkStorage
  refine MLink.ite (fun _ => MLink.ite (fun _ => ?_) fun _ => MLink.raise _) fun _ => ?_
  · exact newS_link ⟨rfl, rfl, .some (freshBlob_link dt n)⟩
  · exact newS_link ⟨rfl, rfl, .none⟩

theorem allocS_link (d : Nat) : MLink R Eq (allocS d) (allocS d) := by
  unfold allocS
  refine (getS_link d).bind fun s s' hs => ?_
  rw [hs.size, hs.dt]
  refine MLink.ite (fun _ => ?_) fun _ => MLink.raise _
  exact setS_link d ⟨rfl, rfl, .some (freshBlob_link _ _)⟩

theorem isAllocS_link (d : Nat) : MLink R Eq (isAllocS d) (isAllocS d) := by
  unfold isAllocS
  refine (getS_link d).bind fun s s' hs => MLink.pure ?_
  have := hs.blob
  revert this
  cases s.blob <;> cases s'.blob <;> intro this <;> first | rfl | cases this

theorem releaseS_link (d : Nat) : MLink R Eq (releaseS d) (releaseS d) := by
  unfold releaseS
  refine (getS_link d).bind fun s s' hs => setS_link d ⟨hs.dt, hs.size, .none⟩

theorem load_link (ty : DType) (t : Impl) (pos : Nat) : MLink R (LinkedVal R ty) (load ty t pos) (load ty t pos) := by
  unfold load
  refine (getS_link t.data).bind fun s s' hs => ?_
  have := hs.blob
  revert this
  cases s.blob <;> cases s'.blob <;> intro this <;> first | exact MLink.undef _ _ | cases this
  rename_i c c' hc
  show MLink R _ (if s.dt ≠ ty then _ else _) (if s'.dt ≠ ty then _ else _)
  rw [← hs.dt]
  refine MLink.ite (fun _ => MLink.undef _ _) fun e => ?_
  obtain rfl : s.dt = ty := by simpa using e
  rcases forall₂_getElem? hc pos with ⟨a, b, ha, hb, hab⟩ | ⟨ha, hb⟩
  · rw [ha, hb]
    cases a <;> cases b <;> first | exact MLink.undef _ _ | cases hab | skip
    exact MLink.pure hab
  · rw [ha, hb]; exact MLink.undef _ _

theorem store_link (ty : DType) (t : Impl) (pos : Nat) {v : Val F} {v' : Val G} (hv : LinkedVal R ty v v') :
    MLink R Eq (store ty t pos v) (store ty t pos v') := by
  unfold store
  refine (getS_link t.data).bind fun s s' hs => ?_
  have := hs.blob
  revert this
  cases s.blob <;> cases s'.blob <;> intro this <;> first | exact MLink.undef _ _ | cases this
  rename_i c c' hc
  show MLink R _ (if s.dt ≠ ty then _ else _) (if s'.dt ≠ ty then _ else _)
  rw [← hs.dt]
  refine MLink.ite (fun _ => MLink.undef _ _) fun e => ?_
  obtain rfl : s.dt = ty := by simpa using e
  rw [hc.length_eq]
  refine MLink.ite (fun _ => ?_) fun _ => MLink.undef _ _
  exact setS_link _ ⟨rfl, hs.size, .some (forall₂_set hc pos hv)⟩

theorem createOn_link (dt : DType) (v : Layout) (d : Nat) : MLink R Eq (createOn dt v d) (createOn dt v d) := newT_link _

theorem create_link (dt : DType) (v : Layout) (b : Bool) : MLink R Eq (create dt v b) (create dt v b) :=
  (mkStorage_link _ _ _).bindEq fun d => createOn_link dt v d

theorem getT_at {P : α → β → Prop} {t : Nat} {f : Impl → M F α} {g : Impl → M G β} {h : Heap F} {h' : Heap G}
    (hh : LinkedHeap R h h') (hf : ∀ i, h.ts[t]? = some i → OutLink R P (f i h) (g i h')) :
    OutLink R P ((getT t >>= f) h) ((getT t >>= g) h') := by
  show OutLink R P (M.bind (getT t) f h) (M.bind (getT t) g h')
  unfold M.bind getT
  rw [← hh.ts]
  cases hi : h.ts[t]? with
  | none => exact trivial
  | some i => exact hf i hi

theorem getS_at {P : α → β → Prop} {d : Nat} {f : Storage F → M F α} {g : Storage G → M G β} {h : Heap F} {h' : Heap G}
    (hh : LinkedHeap R h h') (hf : ∀ s s', h.st[d]? = some s → LinkedStorage R s s' → OutLink R P (f s h) (g s' h')) :
    OutLink R P ((getS d >>= f) h) ((getS d >>= g) h') := by
  show OutLink R P (M.bind (getS d) f h) (M.bind (getS d) g h')
  unfold M.bind getS
  rcases forall₂_getElem? hh.st d with ⟨a, b, ha, hb, hab⟩ | ⟨ha, hb⟩
  · rw [ha, hb]; exact hf a b ha hab
  · rw [ha, hb]; exact trivial

/-- The tensor just created and its storage have the type asked for. -/
theorem create_dt {dt : DType} {v : Layout} {b : Bool} {h h2 : Heap F} {t : Nat} (hc : create dt v b h = .ok t h2) :
    ∀ i, h2.ts[t]? = some i → i.dtype = dt ∧ ∀ s, h2.st[i.data]? = some s → s.dt = dt := by
  have key : ∀ (s : Storage F), s.dt = dt → M.bind (newS s) (createOn dt v) h = .ok t h2 →
      ∀ i, h2.ts[t]? = some i → i.dtype = dt ∧ ∀ s, h2.st[i.data]? = some s → s.dt = dt := by
    intro s hs e i hi
    cases e
    obtain rfl : _ = i := by simpa using hi
    refine ⟨rfl, fun s' hs' => ?_⟩
    obtain rfl : s = s' := by simpa using hs'
    exact hs
  change M.bind (mkStorage dt _ b) (createOn dt v) h = .ok t h2 at hc
  unfold mkStorage at hc
  split at hc
  · split at hc
    · exact key _ rfl hc
    · cases hc
  · exact key _ rfl hc

theorem MLink.create {dt : DType} {v : Layout} {b : Bool} {P : α → β → Prop} {f : Nat → M F α} {g : Nat → M G β}
    (hf : ∀ t h h', LinkedHeap R h h' → (∀ i, h.ts[t]? = some i → i.dtype = dt ∧ ∀ s, h.st[i.data]? = some s → s.dt = dt) →
      OutLink R P (f t h) (g t h')) : MLink R P (INNC.create dt v b >>= f) (INNC.create dt v b >>= g) := by
  intro h h' hh
  have := create_link dt v b h h' hh
  show OutLink R P (M.bind (INNC.create dt v b) f h) (M.bind (INNC.create dt v b) g h')
  unfold M.bind
  revert this
  cases hc : INNC.create dt v b h <;> cases INNC.create dt v b h' <;> intro this <;> try first | exact this | exact trivial | exact this.elim
  obtain ⟨rfl, hl⟩ := this
  exact hf _ _ _ hl (create_dt hc)

theorem odo_link (range : List Nat) {op : List Nat → M F Unit} {op' : List Nat → M G Unit}
    (hop : ∀ sv, MLink R Eq (op sv) (op' sv)) : ∀ n sv,
    MLink R Eq (odo (M.undef .fuel) range op n sv) (odo (M.undef .fuel) range op' n sv) := by
  intro n
  induction n with
  | zero => exact fun sv => MLink.undef _ _
  | succ n ih =>
    intro sv
    unfold odo
    cases carry range (range.length - 1) sv with
    | none => exact MLink.pure rfl
    | some sv' => exact (hop sv').bindEq fun _ => ih _

theorem forEach_link (range : List Nat) {op : List Nat → M F Unit} {op' : List Nat → M G Unit}
    (hop : ∀ sv, MLink R Eq (op sv) (op' sv)) : MLink R Eq (forEach range op) (forEach range op') := by
  unfold forEach forEachWith
  exact MLink.ite (fun _ => MLink.pure rfl) fun _ => MLink.ite (fun _ => odo_link range hop _ _) fun _ => hop []

end

/-! ### Elements -/

section
variable {F G : Type} [FOps F] [FOps G] {R : DType → F → G → Prop}

omit [FOps F] [FOps G] in
theorem linkedInt (t : DType) (n : Int) : LinkedVal R t (.i n) (.i n) := rfl

omit [FOps F] [FOps G] in
theorem linkedFloat {t : DType} {x : F} {y : G} (ht : t.isFloat = true) (h : R t x y) : LinkedVal R t (.f x) (.f y) := ⟨ht, h⟩

theorem isFloat_of_not_isInt {t : DType} (h : t.isInt = false) : t.isFloat = true := by
  cases t <;> first | rfl | cases h

theorem convTo_link (P : Preserved R) (s t : DType) {v : Val F} {v' : Val G} (hv : LinkedVal R s v v') :
    ResLink (LinkedVal R t) (convTo t v) (convTo t v') := by
  unfold convTo
  cases v <;> cases v' <;> first | exact hv.elim | skip
  · cases (show _ = _ from hv)
    cases ht : t.isInt
    · exact ⟨isFloat_of_not_isInt ht, P.ofInt _ _⟩
    · exact rfl
  · rename_i x y
    cases ht : t.isInt
    · exact ⟨isFloat_of_not_isInt ht, P.cvt _ _ _ _ hv.2⟩
    · show ResLink _ (match FOps.toInt x with
        | some n => if fitsInt t n = true then Res.ok (Val.i n) else Res.ub .floatToInt
        | none => Res.ub .floatToInt)
        (match FOps.toInt y with
        | some n => if fitsInt t n = true then Res.ok (Val.i n) else Res.ub .floatToInt
        | none => Res.ub .floatToInt)
      cases hy : FOps.toInt y with
      | none => exact ResLink.ub _ _
      | some n =>
        rw [P.toInt _ x y n hv.2 hy]
        exact ResLink.ite (fun _ => rfl) fun _ => ResLink.ub _ _

theorem cConv_link (P : Preserved R) (s t : DType) {v : Val F} {v' : Val G} (hv : LinkedVal R s v v') :
    ResLink (LinkedVal R t) (cConv s t v) (cConv s t v') :=
  ResLink.ite (fun e => e ▸ hv) fun _ => convTo_link P s t hv

theorem fArith_link (P : Preserved R) (op : AOp) (t : DType) {a b : F} {a' b' : G} (ha : R t a a') (hb : R t b b') :
    R t (fArith op t a b) (fArith op t a' b') := by
  cases op
  · exact P.add _ _ _ _ _ ha hb
  · exact P.sub _ _ _ _ _ ha hb
  · exact P.mul _ _ _ _ _ ha hb
  · exact P.div _ _ _ _ _ ha hb

theorem cArith_link (P : Preserved R) (op : AOp) (l r : DType) {x y : Val F} {x' y' : Val G} (hx : LinkedVal R l x x')
    (hy : LinkedVal R r y y') : ResLink (LinkedVal R (DType.arith l r)) (cArith op l r x y) (cArith op l r x' y') := by
  unfold cArith
  refine (cConv_link P l _ hx).bind fun a a' ha => (cConv_link P r _ hy).bind fun b b' hb => ?_
  cases a <;> cases a' <;> first | exact ha.elim | skip
  · cases b <;> cases b' <;> first | exact hb.elim | skip
    · cases (show _ = _ from ha)
      cases (show _ = _ from hb)
      exact (ResLink.same _).bind fun n _ e => e ▸ rfl
    · exact ResLink.ub _ _
  · cases b <;> cases b' <;> first | exact hb.elim | skip
    · exact ResLink.ub _ _
    · exact ⟨ha.1, fArith_link P op _ ha.2 hb.2⟩

theorem cCmp_link (P : Preserved R) (C : ComparedAlike R) (op : COp) (l r : DType) {x y : Val F} {x' y' : Val G}
    (hx : LinkedVal R l x x') (hy : LinkedVal R r y y') : ResLink Eq (cCmp op l r x y) (cCmp op l r x' y') := by
  unfold cCmp
  refine (cConv_link P l _ hx).bind fun a a' ha => (cConv_link P r _ hy).bind fun b b' hb => ?_
  cases a <;> cases a' <;> first | exact ha.elim | skip
  · cases b <;> cases b' <;> first | exact hb.elim | skip
    · cases (show _ = _ from ha)
      cases (show _ = _ from hb)
      exact rfl
    · exact ResLink.ub _ _
  · cases b <;> cases b' <;> first | exact hb.elim | skip
    · exact ResLink.ub _ _
    · refine ResLink.pure ?_
      cases op
      · exact C.lt _ _ _ _ _ ha.2 hb.2
      · exact C.lt _ _ _ _ _ hb.2 ha.2
      · exact C.le _ _ _ _ _ ha.2 hb.2
      · exact C.le _ _ _ _ _ hb.2 ha.2
      · exact C.eq _ _ _ _ _ ha.2 hb.2
      · exact congrArg not (C.eq _ _ _ _ _ ha.2 hb.2)

theorem cNeg_link (P : Preserved R) (t : DType) {x : Val F} {x' : Val G} (hx : LinkedVal R t x x') :
    ResLink (LinkedVal R (DType.arith t t)) (cNeg t x) (cNeg t x') := by
  cases x <;> cases x' <;> first | exact hx.elim | skip
  · cases (show _ = _ from hx)
    exact ResLink.ite (fun _ => rfl) fun _ => ResLink.ub _ _
  · have e : DType.arith t t = t := by
      have := hx.1
      revert this
      cases t <;> decide
    rw [e]
    exact ⟨hx.1, P.neg _ _ _ hx.2⟩

theorem zeroVal_link (P : Preserved R) (t : DType) : LinkedVal R t (zeroVal t) (zeroVal t) := by
  unfold zeroVal
  cases ht : t.isInt
  · exact ⟨isFloat_of_not_isInt ht, P.zero _⟩
  · exact rfl

theorem zeroS_link (P : Preserved R) (d : Nat) : MLink R Eq (zeroS d) (zeroS d) := by
  unfold zeroS
  refine (getS_link d).bind fun s s' hs => ?_
  have := hs.blob
  revert this
  cases s.blob <;> cases s'.blob <;> intro this <;> first | exact MLink.pure rfl | cases this
  rename_i c c' hc
  refine setS_link d ⟨hs.dt, hs.size, .some (forall₂_map hc fun _ _ _ => ?_)⟩
  rw [hs.dt]
  exact zeroVal_link P _

end
end INNC
