import Verif.Spec.Api
import Verif.Lemmas.Create
/-
Binary operations.
-/
namespace INNC
open Spec
variable {F : Type} [FOps F]

/-! ### Loops that fail -/

omit [FOps F] in
theorem runAll_append {α : Type} (op : α → M F Unit) (l m : List α) :
    runAll op (l ++ m) = (do runAll op l; runAll op m) := by
  induction l with
  | nil => rfl
  | cons a l ih => simp only [List.cons_append, runAll, ih, bind_assoc]

omit [FOps F] in
/-- If the body cannot return on some element, the loop cannot return. -/
theorem runAll_not_ok {α : Type} {op : α → M F Unit} {l : List α} {x : α} (hx : x ∈ l)
    (hop : ∀ H H', op x H ≠ .ok () H') (H H' : Heap F) : runAll op l H ≠ .ok () H' := by
  induction l generalizing H with
  | nil => simp at hx
  | cons a l ih =>
    rw [runAll, M.bind_def]
    rcases List.mem_cons.1 hx with rfl | hx'
    · cases he : op x H with
      | ok u H1 => exact absurd he (hop H H1)
      | throw e H1 => simp
      | ub u => simp
    · cases he : op a H with
      | ok u H1 => exact ih hx' H1
      | throw e H1 => simp
      | ub u => simp

theorem exists_first {α : Type} (p : α → Prop) [DecidablePred p] : ∀ (l : List α), (∃ x ∈ l, p x) →
    ∃ l1 x l2, l = l1 ++ x :: l2 ∧ p x ∧ ∀ y ∈ l1, ¬ p y
  | [], h => by obtain ⟨x, hx, _⟩ := h; simp at hx
  | a :: l, h => by
    by_cases ha : p a
    · exact ⟨[], a, l, rfl, ha, by simp⟩
    · obtain ⟨x, hx, hp⟩ := h
      rcases List.mem_cons.1 hx with rfl | hx'
      · exact absurd hp ha
      · obtain ⟨l1, y, l2, e, h1, h2⟩ := exists_first p l ⟨x, hx', hp⟩
        refine ⟨a :: l1, y, l2, by rw [e]; rfl, h1, fun z hz => ?_⟩
        rcases List.mem_cons.1 hz with rfl | hz'
        · exact ha
        · exact h2 z hz'

omit [FOps F] in
/-- A loop over a storage whose body either updates the cells or stops (throws or is undefined): it stops with the
outcome of the first index at which the body stops. -/
theorem runAll_stop {α : Type} (op : α → M F Unit) (h : Heap F) (d : Nat)
    (upd : α → List (Option (Val F)) → List (Option (Val F))) (P : List (Option (Val F)) → Prop)
    (bad : α → Prop) (l : List α) (c : List (Option (Val F))) (hc : P c)
    (hP : ∀ x ∈ l, ¬ bad x → ∀ c, P c → P (upd x c))
    (hop : ∀ x ∈ l, ¬ bad x → ∀ c, P c → op x (h.setCells d c) = .ok () (h.setCells d (upd x c)))
    (Q : Out (Heap F) Unit → Prop)
    (hbad : ∀ x ∈ l, bad x → ∀ c, P c → Q (op x (h.setCells d c)) ∧ ∀ H, op x (h.setCells d c) ≠ .ok () H)
    (hex : ∃ x ∈ l, bad x) : Q (runAll op l (h.setCells d c)) := by
  classical
  obtain ⟨l1, x, l2, e, hx, hl1⟩ := exists_first bad l hex
  have hmem : ∀ y ∈ l1, y ∈ l := fun y hy => by rw [e]; simp [hy]
  have hxm : x ∈ l := by rw [e]; simp
  have hPf : ∀ (m : List α) c, P c → (∀ y ∈ m, y ∈ l1) → P (m.foldl (fun c x => upd x c) c) := by
    intro m
    induction m with
    | nil => intro c hc _; exact hc
    | cons y m ih =>
      intro c hc hm
      exact ih _ (hP y (hmem y (hm y (by simp))) (hl1 y (hm y (by simp))) c hc) fun z hz => hm z (by simp [hz])
  have h1 := runAll_cells op h d upd P l1 c hc (fun y hy c hc => hP y (hmem y hy) (hl1 y hy) c hc)
    (fun y hy c hc => hop y (hmem y hy) (hl1 y hy) c hc)
  rw [e, runAll_append, M.bind_ok h1]
  have h2 := hbad x hxm hx _ (hPf l1 c hc fun _ h => h)
  rw [runAll, M.bind_def]
  cases ho : op x (h.setCells d (l1.foldl (fun c x => upd x c) c)) with
  | ok u H => exact absurd ho (h2.2 H)
  | throw e H => rw [ho] at h2; exact h2.1
  | ub u => rw [ho] at h2; exact h2.1

/-! ### Shapes -/

theorem bcastRev_total : ∀ u v : List Nat, v.length ≤ u.length →
    ∃ r, bcastRev u v = .ok r ∧ r.length = u.length ∧
      (∀ k a b : Nat, u[k]? = some a → v[k]? = some b → r[k]? = some (max a b)) ∧
      (0 ∉ u → 0 ∉ r)
  | [], [], _ => ⟨[], rfl, rfl, by simp, by simp⟩
  | [], _ :: _, h => by simp at h
  | a :: u, [], _ => by
    obtain ⟨r, h1, h2, _, h4⟩ := bcastRev_total u [] (by simp)
    refine ⟨a :: r, by simp [bcastRev, h1], by simp [h2], by simp, ?_⟩
    simp only [List.mem_cons, not_or]; exact fun h => ⟨h.1, h4 h.2⟩
  | a :: u, b :: v, h => by
    obtain ⟨r, h1, h2, h3, h4⟩ := bcastRev_total u v (by simpa using h)
    refine ⟨max a b :: r, by simp only [bcastRev, bcast_expect, Res.ok_bind, h1, Res.pure_eq], by simp [h2], ?_, ?_⟩
    · intro k x y hx hy
      cases k with
      | zero => simp only [List.getElem?_cons_zero, Option.some.injEq] at *; rw [hx, hy]
      | succ k => simp only [List.getElem?_cons_succ] at *; exact h3 k x y hx hy
    · simp only [List.mem_cons, not_or]
      exact fun h => ⟨by omega, h4 h.2⟩

theorem bshapeRev_none : ∀ {u v : List Nat}, bshapeRev u v = none →
    ∃ k a b : Nat, u[k]? = some a ∧ v[k]? = some b ∧ a ≠ b ∧ a ≠ 1 ∧ b ≠ 1
  | [], _, h => by simp [bshapeRev] at h
  | a :: u, [], h => by simp [bshapeRev] at h
  | a :: u, b :: v, h => by
    simp only [bshapeRev] at h
    cases hd : bdim a b with
    | none =>
      unfold bdim at hd
      split_ifs at hd with h1 h2 h3
      exact ⟨0, a, b, rfl, rfl, h1, h2, h3⟩
    | some d =>
      cases hr : bshapeRev u v with
      | some r => rw [hd, hr] at h; simp at h
      | none =>
        obtain ⟨k, x, y, h1, h2, h3⟩ := bshapeRev_none hr
        exact ⟨k + 1, x, y, by simpa using h1, by simpa using h2, h3⟩

theorem augRev_inv : ∀ {ss is p : List Nat}, augRev ss is = .ok p → ∀ k s i : Nat, ss[k]? = some s → is[k]? = some i →
    s ≠ 1 → i < s
  | [], _, _, _, k, s, i, h, _, _ => by simp at h
  | a :: ss, is, p, h, k, s, i, hs, hi, h1 => by
    unfold augRev at h
    by_cases ha : a = 1
    · simp only [ha, ne_eq, not_true_eq_false, if_false] at h
      cases hr : augRev ss is.tail with
      | ok q =>
        cases k with
        | zero => simp at hs; omega
        | succ k =>
          exact augRev_inv hr k s i (by simpa using hs) (by cases is <;> simp_all) h1
      | throw e => rw [hr] at h; simp at h
      | ub u => rw [hr] at h; simp at h
    · simp only [ne_eq, ha, not_false_eq_true, if_true] at h
      cases is with
      | nil => simp at h
      | cons j js =>
        simp only at h
        by_cases hj : j < a
        · rw [runExpect_decide hj, Res.ok_bind] at h
          cases hr : augRev ss js with
          | ok q =>
            cases k with
            | zero => simp at hs hi; omega
            | succ k => exact augRev_inv hr k s i (by simpa using hs) (by simpa using hi) h1
          | throw e => rw [hr] at h; simp at h
          | ub u => rw [hr] at h; simp at h
        · rw [runExpect_not hj] at h; simp at h

/-- Whatever the shapes, `broadcast_range` returns; if the shapes are incompatible and have no empty axis then the last
index of the range cannot be read in one of the operands. -/
theorem broadcastRange_incompatible {u v : List Nat} (h : bshape u v = none) (hu : 0 ∉ u) (hv : 0 ∉ v) :
    ∃ r idx, broadcastRange u v = .ok r ∧ InBox r idx ∧
      ((∀ p, augRev u.reverse idx.reverse ≠ .ok p) ∨ (∀ p, augRev v.reverse idx.reverse ≠ .ok p)) := by
  have key : ∀ u v : List Nat, v.length ≤ u.length → bshapeRev u.reverse v.reverse = none → 0 ∉ u →
      ∃ r idx, bcastRev u.reverse v.reverse = .ok r ∧ InBox r.reverse idx ∧
      ((∀ p, augRev u.reverse idx.reverse ≠ .ok p) ∨ (∀ p, augRev v.reverse idx.reverse ≠ .ok p)) := by
    intro u v hlen hn hu
    obtain ⟨r, h1, h2, h3, h4⟩ := bcastRev_total u.reverse v.reverse (by simpa using hlen)
    have h0 := h4 (by simpa using hu)
    obtain ⟨k, a, b, ha, hb, hab, ha1, hb1⟩ := bshapeRev_none hn
    have hbox : ∀ r : List Nat, 0 ∉ r → InBox r (r.map (· - 1)) := by
      intro r; induction r with
      | nil => intro _; trivial
      | cons x r ih =>
        intro h; simp only [List.mem_cons, not_or] at h
        exact ⟨by show x - 1 < x; omega, ih h.2⟩
    refine ⟨r, r.reverse.map (· - 1), h1, hbox _ (by simpa using h0), ?_⟩
    have hk := h3 k a b ha hb
    have hi : (r.reverse.map (· - 1)).reverse[k]? = some (max a b - 1) := by
      simp [hk]
    rcases Nat.lt_or_ge a b with hlt | hge
    · left; intro p hp
      have := augRev_inv hp k a _ ha hi ha1
      omega
    · right; intro p hp
      have := augRev_inv hp k b _ hb hi hb1
      omega
  have hn : bshapeRev u.reverse v.reverse = none := by simpa [bshape] using h
  unfold broadcastRange
  by_cases hlen : u.length < v.length
  · obtain ⟨r, idx, h1, h2, h3⟩ := key v u (by omega) (by rw [bshapeRev_comm]; exact hn) hv
    refine ⟨r.reverse, idx, by simp only [hlen, if_true]; rw [h1]; rfl, h2, h3.symm⟩
  · obtain ⟨r, idx, h1, h2, h3⟩ := key u v (by omega) hn hu
    refine ⟨r.reverse, idx, by simp only [hlen, if_false]; rw [h1]; rfl, h2, h3⟩

theorem broadcastRange_total (u v : List Nat) : ∃ r, broadcastRange u v = .ok r := by
  unfold broadcastRange
  by_cases hlen : u.length < v.length
  · obtain ⟨r, h1, _⟩ := bcastRev_total v.reverse u.reverse (by simp; omega)
    exact ⟨r.reverse, by simp only [hlen, if_true]; rw [h1]; rfl⟩
  · obtain ⟨r, h1, _⟩ := bcastRev_total u.reverse v.reverse (by simp; omega)
    exact ⟨r.reverse, by simp only [hlen, if_false]; rw [h1]; rfl⟩

theorem cntFromAugIndex_not_ok {v : Layout} {idx : List Nat} (h : ∀ p, augRev v.sizes.reverse idx.reverse ≠ .ok p) :
    ∀ p, cntFromAugIndex v idx ≠ .ok p := by
  intro p
  unfold cntFromAugIndex
  cases hr : augRev v.sizes.reverse idx.reverse with
  | ok q => exact absurd hr (h q)
  | throw e => simp
  | ub u => simp

omit [FOps F] in
theorem lift_bind_not_ok {α β : Type} {r : Res α} (h : ∀ a, r ≠ .ok a) (f : α → M F β) (H H' : Heap F) (b : β) :
    (M.lift r >>= f) H ≠ .ok b H' := by
  cases r with
  | ok a => exact absurd rfl (h a)
  | throw e => rw [M.bind_throw (M.lift_throw e H)]; simp
  | ub u => rw [M.bind_ub (M.lift_ub u H)]; simp

omit [FOps F] in
theorem bind_not_ok {α β : Type} {x : M F α} {f : α → M F β} {b : β}
    (h : ∀ a H H', f a H ≠ .ok b H') (H H' : Heap F) : (x >>= f) H ≠ .ok b H' := by
  rw [M.bind_def]
  cases x H with
  | ok a H1 => exact h a H1 H'
  | throw e H1 => simp
  | ub u => simp

theorem zipLoop_not_ok {dst l r : Impl} {D S L R : DType} {range : List Nat} {f : Val F → Val F → Res (Val F)}
    {idx : List Nat} (hb : InBox range idx)
    (h : (∀ p, augRev l.view.sizes.reverse idx.reverse ≠ .ok p) ∨
      (∀ p, augRev r.view.sizes.reverse idx.reverse ≠ .ok p)) (H H' : Heap F) :
    zipLoop D S L R range f dst l r H ≠ .ok () H' := by
  unfold zipLoop
  rw [forEach_eq]
  refine runAll_not_ok (mem_rowMajor.2 hb) ?_ H H'
  intro H1 H2
  rcases h with h | h
  · exact lift_bind_not_ok (cntFromAugIndex_not_ok h) _ _ _ _
  · refine bind_not_ok (fun p H3 H4 => ?_) _ _
    refine bind_not_ok (fun x H5 H6 => ?_) _ _
    exact lift_bind_not_ok (cntFromAugIndex_not_ok h) _ _ _ _

/-! ### Running a binary operation -/

/-- The kernel call of `apply_no_grad_binary_op`. -/
def kernelCall (k : Tensor.Kernel F) (order : Bool) (li ri d : Impl) : M F Unit :=
  if !order then
    if li.dtype = DType.larger li.dtype ri.dtype then k li.dtype ri.dtype d li ri
    else k ri.dtype li.dtype d ri li
  else k li.dtype ri.dtype d li ri

theorem applyNoGradBinary_run {h : Heap F} {l r : Nat} {li ri : Impl} {s : List Nat} (k : Tensor.Kernel F) (ord : Bool)
    (hl : h.ts[l]? = some li) (hr : h.ts[r]? = some ri)
    (hs : broadcastRange li.view.sizes ri.view.sizes = .ok s)
    (hsize : vol s * (later li.dtype ri.dtype).size < 9223372036854775808) :
    Tensor.applyNoGradBinary k l r ord h =
      (do kernelCall k ord li ri (newImpl (later li.dtype ri.dtype) s h.st.length); pure h.ts.length : M F Nat)
        (h.alloc (later li.dtype ri.dtype) s) := by
  unfold Tensor.applyNoGradBinary kernelCall
  rw [M.bind_ok (getT_ok hl), M.bind_ok (getT_ok hr)]
  simp only [larger_eq_later]
  rw [hs, M.bind_ok (M.lift_ok _ _), M.bind_ok (create_ok hsize h), M.bind_ok (getT_ok (alloc_getT h _ s))]
  cases ord
  · by_cases hd : li.dtype = later li.dtype ri.dtype
    · simp only [Bool.not_false, if_true, if_pos hd]
    · simp only [Bool.not_false, if_true, if_neg hd]
  · rfl

theorem applyBinary_ok {h : Heap F} {l r : Nat} {li ri : Impl} {s : List Nat} {k : Tensor.Kernel F} {ord : Bool}
    {back : BackKind} {g : List Nat → Val F}
    (hl : h.ts[l]? = some li) (hr : h.ts[r]? = some ri)
    (hs : broadcastRange li.view.sizes ri.view.sizes = .ok s)
    (hsize : vol s * (later li.dtype ri.dtype).size < 9223372036854775808)
    (hk : ∃ c', kernelCall k ord li ri (newImpl (later li.dtype ri.dtype) s h.st.length)
        (h.alloc (later li.dtype ri.dtype) s) = .ok () ((h.alloc (later li.dtype ri.dtype) s).setCells h.st.length c') ∧
      Reads ((h.alloc (later li.dtype ri.dtype) s).setCells h.st.length c')
        (newImpl (later li.dtype ri.dtype) s h.st.length) g) :
    ∃ h' j, Tensor.applyBinary k back l r ord h = .ok h.ts.length h' ∧ Denotes h' h.ts.length (later li.dtype ri.dtype) s g ∧
      Extends h h' ∧ Fresh h h' h.ts.length ∧ h'.ts[h.ts.length]? = some j ∧ j.grad = none ∧ j.data = h.st.length ∧
      j.view = Layout.contig s ∧ j.retainGrad = false ∧
      j.requiresGrad = (li.requiresGrad || ri.requiresGrad) ∧
      j.gradFn = (if li.requiresGrad || ri.requiresGrad then some ⟨back, [l, r], 0, 0, 0⟩ else none) := by
  obtain ⟨c', hrun, hreads⟩ := hk
  have hrun' := applyNoGradBinary_run k ord hl hr hs hsize
  rw [M.bind_ok hrun] at hrun'
  have hext : Extends h ((h.alloc (later li.dtype ri.dtype) s).setCells h.st.length c') :=
    (extends_alloc h _ s).setCells (Nat.le_refl _) c'
  have hnew : ((h.alloc (later li.dtype ri.dtype) s).setCells h.st.length c').ts[h.ts.length]? =
      some (newImpl (later li.dtype ri.dtype) s h.st.length) := alloc_getT h _ s
  unfold Tensor.applyBinary
  rw [M.bind_ok hrun', M.bind_ok (getT_ok (hext.ts _ _ hl)), M.bind_ok (getT_ok (hext.ts _ _ hr))]
  by_cases hg : li.requiresGrad || ri.requiresGrad
  · have hg' : ¬ (!li.requiresGrad && !ri.requiresGrad) = true := by
      revert hg; cases li.requiresGrad <;> cases ri.requiresGrad <;> decide
    rw [if_neg hg']
    refine ⟨_, { newImpl (later li.dtype ri.dtype) s h.st.length with
      requiresGrad := true, gradFn := some ⟨back, [l, r], 0, 0, 0⟩ }, M.bind_ok (setGradFn_ok hnew _ _), ?_, hext.setT (Nat.le_refl _) _, ?_,
      List.getElem?_set_self (getElem?_lt hnew), rfl, rfl, rfl, rfl, hg.symm, ?_⟩
    · exact ⟨_, List.getElem?_set_self (getElem?_lt hnew), rfl, rfl, (hreads.set_ts _).flags rfl rfl rfl⟩
    · exact ⟨Nat.le_refl _, _, List.getElem?_set_self (getElem?_lt hnew), Nat.le_refl _⟩
    · rw [if_pos hg]
  · have hg' : (!li.requiresGrad && !ri.requiresGrad) = true := by
      revert hg; cases li.requiresGrad <;> cases ri.requiresGrad <;> decide
    rw [if_pos hg']
    exact ⟨_, _, rfl, ⟨_, hnew, rfl, rfl, hreads⟩, hext, ⟨Nat.le_refl _, _, hnew, Nat.le_refl _⟩, hnew, rfl, rfl, rfl,
      rfl, (by simpa using hg : (li.requiresGrad || ri.requiresGrad) = false).symm, (if_neg hg).symm⟩

def arithKernel (op : AOp) : Tensor.Kernel F :=
  match op with
  | .add => tensorAdd
  | .sub => tensorSub
  | .mul => tensorMul
  | .div => tensorDiv

def arithOrder : AOp → Bool
  | .add => false
  | .sub => true
  | .mul => false
  | .div => true

def arithBack : AOp → BackKind
  | .add => .add
  | .sub => .sub
  | .mul => .mul
  | .div => .div

theorem arithT_eq (op : AOp) (l r : Nat) :
    arithT (F := F) op l r = Tensor.applyBinary (arithKernel op) (arithBack op) l r (arithOrder op) := by
  cases op <;> rfl

/-- Every arithmetic kernel is the element loop over the broadcast shape. -/
theorem arithKernel_eq (op : AOp) {L R : DType} {dst l r : Impl} {s : List Nat}
    (hL : (op = .add ∨ op = .mul) → later L R = L)
    (hs : broadcastRange l.view.sizes r.view.sizes = .ok s) (hd : dst.view.sizes = s) :
    arithKernel (F := F) op L R dst l r =
      zipLoop (later L R) (DType.arith L R) L R s (cArith op L R) dst l r := by
  cases op
  · show tensorAdd L R dst l r = _
    rw [tensorAdd, hs, hL (Or.inl rfl)]; rfl
  · show tensorSub L R dst l r = _
    rw [tensorSub, hs, common_eq]; rfl
  · show tensorMul L R dst l r = _
    rw [tensorMul, hd, hL (Or.inr rfl)]
  · show tensorDiv L R dst l r = _
    rw [tensorDiv, hd, common_eq]

/-- Which operand is put first. -/
def swaps (op : AOp) (s t : DType) : Prop := (op = .add ∨ op = .mul) ∧ order s < order t

instance (op : AOp) (s t : DType) : Decidable (swaps op s t) := by unfold swaps; infer_instance

theorem broadcastRange_comm_ok {u v r : List Nat} (h : bshape u v = some r) (hs : ¬ stretched u v) :
    broadcastRange v u = .ok r :=
  broadcastRange_eq (by rw [bshape_comm]; exact h) (fun hc => hs ((stretchRev_comm _ _).1 hc))

theorem kernelCall_arith (op : AOp) (li ri d : Impl) :
    kernelCall (F := F) (arithKernel op) (arithOrder op) li ri d =
      if swaps op li.dtype ri.dtype then arithKernel op ri.dtype li.dtype d ri li
      else arithKernel op li.dtype ri.dtype d li ri := by
  have hlt : (li.dtype = later li.dtype ri.dtype) ↔ ¬ order li.dtype < order ri.dtype := by
    cases li.dtype <;> cases ri.dtype <;> decide
  unfold kernelCall swaps
  rw [larger_eq_later]
  simp only [hlt]
  by_cases ho : order li.dtype < order ri.dtype <;> cases op <;> simp [arithOrder, ho]

theorem later_of_not_swaps {op : AOp} {s t : DType} (h : ¬ swaps op s t) (ho : op = .add ∨ op = .mul) :
    later s t = s := by
  unfold swaps at h
  unfold later
  rw [if_pos (by by_contra hc; exact h ⟨ho, by omega⟩)]

theorem later_of_swaps {op : AOp} {s t : DType} (h : swaps op s t) : later t s = t := by
  unfold swaps at h
  unfold later
  rw [if_pos (by omega)]

theorem elemBinary_eq (op : AOp) (s t : DType) (x y : Val F) :
    elemBinary op s t x y = if swaps op s t then elemArith op t s y x else elemArith op s t x y := rfl

theorem kernelElem_ok {op : AOp} {l r : DType} {x y z : Val F} (hx : x.HasType l) (hy : y.HasType r)
    (h : elemArith op l r x y = some z) :
    (cArith op l r x y >>= cConv (DType.arith l r) (later l r)) = .ok z ∧ z.HasType (later l r) := by
  have := kernelArith_eq op hx hy
  rw [h] at this
  exact this

theorem kernelElem_none {op : AOp} {l r : DType} {x y : Val F} (hx : x.HasType l) (hy : y.HasType r)
    (h : elemArith op l r x y = none) :
    (cArith op l r x y >>= cConv (DType.arith l r) (later l r)) = .ub .overflow ∨
    (cArith op l r x y >>= cConv (DType.arith l r) (later l r)) = .ub .divZero := by
  have := kernelArith_eq op hx hy
  rw [h] at this
  exact this

theorem arith_ok {op : AOp} {h : Heap F} {l r : Nat} {dl dr : DType} {sl sr s : List Nat} {fl fr g : List Nat → Val F}
    (hl : Denotes h l dl sl fl) (hr : Denotes h r dr sr fr) (hs : bshape sl sr = some s) (hst : ¬ stretched sl sr)
    (hsize : vol s * (later dl dr).size < 9223372036854775808)
    (hg : ∀ idx, InBox s idx → elemBinary op dl dr (fl (project sl idx)) (fr (project sr idx)) = some (g idx)) :
    ∃ h' li ri j, h.ts[l]? = some li ∧ h.ts[r]? = some ri ∧
      arithT op l r h = .ok h.ts.length h' ∧ Denotes h' h.ts.length (later dl dr) s g ∧
      Extends h h' ∧ Fresh h h' h.ts.length ∧ h'.ts[h.ts.length]? = some j ∧ j.grad = none ∧ j.data = h.st.length ∧
      j.view = Layout.contig s ∧ j.retainGrad = false ∧
      j.requiresGrad = (li.requiresGrad || ri.requiresGrad) ∧
      j.gradFn = (if li.requiresGrad || ri.requiresGrad then some ⟨arithBack op, [l, r], 0, 0, 0⟩ else none) := by
  obtain ⟨li, hli, rfl, rfl, hlr⟩ := hl
  obtain ⟨ri, hri, rfl, rfl, hrr⟩ := hr
  have hbr := broadcastRange_eq hs hst
  have hslots := slots_alloc (dt := later li.dtype ri.dtype) hsize h
  have hext := extends_alloc h (later li.dtype ri.dtype) s
  have hne1 : li.data ≠ h.st.length := by have := hlr.data_lt; omega
  have hne2 : ri.data ≠ h.st.length := by have := hrr.data_lt; omega
  have hb1 : ∀ idx, InBox s idx → Reaches li idx := fun idx hb =>
    ⟨by rw [hb.length]; exact bshape_length_left hs, project_inBox_left hs hb⟩
  have hb2 : ∀ idx, InBox s idx → Reaches ri idx := fun idx hb =>
    ⟨by rw [hb.length]; exact bshape_length_right hs, project_inBox_right hs hb⟩
  have hk : ∃ c', kernelCall (arithKernel op) (arithOrder op) li ri (newImpl (later li.dtype ri.dtype) s h.st.length)
        (h.alloc (later li.dtype ri.dtype) s) = .ok () ((h.alloc (later li.dtype ri.dtype) s).setCells h.st.length c') ∧
      Reads ((h.alloc (later li.dtype ri.dtype) s).setCells h.st.length c')
        (newImpl (later li.dtype ri.dtype) s h.st.length) g := by
    rw [kernelCall_arith]
    by_cases hsw : swaps op li.dtype ri.dtype
    · rw [if_pos hsw, arithKernel_eq op (fun _ => later_of_swaps hsw) (broadcastRange_comm_ok hs hst) rfl]
      refine zipLoop_ok hslots rfl (later_comm _ _) (hrr.of_extends hext) (hlr.of_extends hext) rfl rfl hne2 hne1 hb2 hb1 ?_
      intro idx hb
      have := hg idx hb
      rw [elemBinary_eq, if_pos hsw] at this
      exact kernelElem_ok (hrr.typed _ (hb2 idx hb).2) (hlr.typed _ (hb1 idx hb).2) this
    · rw [if_neg hsw, arithKernel_eq op (fun ho => later_of_not_swaps hsw ho) hbr rfl]
      refine zipLoop_ok hslots rfl rfl (hlr.of_extends hext) (hrr.of_extends hext) rfl rfl hne1 hne2 hb1 hb2 ?_
      intro idx hb
      have := hg idx hb
      rw [elemBinary_eq, if_neg hsw] at this
      exact kernelElem_ok (hlr.typed _ (hb1 idx hb).2) (hrr.typed _ (hb2 idx hb).2) this
  rw [arithT_eq]
  obtain ⟨h', j, e⟩ := applyBinary_ok (back := arithBack op) hli hri hbr hsize hk
  exact ⟨h', li, ri, j, hli, hri, e⟩

end INNC
