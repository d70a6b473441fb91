import Verif.Lemmas.Mem
import Verif.Lemmas.All
import Verif.Lemmas.ViewOps
/-
Memory safety of the element loops.
-/
namespace INNC
open Spec Tensor
variable {F : Type} [FOps F]

/-! ### Values -/

theorem yields_conv {s t : DType} {v : Val F} (hv : v.HasType s) : Yields (cConv s t v) (Val.HasType t) := by
  rw [cConv_eq hv]
  cases hc : convert s t v with
  | none => exact .inr (.inr (.inl rfl))
  | some w => exact convert_hasType hc

theorem arith_isInteger (l r : DType) : isInteger (DType.arith l r) = (isInteger l && isInteger r) := by
  cases l <;> cases r <;> rfl

theorem yields_iArith (op : AOp) {t : DType} (ht : isInteger t = true) (a b : Int) :
    Yields (iArith op t a b) fun n => (Val.i n : Val F).HasType t := by
  have h := iArith_eq op t a b
  cases he : exact op a b with
  | none => rw [he] at h; simp only at h; rw [h]; exact .inr (.inl rfl)
  | some n =>
    rw [he] at h
    simp only at h
    by_cases hr : InRange (width t) n
    · rw [if_pos hr] at h; rw [h]; exact (hasType_i (F := F)).2 ⟨ht, hr⟩
    · rw [if_neg hr] at h; rw [h]; exact .inl rfl

theorem yields_arith (op : AOp) {l r : DType} {x y : Val F} (hx : x.HasType l) (hy : y.HasType r) :
    Yields (cArith op l r x y) (Val.HasType (DType.arith l r)) := by
  unfold cArith
  refine yields_bind (yields_conv hx) fun x' hx' => yields_bind (yields_conv hy) fun y' hy' => ?_
  cases x' with
  | i a =>
    cases y' with
    | i b => exact yields_bind (yields_iArith (F := F) op (hasType_i.1 hx').1 a b) fun n hn => hn
    | f b => rw [hasType_i] at hx'; rw [hasType_f] at hy'; rw [hx'.1] at hy'; cases hy'
  | f a =>
    cases y' with
    | i b => rw [hasType_i] at hy'; rw [hasType_f] at hx'; rw [hy'.1] at hx'; cases hx'
    | f b => exact (hasType_f (F := F) (x := fArith op (DType.arith l r) a b)).2 (hasType_f.1 hx')

theorem yields_cmp (op : COp) {l r : DType} {x y : Val F} (hx : x.HasType l) (hy : y.HasType r) :
    Yields (cCmp op l r x y) fun _ => True := by rw [cmp_eq op hx hy]; trivial

theorem yields_neg {t : DType} {x : Val F} (hx : x.HasType t) : Yields (cNeg t x) (Val.HasType (DType.arith t t)) := by
  cases x with
  | i n =>
    simp only [cNeg]
    split
    · next hf =>
      refine (hasType_i (F := F)).2 ⟨?_, fitsInt_iff.1 hf⟩
      rw [arith_isInteger, (hasType_i.1 hx).1]; rfl
    · exact .inl rfl
  | f a => exact (hasType_f (x := FOps.neg a)).2 (by rw [arith_isInteger, hasType_f.1 hx]; rfl)

theorem hasType_small {n : Int} (h : -128 ≤ n ∧ n < 128) {t : DType} (ht : isInteger t = true) : (Val.i n : Val F).HasType t := by
  refine hasType_i.2 ⟨ht, ?_⟩
  cases t <;> first | (unfold InRange; simp only [width]; norm_num; omega) | cases ht

theorem zeroVal_hasType (t : DType) : (zeroVal t : Val F).HasType t := by
  unfold zeroVal
  split
  · next h => exact hasType_small (by omega) (by rw [← isInt_eq]; exact h)
  · next h => exact hasType_f.2 (by rw [← isInt_eq]; simpa using h)

theorem yields_absVal {To From : DType} {x : Val F} (hx : x.HasType From) : Yields (absVal To From x) (Val.HasType To) := by
  unfold absVal
  refine yields_bind (yields_cmp .ge hx (hasType_small (F := F) (by omega) rfl)) fun b _ => ?_
  cases b
  · exact yields_bind (yields_neg hx) fun z hz => yields_conv hz
  · exact yields_bind (yields_conv hx) fun z hz => yields_conv hz

theorem yields_absValGrad {To From : DType} {x : Val F} (hx : x.HasType From) : Yields (absValGrad To From x) (Val.HasType To) := by
  unfold absValGrad
  refine yields_bind (yields_cmp .ge hx (hasType_small (F := F) (by omega) rfl)) fun b _ => ?_
  cases b
  · exact yields_bind (yields_neg hx) fun z hz => yields_conv hz
  · exact yields_conv hx

theorem yields_signVal {From : DType} {x : Val F} (hx : x.HasType From) : Yields (signVal From x) (Val.HasType From) := by
  unfold signVal
  refine yields_bind (yields_cmp .ge hx (hasType_small (F := F) (by omega) rfl)) fun b _ => ?_
  exact yields_conv (hasType_small (F := F) (by cases b <;> simp) rfl)

theorem yields_cmpVal (op : COp) {L R : DType} {x y : Val F} (hx : x.HasType L) (hy : y.HasType R) :
    Yields (cmpVal op L R x y) (Val.HasType .i8) := by
  unfold cmpVal
  refine yields_bind (yields_cmp op hx hy) fun b _ => ?_
  exact hasType_small (F := F) (by cases b <;> simp) rfl

/-! ### Ranges -/

theorem bcastRev_val : ∀ u v : List Nat, v.length ≤ u.length →
    bcastRev u v = .ok (List.zipWith max u (v ++ List.replicate (u.length - v.length) 0))
  | [], [], _ => rfl
  | [], _ :: _, h => by simp at h
  | a :: u, [], h => by
    have := bcastRev_nil_right (a :: u)
    rw [this]
    congr 1
    simp only [List.length_nil, Nat.sub_zero, List.nil_append]
    have : ∀ l : List Nat, l = List.zipWith max l (List.replicate l.length 0) := by
      intro l
      induction l with
      | nil => rfl
      | cons x l ih => simp only [List.length_cons, List.replicate_succ, List.zipWith_cons_cons, Nat.max_zero]; rw [← ih]
    exact this _
  | a :: u, b :: v, h => by
    rw [bcastRev, bcast_expect, Res.ok_bind, bcastRev_val u v (by simpa using h)]
    simp

theorem zipWith_reverse' {f : Nat → Nat → Nat} {a b : List Nat} (h : a.length = b.length) :
    (List.zipWith f a b).reverse = List.zipWith f a.reverse b.reverse := List.reverse_zipWith h

theorem broadcastRange_max (u v : List Nat) : broadcastRange u v = .ok (maxShape u v) := by
  unfold broadcastRange maxShape
  by_cases h : u.length < v.length
  · simp only [if_pos h]
    rw [bcastRev_val _ _ (by simp; omega)]
    show Res.ok _ = _
    congr 1
    rw [List.reverse_zipWith (by simp; omega)]
    have e1 : max u.length v.length = v.length := by omega
    simp only [List.reverse_append, List.reverse_reverse, List.length_reverse, List.reverse_replicate, e1, Nat.sub_self, List.replicate_zero,
      List.nil_append]
    exact List.zipWith_comm_of_comm Nat.max_comm
  · simp only [if_neg h]
    rw [bcastRev_val _ _ (by simp; omega)]
    show Res.ok _ = _
    congr 1
    rw [List.reverse_zipWith (by simp; omega)]
    have e1 : max u.length v.length = u.length := by omega
    simp only [List.reverse_append, List.reverse_reverse, List.length_reverse, List.reverse_replicate, e1, Nat.sub_self, List.replicate_zero,
      List.nil_append]

theorem length_maxShape (u v : List Nat) : (maxShape u v).length = max u.length v.length := by
  unfold maxShape
  simp

/-! ### Loops -/

theorem mem_zipLoop {h : Heap F} {D S L R : DType} {range : List Nat} {f : Val F → Val F → Res (Val F)} {dst l r : Impl}
    (hd : Sites h dst) (hl : Sits h l) (hr : Sits h r) (hD : D = dst.dtype) (hL : L = l.dtype) (hR : R = r.dtype)
    (h1 : l.view.sizes.length ≤ range.length) (h2 : r.view.sizes.length ≤ range.length) (h3 : dst.view.sizes.length ≤ range.length)
    (hf : ∀ x y : Val F, x.HasType L → y.HasType R → Yields (f x y) (Val.HasType S)) :
    Mem h (zipLoop D S L R range f dst l r h) fun _ h' => ∀ sv, InBox range sv → InBox dst.view.sizes sv → Wrote dst sv h' := by
  unfold zipLoop
  refine mem_forEach (D := fun sv h' => InBox dst.view.sizes sv → Wrote dst sv h') (fun x a b hx hk hb => (hx hb).retains hk) fun sv hb h' hk => ?_
  have hlen := hb.length
  rw [← bind_assoc]
  refine mem_bind (mem_loadAug (hl.retains hk) (by omega) hL) fun x ha ka hx => ?_
  rw [← bind_assoc]
  refine mem_bind (mem_loadAug ((hr.retains hk).retains ka) (by omega) hR) fun y hb kb hy => ?_
  refine mem_bind (mem_lift (Q := fun z _ => z.HasType S) (hf x y hx hy)) fun z hc kc hz => ?_
  refine mem_bind (mem_lift (Q := fun z _ => z.HasType D) (yields_conv hz)) fun w he ke hw => ?_
  exact mem_storeAug ((((hd.retains hk).retains ka).retains kb).retains kc |>.retains ke) (by omega) hD hw

/-- A tensor whose indices are all written and whose elements fill the storage is in good order. -/
theorem Sits.of_wrote {h : Heap F} {i : Impl} (hs : Sites h i) (hfull : ∀ p, Spot h i p → ∃ idx, InBox i.view.sizes idx ∧ position i.view idx = p)
    (hw : ∀ sv, InBox i.view.sizes sv → Wrote i sv h) : Sits h i := by
  refine ⟨hs, fun p hp => ?_⟩
  obtain ⟨idx, hb, e⟩ := hfull p hp
  obtain ⟨q, e', hq⟩ := hw idx hb
  rw [e] at e'
  have : p = q := by exact_mod_cast e'
  rw [this]; exact hq

theorem mem_copyLoop {h : Heap F} {To From : DType} {dst frm : Impl} (hd : Sites h dst) (hf : Sits h frm)
    (hT : To = dst.dtype) (hF : From = frm.dtype) (hsz : frm.view.sizes = dst.view.sizes) :
    Mem h (copyLoop To From dst frm h) fun _ h' => ∀ sv, InBox dst.view.sizes sv → Wrote dst sv h' := by
  unfold copyLoop
  refine mem_forEach (D := fun sv h' => Wrote dst sv h') (fun x a b hx hk => hx.retains hk) fun sv hb h' hk => ?_
  rw [← bind_assoc]
  refine mem_bind (mem_loadIndex (hf.retains hk) (by rw [hsz]; exact hb) hF) fun x ha ka hx => ?_
  refine mem_bind (mem_lift (Q := fun z _ => z.HasType To) (yields_conv hx)) fun w he ke hw => ?_
  exact mem_storeIndex (((hd.retains hk).retains ka).retains ke) hb hT hw

theorem mem_tensorFill {h : Heap F} {T N : DType} {dst num : Impl} (hd : Sites h dst) (hn : Ready h num 0) (hT : T = dst.dtype)
    (hN : N = num.dtype) : Mem h (tensorFill T N dst num h) fun _ h' => ∀ sv, InBox dst.view.sizes sv → Wrote dst sv h' := by
  unfold tensorFill
  refine mem_bind (mem_load hn hN) fun v ha ka hv => ?_
  refine mem_bind (mem_lift (Q := fun z _ => z.HasType T) (yields_conv hv)) fun w he ke hw => ?_
  have hd' := (hd.retains ka).retains ke
  by_cases hz : dst.view.sizes.length ≠ 0
  · rw [if_pos hz]
    refine mem_forEach (D := fun sv h' => Wrote dst sv h') (fun x a b hx hk => hx.retains hk) fun sv hb h' hk => ?_
    exact mem_storeIndex (hd'.retains hk) hb hT hw
  · rw [if_neg hz]
    have hz' : dst.view.sizes = [] := List.length_eq_zero_iff.1 (by simpa using hz)
    have hb : InBox dst.view.sizes [] := by rw [hz']; trivial
    obtain ⟨p, e, e', hp⟩ := hd'.index hb
    have : p = dst.view.offset := by
      have : position dst.view [] = dst.view.offset := by
        unfold position
        cases dst.view.strides <;> simp [dot]
      rw [this] at e'; exact_mod_cast e'.symm
    subst this
    refine mem_mono (mem_store hp hT hw) fun _ h' _ q sv hb' => ?_
    rw [hz'] at hb'
    cases sv with
    | nil => exact ⟨_, e', q⟩
    | cons a l => exact absurd hb' (by simp [InBox])

theorem mem_eyeGo {T : DType} {dst : Impl} (hT : T = dst.dtype) : ∀ (l : List Nat) (h : Heap F), Sites h dst →
    (∀ k ∈ l, InBox dst.view.sizes [k, k]) → Mem h (eyeGo T dst l h) fun _ _ => True
  | [], h, _, _ => mem_pure trivial
  | k :: l, h, hd, hin => by
    unfold eyeGo
    refine mem_bind (mem_lift (Q := fun z _ => z.HasType T) (yields_conv (hasType_small (F := F) (by omega) rfl))) fun w he ke hw => ?_
    rw [← bind_assoc]
    refine mem_bind (mem_storeIndex (hd.retains ke) (hin k (by simp)) hT hw) fun _ ha ka _ => ?_
    exact mem_eyeGo hT l ha ((hd.retains ke).retains ka) fun j hj => hin j (by simp [hj])

theorem mem_accInto {h : Heap F} {To From : DType} {dst frm : Impl} (hd : Ready h dst 0) (hf : Sits h frm) (hT : To = dst.dtype)
    (hF : From = frm.dtype) {sv : List Nat} (hb : InBox frm.view.sizes sv) : Mem h (accInto To From dst frm sv h) fun _ _ => True := by
  unfold accInto
  rw [← bind_assoc]
  refine mem_bind (mem_loadIndex hf hb hF) fun x ha ka hx => ?_
  refine mem_bind (mem_load (hd.retains ka) hT) fun y hb' kb hy => ?_
  refine mem_bind (mem_lift (Q := fun z _ => z.HasType (DType.arith To From)) (yields_arith .add hy hx)) fun z hc kc hz => ?_
  refine mem_bind (mem_lift (Q := fun z _ => z.HasType To) (yields_conv hz)) fun w he ke hw => ?_
  exact mem_mono (mem_store ((((hd.retains ka).retains kb).retains kc).retains ke).spot hT hw) fun _ _ _ _ => trivial

theorem sumBody_eq (To From : DType) (dst frm : Impl) (h0 : vol frm.view.sizes ≠ 0) (hne : frm.view.sizes.length ≠ 0) :
    sumBody (F := F) To From dst frm = forEach frm.view.sizes (accInto To From dst frm) := by
  unfold sumBody forEach forEachWith
  rw [if_pos hne, if_neg, if_pos hne]
  intro hc
  rw [List.any_eq_true] at hc
  obtain ⟨x, hx, hx0⟩ := hc
  have : x = 0 := by simpa using hx0
  exact h0 (vol_eq_zero.2 (this ▸ hx))

theorem mem_sumBody {h : Heap F} {To From : DType} {dst frm : Impl} (hd : Ready h dst 0) (hf : Sits h frm) (hT : To = dst.dtype)
    (hF : From = frm.dtype) (h0 : vol frm.view.sizes ≠ 0) : Mem h (sumBody To From dst frm h) fun _ _ => True := by
  by_cases hne : frm.view.sizes.length ≠ 0
  · rw [sumBody_eq _ _ _ _ h0 hne]
    refine mem_mono (mem_forEach (D := fun _ _ => True) (fun _ _ _ _ _ => trivial) fun sv hb h' hk => ?_) fun _ _ _ _ => trivial
    exact mem_accInto (hd.retains hk) (hf.retains hk) hT hF hb
  · unfold sumBody
    rw [if_neg hne]
    have hz' : frm.view.sizes = [] := List.length_eq_zero_iff.1 (by simpa using hne)
    obtain ⟨p, e, e', hp⟩ := hf.index (idx := []) (by rw [hz']; trivial)
    have : p = frm.view.offset := by
      have : position frm.view [] = frm.view.offset := by
        unfold position
        cases frm.view.strides <;> simp [dot]
      rw [this] at e'; exact_mod_cast e'.symm
    subst this
    refine mem_bind (mem_load (hf.full _ hp) hF) fun x ha ka hx => ?_
    refine mem_bind (mem_lift (Q := fun z _ => z.HasType To) (yields_conv hx)) fun w he ke hw => ?_
    exact mem_mono (mem_store ((hd.retains ka).retains ke).spot hT hw) fun _ _ _ _ => trivial

theorem mem_tensorSum {h : Heap F} {To From : DType} {dst frm : Impl} (hd : Ready h dst 0) (hf : Sits h frm) (hT : To = dst.dtype)
    (hF : From = frm.dtype) : Mem h (tensorSum To From dst frm h) fun _ _ => True := by
  unfold tensorSum
  split
  · exact mem_pure trivial
  · next h0 =>
    refine mem_sumBody hd hf hT hF fun hc => h0 ?_
    rw [numel_eq_vol (by omega), hc]

theorem convTo_int_hasType {t : DType} (n : Int) : Yields (convTo t (.i n : Val F)) (Val.HasType t) := by
  unfold convTo
  cases ht : t.isInt with
  | true =>
    refine (hasType_i (F := F)).2 ⟨by rw [← isInt_eq]; exact ht, ?_⟩
    rw [bits_eq, reduce_eq (width_pos t)]
    exact reduce_inRange (width_pos t) n
  | false => exact (hasType_f (F := F) (x := FOps.ofInt t n)).2 (by rw [← isInt_eq]; exact ht)

theorem mem_tensorMean {h : Heap F} {To From : DType} {dst frm : Impl} (hd : Ready h dst 0) (hf : Sits h frm) (hT : To = dst.dtype)
    (hF : From = frm.dtype) : Mem h (tensorMean To From dst frm h) fun _ _ => True := by
  unfold tensorMean
  split
  · exact mem_pure trivial
  · next h0 =>
    refine mem_bind (mem_lift (Q := fun z _ => z.HasType To) (convTo_int_hasType _)) fun n ha ka hn => ?_
    refine mem_bind (mem_sumBody (hd.retains ka) (hf.retains ka) hT hF fun hc => h0 (by rw [numel_eq_vol (by omega), hc])) fun _ hb kb _ => ?_
    have hd' := (hd.retains ka).retains kb
    refine mem_bind (mem_load hd' hT) fun x hc kc hx => ?_
    refine mem_bind (mem_lift (Q := fun z _ => z.HasType (DType.arith To To)) (yields_arith .div hx hn)) fun z hd kd hz => ?_
    refine mem_bind (mem_lift (Q := fun z _ => z.HasType To) (yields_conv hz)) fun w he ke hw => ?_
    exact mem_mono (mem_store (((hd'.retains kc).retains kd).retains ke).spot hT hw) fun _ _ _ _ => trivial

theorem mem_tensorAbs {h : Heap F} {To From : DType} {dst frm : Impl} {g : Option Impl} (hd : Sites h dst) (hf : Sits h frm)
    (hT : To = dst.dtype) (hF : From = frm.dtype) (hsz : frm.view.sizes = dst.view.sizes)
    (hg : ∀ gi, g = some gi → Sites h gi ∧ gi.dtype = From ∧ gi.view.sizes = dst.view.sizes) :
    Mem h (tensorAbs To From dst frm g h) fun _ h' => ∀ sv, InBox dst.view.sizes sv → Wrote dst sv h' ∧ ∀ gi, g = some gi → Wrote gi sv h' := by
  unfold tensorAbs
  cases g with
  | none =>
    refine mem_mono (?_ : Mem h _ fun _ h' => ∀ sv, InBox dst.view.sizes sv → Wrote dst sv h') fun _ _ _ hw sv hb => ⟨hw sv hb, fun _ e => by cases e⟩
    refine mem_forEach (D := fun sv h' => Wrote dst sv h') (fun x a b hx hk => hx.retains hk) fun sv hb h' hk => ?_
    rw [← bind_assoc]
    refine mem_bind (mem_loadIndex (hf.retains hk) (by rw [hsz]; exact hb) hF) fun x ha ka hx => ?_
    refine mem_bind (mem_lift (Q := fun z _ => z.HasType To) (yields_absVal hx)) fun w he ke hw => ?_
    exact mem_storeIndex (((hd.retains hk).retains ka).retains ke) hb hT hw
  | some gi =>
    obtain ⟨hgs, hgd, hgz⟩ := hg gi rfl
    refine mem_mono (?_ : Mem h _ fun _ h' => ∀ sv, InBox dst.view.sizes sv → Wrote dst sv h' ∧ Wrote gi sv h') fun _ _ _ hw sv hb =>
      ⟨(hw sv hb).1, fun _ e => by obtain rfl := Option.some.inj e; exact (hw sv hb).2⟩
    refine mem_forEach (D := fun sv h' => Wrote dst sv h' ∧ Wrote gi sv h') (fun x a b hx hk => ⟨hx.1.retains hk, hx.2.retains hk⟩) fun sv hb h' hk => ?_
    rw [← bind_assoc]
    refine mem_bind (mem_loadIndex (hf.retains hk) (by rw [hsz]; exact hb) hF) fun x ha ka hx => ?_
    refine mem_bind (mem_lift (Q := fun z _ => z.HasType From) (yields_signVal hx)) fun s hs ks hsv => ?_
    rw [← bind_assoc]
    refine mem_bind (mem_storeIndex (((hgs.retains hk).retains ka).retains ks) (by rw [hgz]; exact hb) hgd.symm hsv) fun _ h2 k2 hwg => ?_
    refine mem_bind (mem_lift (Q := fun z _ => z.HasType To) (yields_absValGrad hx)) fun w he ke hw => ?_
    refine mem_mono ?_ fun _ h3 k3 hwd => ⟨hwd, (hwg.retains ke).retains k3⟩
    exact mem_storeIndex (((((hd.retains hk).retains ka).retains ks).retains k2).retains ke) hb hT hw

theorem mem_extLoop {keep : COp} {T : DType} {dst frm : Impl} (hT : T = dst.dtype) (hF : T = frm.dtype) :
    ∀ (l : List (List Nat)) (h : Heap F) (b : List Nat), Ready h dst 0 → Sits h frm → (∀ sv ∈ l, InBox frm.view.sizes sv) →
      (b = [] ∨ InBox frm.view.sizes b) →
      Mem h ((runAll (extBody keep T dst frm) l).run b h) fun r _ => r.2 = [] ∨ InBox frm.view.sizes r.2
  | [], h, b, _, _, _, hb => mem_pure hb
  | x :: l, h, b, hd, hf, hin, hb => by
    rw [runAll, StateT.run_bind]
    refine mem_bind (Q := fun r _ => r.2 = [] ∨ InBox frm.view.sizes r.2) ?_ fun r h' k hr => ?_
    · unfold extBody
      simp only [StateT.run_bind, StateT.run_monadLift, monadLift_self, bind_assoc, pure_bind]
      rw [← bind_assoc]
      refine mem_bind (mem_loadIndex hf (hin x (by simp)) hF) fun v ha ka hv => ?_
      refine mem_bind (mem_load (hd.retains ka) hT) fun w hb' kb hw => ?_
      refine mem_bind (mem_lift (Q := fun _ _ => True) (yields_cmp keep hw hv)) fun k hc kc _ => ?_
      cases k with
      | true => exact mem_pure hb
      | false =>
        simp only [StateT.run_bind, StateT.run_monadLift, monadLift_self, bind_assoc, pure_bind, Bool.false_eq_true, if_false]
        refine mem_bind (mem_store (((hd.retains ka).retains kb).retains kc).spot hT hv) fun _ he ke _ => ?_
        exact mem_pure (.inr (hin x (by simp)))
    · exact mem_extLoop hT hF l h' r.2 (hd.retains k) (hf.retains k) (fun sv hsv => hin sv (by simp [hsv])) hr

theorem mem_tensorExtreme {keep : COp} {T : DType} {h : Heap F} {dst frm : Impl} {g : Option Impl} (hd : Ready h dst 0) (hf : Sits h frm)
    (hT : T = dst.dtype) (hF : T = frm.dtype) (h0 : vol frm.view.sizes ≠ 0)
    (hg : ∀ gi, g = some gi → Sites h gi ∧ gi.dtype = T ∧ gi.view.sizes = frm.view.sizes) :
    Mem h (tensorExtreme keep T dst frm g h) fun _ _ => True := by
  rw [tensorExtreme_eq]
  obtain ⟨p, _, _, hp⟩ := hf.index (inBox_zero (Nat.pos_of_ne_zero h0))
  have hp0 : Spot h frm 0 := by
    obtain ⟨s, c, h1, h2, h3, h4⟩ := hp
    exact ⟨s, c, h1, h2, h3, by omega⟩
  refine mem_bind (mem_load (hf.full 0 hp0) hF) fun v ha ka hv => ?_
  refine mem_bind (mem_store (hd.retains ka).spot hT hv) fun _ hb kb _ => ?_
  refine mem_bind (mem_extLoop hT hF _ _ _ ((hd.retains ka).retains kb) ((hf.retains ka).retains kb) (fun sv hsv => mem_rowMajor.1 hsv) (.inl rfl))
    fun r hc kc hr => ?_
  cases g with
  | none => exact mem_pure trivial
  | some gi =>
    obtain ⟨hgs, hgd, hgz⟩ := hg gi rfl
    refine mem_bind (mem_lift (Q := fun z _ => z.HasType T) (yields_conv (hasType_small (F := F) (by omega) rfl))) fun w he ke hw => ?_
    have hgs' := (((hgs.retains ka).retains kb).retains kc).retains ke
    rcases hr with hr | hr
    · rw [hr]
      by_cases hz : gi.view.sizes = []
      · exact mem_mono (mem_storeIndex hgs' (by rw [hz]; trivial) hgd.symm hw) fun _ _ _ _ => trivial
      · have : cntFromIndex gi.view [] = .throw .runtime := by
          unfold cntFromIndex runExpect
          rw [if_neg]
          · rfl
          · simpa using fun hc => hz (List.length_eq_zero_iff.1 hc.symm)
        rw [this, M.bind_throw (M.lift_throw _ _)]
        exact Retains.refl _
    · exact mem_mono (mem_storeIndex hgs' (by rw [hgz]; exact hr) hgd.symm hw) fun _ _ _ _ => trivial

end INNC
