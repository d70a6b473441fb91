import Verif.Lemmas.Build
import Verif.Spec.Reduce
import Mathlib.Algebra.Order.Ring.Int
/-
Sum and mean.
-/
namespace INNC
open Spec
variable {F : Type} [FOps F]

theorem sumType_eq (t : DType) : Tensor.sumType t = accType t := by cases t <;> rfl

theorem later_accType (t : DType) : later (accType t) t = accType t := by cases t <;> rfl

theorem accType_size (t : DType) : (accType t).size = 8 := by cases t <;> rfl

/-- Result of an accumulation. -/
def accOut (H : Heap F) (d : Nat) : Option (Val F) → Out (Heap F) Unit → Prop
  | some v, o => o = .ok () (H.setCells d [some v])
  | none, o => o = .ub .overflow

theorem M.lift_lift_bind {a : Res (Val F)} {b : Val F → Res (Val F)} {k : Val F → M F Unit} :
    (M.lift a >>= fun z => M.lift (b z) >>= k) = (M.lift (a >>= b) >>= k) := by
  funext H
  cases a with
  | ok a => rfl
  | throw e => rfl
  | ub u => rfl

theorem elemArith_add_none {l r : DType} {x y : Val F} (hx : x.HasType l) (hy : y.HasType r)
    (h : elemArith .add l r x y = none) :
    (cArith .add l r x y >>= cConv (DType.arith l r) (later l r)) = .ub .overflow := by
  have h1 := kernelArith_eq .add hx hy
  rw [h] at h1
  rcases h1 with h1 | h1
  · exact h1
  · exfalso
    -- addition never reports a division by zero
    revert h1
    unfold cArith
    cases hc : cConv l (DType.arith l r) x with
    | throw e => simp [hc]
    | ub u =>
      have := cConv_eq (t := DType.arith l r) hx
      rw [hc] at this
      cases hv : convert l (DType.arith l r) x <;> rw [hv] at this <;> simp [ofOption] at this
      subst this; simp [hc]
    | ok x' =>
      cases hc2 : cConv r (DType.arith l r) y with
      | throw e => simp [hc, hc2]
      | ub u =>
        have := cConv_eq (t := DType.arith l r) hy
        rw [hc2] at this
        cases hv : convert r (DType.arith l r) y <;> rw [hv] at this <;> simp [ofOption] at this
        subst this; simp [hc, hc2]
      | ok y' =>
        have key : ∀ z : Val F, cConv (DType.arith l r) (later l r) z ≠ .ub .divZero := by
          intro z
          unfold cConv convTo
          split
          · simp
          · split
            · simp
            · split
              · split <;> simp
              · simp
            · simp
            · simp
        show (cConv l (DType.arith l r) x >>= _) >>= _ = _ → False
        rw [hc, Res.ok_bind, hc2, Res.ok_bind]
        cases x' with
        | i a =>
          cases y' with
          | i b =>
            by_cases hfit : fitsInt (DType.arith l r) (a + b) = true
            · simpa [iArith, hfit] using key _
            · simp [iArith, hfit]
          | f b => simp
        | f a =>
          cases y' with
          | i b => simp
          | f b => simpa using key _

theorem accInto_out {H : Heap F} {dst frm : Impl} {s : Storage F} {f : List Nat → Val F} {acc : Val F} {sv : List Nat}
    (hs : H.st[dst.data]? = some s) (hdt : s.dt = dst.dtype) (hf : Reads H frm f) (hne : frm.data ≠ dst.data)
    (hty : acc.HasType dst.dtype) (hl : later dst.dtype frm.dtype = dst.dtype) (hb : InBox frm.view.sizes sv) :
    accOut H dst.data (elemArith .add dst.dtype frm.dtype acc (f sv))
      (accInto dst.dtype frm.dtype dst frm sv (H.setCells dst.data [some acc])) := by
  have e1 := (hf.setCells_ne hne [some acc]).load_index hb
  have hs' := Heap.setCells_st_self hs [some acc]
  have e2 : load dst.dtype dst 0 (H.setCells dst.data [some acc]) = .ok acc (H.setCells dst.data [some acc]) :=
    load_ok hs' hdt rfl rfl
  unfold accInto
  rw [← bind_assoc, M.bind_ok e1, M.bind_ok e2]
  rw [M.lift_lift_bind]
  cases hel : elemArith .add dst.dtype frm.dtype acc (f sv) with
  | none =>
    have := elemArith_add_none hty (hf.typed sv hb) hel
    rw [hl] at this
    rw [this, M.bind_ub (M.lift_ub _ _)]
    rfl
  | some z =>
    have := (kernelElem_ok hty (hf.typed sv hb) hel).1
    rw [hl] at this
    rw [this, M.bind_ok (M.lift_ok _ _), store_ok (v := z) hs' hdt rfl (by simp)]
    rw [Heap.setCells_setCells]
    rfl

theorem accLoop_out {H : Heap F} {dst frm : Impl} {s : Storage F} {f : List Nat → Val F}
    (hs : H.st[dst.data]? = some s) (hdt : s.dt = dst.dtype) (hf : Reads H frm f) (hne : frm.data ≠ dst.data)
    (hl : later dst.dtype frm.dtype = dst.dtype) : ∀ (l : List (List Nat)) (acc : Val F), acc.HasType dst.dtype →
    (∀ sv ∈ l, InBox frm.view.sizes sv) →
    accOut H dst.data ((l.map f).foldlM (elemArith .add dst.dtype frm.dtype) acc)
      (runAll (accInto dst.dtype frm.dtype dst frm) l (H.setCells dst.data [some acc])) := by
  intro l
  induction l with
  | nil => intro acc _ _; rfl
  | cons x l ih =>
    intro acc hty hin
    have h1 := accInto_out hs hdt hf hne hty hl (hin x (by simp))
    rw [List.map_cons, List.foldlM_cons, runAll]
    cases hel : elemArith .add dst.dtype frm.dtype acc (f x) with
    | none =>
      rw [hel] at h1
      rw [M.bind_ub h1]
      rfl
    | some z =>
      rw [hel] at h1
      rw [M.bind_ok h1]
      have hz := (kernelElem_ok hty (hf.typed x (hin x (by simp))) hel).2
      rw [hl] at hz
      exact ih z hz (fun sv hsv => hin sv (by simp [hsv]))

/-- The accumulation part of `sum` and `mean` on a tensor with at least one element. -/
theorem sumBody_out {H : Heap F} {dst frm : Impl} {s : Storage F} {f : List Nat → Val F}
    (hs : H.st[dst.data]? = some s) (hdt : s.dt = dst.dtype) (hb : s.blob = some [some (zeroElem dst.dtype)])
    (hf : Reads H frm f) (hne : frm.data ≠ dst.data)
    (hacc : dst.dtype = accType frm.dtype) (h0 : vol frm.view.sizes ≠ 0) :
    accOut H dst.data (sumOf frm.dtype frm.view.sizes f) (sumBody dst.dtype frm.dtype dst frm H) := by
  have hself := Heap.setCells_eq_self hs hb
  unfold sumBody
  by_cases hlen : frm.view.sizes.length ≠ 0
  · rw [if_pos hlen]
    have hnil : frm.view.sizes ≠ [] := fun hc => hlen (by simp [hc])
    have hso : sumOf frm.dtype frm.view.sizes f = total frm.dtype (elems frm.view.sizes f) := by
      cases hc : frm.view.sizes with
      | nil => exact absurd hc hnil
      | cons a l => rfl
    rw [hso, odo_rowMajor _ _ _ hnil (fun hc => h0 (vol_eq_zero.2 hc))]
    have := accLoop_out hs hdt hf hne (by rw [hacc]; exact later_accType _) (rowMajor frm.view.sizes)
      (zeroElem dst.dtype) (zeroElem_hasType _) (fun sv hsv => mem_rowMajor.1 hsv)
    rw [hself] at this
    unfold total elems
    rw [← hacc]
    exact this
  · rw [if_neg hlen]
    have hnil : frm.view.sizes = [] := List.length_eq_zero_iff.1 (by omega)
    have hso : sumOf frm.dtype frm.view.sizes f = convert frm.dtype (accType frm.dtype) (f []) := by
      rw [hnil]; rfl
    have hbx : InBox frm.view.sizes [] := by rw [hnil]; trivial
    have e1 : load frm.dtype frm frm.view.offset H = .ok (f []) H := by
      have := hf.load_index hbx
      rw [cntFromIndex_eq hbx.length (by rw [hf.strides]) hf.offset, M.bind_ok (M.lift_ok _ _)] at this
      have hst : frm.view.strides = [] := List.length_eq_zero_iff.1 (by rw [hf.strides, hnil]; rfl)
      simp only [Layout.pos, hst, dot] at this
      rw [Int.add_zero, wrapU_natCast hf.offset] at this
      exact this
    rw [hso, M.bind_ok e1]
    cases hcv : convert frm.dtype (accType frm.dtype) (f []) with
    | none =>
      exfalso
      revert hcv
      have hty := hf.typed [] hbx
      unfold convert accType
      cases hfe : f [] with
      | i n => cases frm.dtype <;> simp [isInteger]
      | f x =>
        rw [hfe] at hty
        rw [hasType_f] at hty
        rw [hty]; simp [isInteger]
    | some z =>
      rw [hacc, cConv_of_convert (hf.typed [] hbx) hcv, M.bind_ok (M.lift_ok _ _), ← hacc,
        store_ok (v := z) hs hdt hb (by simp)]
      rfl

/-- The sum has the accumulator type. -/
theorem sumOf_hasType {t : DType} {s : List Nat} {f : List Nat → Val F} {v : Val F}
    (hf : ∀ idx, InBox s idx → (f idx).HasType t) (h : sumOf t s f = some v) : v.HasType (accType t) := by
  have hlat := later_accType t
  have hfold : ∀ (l : List (List Nat)) (acc v : Val F), acc.HasType (accType t) →
      (∀ sv ∈ l, InBox s sv) →
      (l.map f).foldlM (elemArith .add (accType t) t) acc = some v → v.HasType (accType t) := by
    intro l
    induction l with
    | nil => intro acc v ha _ he; simp at he; subst he; exact ha
    | cons x l ih =>
      intro acc v ha hin he
      rw [List.map_cons, List.foldlM_cons] at he
      cases hel : elemArith .add (accType t) t acc (f x) with
      | none => rw [hel] at he; simp at he
      | some z =>
        rw [hel] at he
        have hz := (kernelElem_ok ha (hf x (hin x (by simp))) hel).2
        rw [hlat] at hz
        exact ih z v hz (fun sv hsv => hin sv (by simp [hsv])) he
  cases s with
  | nil => exact convert_hasType h
  | cons a l => exact hfold (rowMajor (a :: l)) _ v (zeroElem_hasType _) (fun sv hsv => mem_rowMajor.1 hsv) h

/-- Result of a reduction to a tensor without axes. -/
def redOut (h : Heap F) (dt : DType) (gf : Option GradFn) : Option (Val F) → Out (Heap F) Nat → Prop
  | some v, o => ∃ h', o = .ok h.ts.length h' ∧ Built h h' h.ts.length dt [] (fun _ => v) gf
  | none, o => o = .ub .overflow

/-- A reduction to a single cell: `zeros({})`, a kernel, and recording the backward step. -/
theorem scalarRed {h : Heap F} {t : Nat} {i : Impl} {f : List Nat → Val F} (k : BackKind) (K : Impl → Impl → M F Unit)
    (dt : DType) (o : Option (Val F))
    (hi : h.ts[t]? = some i) (hr : Reads h i f)
    (hty : ∀ v, o = some v → v.HasType dt)
    (hk : ∀ (H : Heap F) (dst : Impl) (s : Storage F), H.st[dst.data]? = some s → s.dt = dst.dtype →
      s.blob = some [some (zeroElem dst.dtype)] → Reads H i f → i.data ≠ dst.data → dst.dtype = dt →
      accOut H dst.data o (K dst i H)) :
    redOut h dt (if i.requiresGrad then some ⟨k, [t], 0, 0, 0⟩ else none) o ((do
          let i ← getT t
          let tf ← Tensor.zeros [] dt
          K (← getT tf) i
          if i.requiresGrad then Tensor.setGradFn tf k [t]
          return tf : M F Nat) h) := by
  have hsz : vol [] * dt.size < 9223372036854775808 := by cases dt <;> decide
  obtain ⟨h1, e1, b1, hh1⟩ := zeros_ok (F := F) (dt := dt) hsz h
  have hobj : h1.ts[h.ts.length]? = some (newImpl dt [] h.st.length) := by
    rw [hh1]; exact alloc_getT h _ _
  have hst : h1.st[(newImpl dt [] h.st.length).data]? = some ⟨dt, dt.size * vol [],
      some (List.replicate (vol []) (some (zeroElem dt)))⟩ := by
    rw [hh1]; exact Heap.setCells_st_self (alloc_getS h _ _) _
  have hne : i.data ≠ (newImpl dt [] h.st.length).data := by have := hr.data_lt; show _ ≠ h.st.length; omega
  have hb := hk h1 (newImpl dt [] h.st.length) _ hst rfl rfl (hr.of_extends b1.ext) hne rfl
  rw [M.bind_ok (getT_ok hi), M.bind_ok e1, M.bind_ok (getT_ok hobj)]
  cases o with
  | none => exact M.bind_ub hb
  | some v =>
    rw [M.bind_ok hb]
    have bb : Built h (h1.setCells h.st.length [some v]) h.ts.length dt [] (fun _ => v) none := by
      have hrd := reads_const (H := h) (dt := dt) (s := []) (v := v) hsz (hty v rfl)
      rw [hh1, Heap.setCells_setCells]
      exact built_new (Extends.refl h) rfl hrd
    cases hg : i.requiresGrad with
    | false => exact ⟨_, rfl, bb⟩
    | true =>
      obtain ⟨h'', e3, b3, _⟩ := bb.setGradFn k [t]
      exact ⟨h'', M.bind_ok e3, b3⟩

theorem sumOf_empty {t : DType} {s : List Nat} {f : List Nat → Val F} (h0 : vol s = 0) :
    sumOf t s f = some (zeroElem (accType t)) := by
  have hz := vol_eq_zero.1 h0
  cases s with
  | nil => simp at hz
  | cons a l =>
    show total t ((rowMajor (a :: l)).map f) = _
    rw [rowMajor_of_zero_mem hz]; rfl

theorem sumT_out {h : Heap F} {t : Nat} {i : Impl} {f : List Nat → Val F} (hi : h.ts[t]? = some i) (hr : Reads h i f)
    (hv : vol i.view.sizes < 18446744073709551616) :
    redOut h (accType i.dtype) (if i.requiresGrad then some ⟨.sum, [t], 0, 0, 0⟩ else none)
      (sumOf i.dtype i.view.sizes f) (Tensor.sumT t h) := by
  have key := scalarRed (h := h) (t := t) .sum
    (fun d i => tensorSum (accType i.dtype) i.dtype d i) (accType i.dtype) (sumOf i.dtype i.view.sizes f) hi hr
    (fun v hv => sumOf_hasType hr.typed hv) (by
      intro H dst s hs hdt hb hrd hne hacc
      unfold tensorSum
      rw [numel_eq_vol hv]
      by_cases h0 : vol i.view.sizes = 0
      · rw [if_pos h0, sumOf_empty h0, ← hacc]; exact congrArg _ (Heap.setCells_eq_self hs hb).symm
      · rw [if_neg h0]
        have := sumBody_out hs hdt hb hrd hne hacc h0
        rw [← hacc]
        exact this)
  unfold Tensor.sumT
  simp only [sumType_eq]
  rw [M.bind_ok (getT_ok hi)] at key ⊢
  exact key

theorem mean_div {t : DType} {v : Val F} {n : Nat} (hv : v.HasType (accType t)) (h0 : n ≠ 0) :
    ∃ z, elemArith .div (accType t) (accType t) v (if isInteger t then .i n else .f (FOps.ofInt .f64 n)) = some z := by
  unfold elemArith accType
  cases ht : isInteger t with
  | false => exact ⟨_, rfl⟩
  | true =>
    unfold accType at hv
    rw [ht] at hv
    cases v with
    | f x => rw [hasType_f] at hv; simp [isInteger] at hv
    | i a =>
      rw [hasType_i] at hv
      simp only [if_true, isInteger, and_self, exact, Int.natCast_eq_zero, h0, if_false]
      have : InRange (max 32 (max (width .i64) (width .i64))) (a.tdiv n) := by
        have h2 := hv.2
        unfold InRange at h2 ⊢
        simp only [if_true, width] at h2 ⊢
        norm_num at h2 ⊢
        have hn : (0 : Int) < n := by omega
        constructor
        · rcases Int.le_total 0 a with ha | ha
          · have := Int.tdiv_nonneg ha hn.le; omega
          · have e : a.tdiv n = -((-a).tdiv n) := by rw [Int.neg_tdiv]; simp
            have := Int.tdiv_le_self (a := -a) n (by omega)
            omega
        · rcases Int.le_total 0 a with ha | ha
          · have := Int.tdiv_le_self (a := a) n ha; omega
          · have e : a.tdiv n = -((-a).tdiv n) := by rw [Int.neg_tdiv]; simp
            have := Int.tdiv_nonneg (a := -a) (b := n) (by omega) hn.le
            omega
      rw [if_pos this]
      exact ⟨_, rfl⟩

theorem meanT_out {h : Heap F} {t : Nat} {i : Impl} {f : List Nat → Val F} (hi : h.ts[t]? = some i) (hr : Reads h i f)
    (hv : vol i.view.sizes < 9223372036854775808) :
    redOut h (accType i.dtype) (if i.requiresGrad then some ⟨.mean, [t], 0, 0, 0⟩ else none)
      (meanOf i.dtype i.view.sizes f) (Tensor.meanT t h) := by
  have hnty : ((if isInteger i.dtype then .i (vol i.view.sizes) else .f (FOps.ofInt .f64 (vol i.view.sizes))) : Val F).HasType
      (accType i.dtype) := by
    unfold accType
    cases ht : isInteger i.dtype with
    | false => exact hasType_f.2 rfl
    | true =>
      refine hasType_i.2 ⟨rfl, ?_⟩
      unfold InRange; simp only [if_true, width]; norm_num; omega
  have key := scalarRed (h := h) (t := t) .mean
    (fun d i => tensorMean (accType i.dtype) i.dtype d i) (accType i.dtype) (meanOf i.dtype i.view.sizes f) hi hr
    (by
      intro v hm
      unfold meanOf at hm
      split at hm
      · rw [← Option.some.inj hm]; exact zeroElem_hasType _
      · split at hm
        · next w hw =>
          have := (kernelElem_ok (sumOf_hasType hr.typed hw) hnty hm).2
          rwa [later_self] at this
        · simp at hm) (by
      intro H dst s hs hdt hb hrd hne hacc
      unfold tensorMean
      rw [numel_eq_vol (by omega)]
      unfold meanOf
      by_cases h0 : vol i.view.sizes = 0
      · rw [if_pos h0, if_pos h0, ← hacc]; exact congrArg _ (Heap.setCells_eq_self hs hb).symm
      · rw [if_neg h0, if_neg h0]
        have hcv : convTo (accType i.dtype) (.i (vol i.view.sizes) : Val F) =
            .ok (if isInteger i.dtype then .i (vol i.view.sizes) else .f (FOps.ofInt .f64 (vol i.view.sizes))) := by
          unfold accType at hnty ⊢
          cases ht : isInteger i.dtype with
          | false => rfl
          | true =>
            rw [ht] at hnty
            have h2 : InRange 64 _ := (hasType_i.1 hnty).2
            show Res.ok (Val.i (wrapBits 64 _)) = _
            rw [reduce_eq (by decide), reduce_self (by decide) h2]
            rfl
        rw [hcv, M.bind_ok (M.lift_ok _ _)]
        have := sumBody_out hs hdt hb hrd hne hacc h0
        rw [hacc] at this
        cases hso : sumOf i.dtype i.view.sizes f with
        | none => rw [hso] at this; exact M.bind_ub this
        | some v =>
          rw [hso] at this
          have hvt := sumOf_hasType hr.typed hso
          obtain ⟨z, hz⟩ := mean_div hvt h0
          simp only [hz]
          rw [M.bind_ok this]
          have hs' := Heap.setCells_st_self hs [some v]
          have e2 : load (accType i.dtype) dst 0 (H.setCells dst.data [some v]) = .ok v (H.setCells dst.data [some v]) :=
            load_ok hs' (by rw [hdt, hacc]) rfl rfl
          rw [M.bind_ok e2]
          have hel := (kernelElem_ok hvt hnty hz).1
          rw [later_self] at hel
          rw [M.lift_lift_bind, hel, M.bind_ok (M.lift_ok _ _), store_ok (v := z) hs' (by rw [hdt, hacc]) rfl (by simp),
            Heap.setCells_setCells]
          rfl)
  unfold Tensor.meanT
  simp only [sumType_eq]
  rw [M.bind_ok (getT_ok hi)] at key ⊢
  exact key

end INNC
