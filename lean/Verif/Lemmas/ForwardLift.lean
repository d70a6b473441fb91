import Verif.Lemmas.ForwardCalls
import Verif.Lemmas.DerivCat
/-
From the invariant of programs that compute with variables to the premises of the theorem about back-propagation: every
direction of differentiation extends to dual numbers for the whole computation, and gradients are prepared.
-/
namespace INNC
open Spec Tensor DualNumber
variable {F : Type} [Field F] [FOps F] {h : Heap F} {V : Nat → Prop} {t : Nat}

theorem Inv.from (hI : Inv h V) (ht : V t) {x : Nat} (hx : From h t x) : V x ∧ x ≤ t := by
  induction hx with
  | root => exact ⟨ht, Nat.le_refl _⟩
  | step _ hu ih =>
    unfold Uses operands at hu
    split at hu
    · next g hg =>
      obtain ⟨h1, h2⟩ := (hI.ops _ g ih.1 hg).2.2.1 _ hu
      exact ⟨h1, by omega⟩
    · cases hu

/-! ### Dual numbers for one operation -/

/-- `a + b ε`. -/
def dn (a b : F) : DualNumber F := TrivSqZeroExt.inl a + TrivSqZeroExt.inr b
@[simp] theorem dn_fst (a b : F) : TrivSqZeroExt.fst (dn a b) = a := by simp [dn]
@[simp] theorem dn_snd (a b : F) : TrivSqZeroExt.snd (dn a b) = b := by simp [dn]
theorem dn_eq {a b : F} {x : DualNumber F} (h1 : a = x.fst) (h2 : b = x.snd) : dn a b = x :=
  TrivSqZeroExt.ext (by rw [dn_fst, h1]) (by rw [dn_snd, h2])

theorem segments_congr {R : Type} {u u' : Nat → List Nat → R} {x d : Nat} (hx : u' x = u x) : ∀ (ins : List Nat) (k : Nat),
    (∀ a ∈ ins, u' a = u a) → Segments h u x d k ins → Segments h u' x d k ins
  | [], _, _, hs => hs
  | a :: ins, k, ha, ⟨n, h1, h2, h3⟩ => by
    refine ⟨n, h1, fun idx hi => ?_, segments_congr hx ins _ (fun b hb => ha b (List.mem_cons_of_mem _ hb)) h3⟩
    rw [hx, ha a List.mem_cons_self]
    exact h2 idx hi

theorem computed_congr {u u' : Nat → List Nat → DualNumber F} {x : Nat} {k : BackKind} {ins : List Nat} (hx : u' x = u x)
    (ha : ∀ a ∈ ins, u' a = u a) (hc : Computed h t u x k ins) : Computed h t u' x k ins := by
  unfold Computed at hc ⊢
  split at hc <;> (try simp only [List.mem_cons, List.not_mem_nil, or_false, forall_eq_or_imp, forall_eq] at ha) <;>
    try (simp only [ha, hx]; exact hc)
  · obtain ⟨i, j, h1, h2, h3⟩ := hc
    exact ⟨i, j, h1, h2, fun idx hi => by rw [hx, ha]; exact h3 idx hi⟩
  · exact ⟨hc.1, segments_congr hx _ _ ha hc.2⟩
  · exact hc

/-- The coefficients of `ε` of a concatenation. -/
def catSnd (h : Heap F) (u : Nat → List Nat → DualNumber F) (d : Nat) : Nat → List Nat → List Nat → F
  | _, [], _ => 0
  | k, a :: ins, idx => if idx.getD d 0 < k + (shapeOf h a).getD d 0 then (u a (idx.modify d (· - k))).snd
      else catSnd h u d (k + (shapeOf h a).getD d 0) ins idx

theorem modify_add_sub (idx : List Nat) (d k : Nat) : (idx.modify d (· + k)).modify d (· - k) = idx := by
  rw [List.modify_modify_eq]
  have : ((fun x => x - k) ∘ fun x : Nat => x + k) = id := by funext n; simp
  rw [this]
  exact List.modify_id _ _

theorem getD_modify_add {idx : List Nat} {d : Nat} (k : Nat) (hd : d < idx.length) :
    (idx.modify d (· + k)).getD d 0 = idx.getD d 0 + k := by
  simp [List.getD, hd]

theorem inBox_getD_set {s idx : List Nat} {d n : Nat} (hd : d < s.length) (hi : InBox (s.set d n) idx) : idx.getD d 0 < n := by
  induction s generalizing idx d with
  | nil => simp at hd
  | cons a s ih =>
    cases idx with
    | nil => cases d <;> exact absurd hi id
    | cons i idx =>
      cases d with
      | zero => simpa using hi.1
      | succ d => simpa using ih (by simpa using hd) hi.2

theorem cat_lift {u : Nat → List Nat → DualNumber F} {x d : Nat} {all : List Nat} {w : List Nat → DualNumber F}
    (hd : d < (shapeOf h x).length)
    (hx : u x = w) (hw : ∀ idx, w idx = dn (valOf h x idx) (catSnd h u d 0 all idx)) : ∀ (ins : List Nat) (k : Nat),
    (∀ idx, k ≤ idx.getD d 0 → catSnd h u d 0 all idx = catSnd h u d k ins idx) →
    (∀ a ∈ ins, ∀ idx, InBox (shapeOf h a) idx → (u a idx).fst = valOf h a idx) →
    Segments h (valOf h) x d k ins → Segments h u x d k ins
  | [], _, _, _, hs => hs
  | a :: ins, k, hall, ha, ⟨n, h1, h2, h3⟩ => by
    have hn : (shapeOf h a).getD d 0 = n := by rw [h1]; simp [List.getD, hd]
    refine ⟨n, h1, fun idx hi => ?_, cat_lift hd hx hw ins _ (fun idx hk => ?_)
      (fun b hb => ha b (List.mem_cons_of_mem _ hb)) h3⟩
    · have hlen : d < idx.length := by rw [hi.length]; rw [h1]; simpa using hd
      have hlt : idx.getD d 0 < n := by rw [h1] at hi; exact inBox_getD_set hd hi
      rw [hx, hw, hall _ (by rw [getD_modify_add k hlen]; omega), catSnd, getD_modify_add k hlen, hn, if_pos (by omega),
        modify_add_sub, h2 idx hi, ← ha a List.mem_cons_self idx hi]
      exact dn_eq rfl rfl
    · rw [hall idx (by omega), catSnd, hn, if_neg (by omega)]

theorem segments_axis {R : Type} {u : Nat → List Nat → R} {x d : Nat} : ∀ {ins : List Nat} {k : Nat},
    Segments h u x d k ins → d < (shapeOf h x).length
  | [], _, hs => getElem?_lt hs
  | _ :: _, _, ⟨_, _, _, hs⟩ => segments_axis hs

theorem catSnd_congr {u u' : Nat → List Nat → DualNumber F} {d : Nat} : ∀ (ins : List Nat) (k : Nat) {idx : List Nat},
    (∀ a ∈ ins, u' a = u a) → catSnd h u' d k ins idx = catSnd h u d k ins idx
  | [], _, _, _ => rfl
  | a :: ins, k, idx, ha => by
    rw [catSnd, catSnd, ha a List.mem_cons_self, catSnd_congr ins _ fun b hb => ha b (List.mem_cons_of_mem _ hb)]

theorem fst_boxSum (s : List Nat) (f : List Nat → DualNumber F) : (boxSum s f).fst = boxSum s fun k => (f k).fst := by
  unfold boxSum
  induction rowMajor s with
  | nil => rfl
  | cons a l ih => simp only [List.map_cons, List.sum_cons, TrivSqZeroExt.fst_add, ih]

/-- `Smooth`, where `t` may be a view and means may be inside the computation. -/
structure Calm (h : Heap F) (t : Nat) : Prop where
  small : ∀ x i, From h t x → h.ts[x]? = some i → Small i.view.sizes i.dtype
  quotient : ∀ x g a b, From h t x → opOf h x = some g → g.kind = .div → g.inputs = [a, b] →
    shapeOf h b = shapeOf h x ∧ requiresGrad h a = true ∧ requiresGrad h b = true ∧
    ∀ i f idx, h.ts[b]? = some i → Reads h i f → InBox i.view.sizes idx → real (f idx) ≠ 0
  mean : ∀ x g a, From h t x → opOf h x = some g → g.kind = .mean → g.inputs = [a] → (vol (shapeOf h a) : F) ≠ 0
  alone : ∀ x d, From h t x → gradStore h x = some d → ¬ ReadStore h t d

theorem Spec.Smooth.calm (hS : Smooth h t) : Calm h t := 
  ⟨hS.small, hS.quotient, fun x g a h1 h2 h3 h4 => (hS.mean x g a h1 h2 h3 h4).2, hS.alone⟩

theorem Spec.Inner.calm {l : List Nat} (hS : Inner h l) (ht : t ∈ l) : Calm h t :=
  ⟨hS.small t ht, hS.quotient t ht, fun x g _ hx hg hk => absurd hk (hS.mean t ht x g hx hg), fun x d hx hd => hS.alone t ht x d hx hd t ht⟩

/-- The dual numbers `u` of `x` are computed from those of its operands, or constant if `x` is a mean inside the computation. -/
def OpDet (h : Heap F) (t : Nat) (u : Nat → List Nat → DualNumber F) (x : Nat) (g : GradFn) : Prop :=
  ((∀ a, ¬ InnerMean h t x a) → Computed h t u x g.kind g.inputs) ∧
  ∀ a, InnerMean h t x a → Needs h t a ∧ shapeOf h x = [] ∧ (vol (shapeOf h a) : F) ≠ 0 ∧ (u x []).snd = 0

theorem opDet_congr {u u' : Nat → List Nat → DualNumber F} {x : Nat} {g : GradFn} (hx : u' x = u x)
    (ha : ∀ a ∈ g.inputs, u' a = u a) (hc : OpDet h t u x g) : OpDet h t u' x g :=
  ⟨fun hn => computed_congr hx ha (hc.1 hn), fun a hm => by rw [hx]; exact hc.2 a hm⟩

/-- Each operation of the computation can be carried out in the dual numbers. -/
theorem op_lift' {u : Nat → List Nat → DualNumber F} {x : Nat} {g : GradFn} (hI : Inv h V) (hx : V x)
    (hf : From h t x) (hg : opOf h x = some g)
    (hq : ∀ a b, g.kind = .div → g.inputs = [a, b] → shapeOf h b = shapeOf h x ∧ requiresGrad h a = true ∧ requiresGrad h b = true ∧
      ∀ i f idx, h.ts[b]? = some i → Reads h i f → InBox i.view.sizes idx → real (f idx) ≠ 0)
    (hme : ∀ a, g.kind = .mean → g.inputs = [a] → (vol (shapeOf h a) : F) ≠ 0)
    (ha : ∀ a ∈ g.inputs, ∀ idx, InBox (shapeOf h a) idx → (u a idx).fst = valOf h a idx) :
    ∃ w : List Nat → DualNumber F, (∀ idx, InBox (shapeOf h x) idx → (w idx).fst = valOf h x idx) ∧
      ∀ u' : Nat → List Nat → DualNumber F, u' x = w → (∀ a ∈ g.inputs, u' a = u a) → OpDet h t u' x g := by
  obtain ⟨_, _, hin, hp⟩ := hI.ops x g hx hg
  have hneeds : ∀ a ∈ g.inputs, requiresGrad h a = true → Needs h t a := fun a ha hr => by
    refine ⟨.step hf (by unfold Uses operands; rw [hg]; exact ha), ?_⟩
    unfold requiresGrad at hr
    split at hr
    · next i hi => exact ⟨i, hi, hr⟩
    · cases hr
  by_cases hm : ∃ a, InnerMean h t x a
  · refine ⟨fun idx => dn (valOf h x idx) 0, fun idx _ => dn_fst _ _, fun u' h1 _ =>
      ⟨fun hn => absurd hm (fun ⟨a, ha⟩ => hn a ha), fun a ⟨_, g', q1, q2, q3⟩ => ?_⟩⟩
    rw [hg] at q1; injection q1 with q1; subst q1
    rw [q2, q3] at hp
    exact ⟨hneeds a (by rw [q3]; simp) hp.1, hp.2.1, hme a q2 q3, by rw [h1]; exact dn_snd _ _⟩
  have hinn : ∀ a, ¬ InnerMean h t x a := fun a ha => hm ⟨a, ha⟩
  suffices hsuff : ∃ w : List Nat → DualNumber F, (∀ idx, InBox (shapeOf h x) idx → (w idx).fst = valOf h x idx) ∧
      ∀ u' : Nat → List Nat → DualNumber F, u' x = w → (∀ a ∈ g.inputs, u' a = u a) → Computed h t u' x g.kind g.inputs by
    obtain ⟨w, h1, h2⟩ := hsuff
    exact ⟨w, h1, fun u' h3 h4 => ⟨fun _ => h2 u' h3 h4, fun a ha => absurd ha (hinn a)⟩⟩
  generalize hk : g.kind = k at *
  generalize hi : g.inputs = ins at *
  unfold Primal at hp
  split at hp
  · next a b => 
    refine ⟨fun idx => u a (project (shapeOf h a) idx) + u b (project (shapeOf h b) idx), fun idx hidx => ?_, fun u' h1 h2 => ?_⟩
    · rw [TrivSqZeroExt.fst_add, ha a (by simp) _ (hp.1.inBox hidx), ha b (by simp) _ (hp.1.comm.inBox hidx), hp.2 idx hidx]
    · exact ⟨hp.1, fun idx _ => by rw [h1, h2 a (by simp), h2 b (by simp)]⟩
  · next a b => 
    refine ⟨fun idx => u a (project (shapeOf h a) idx) - u b (project (shapeOf h b) idx), fun idx hidx => ?_, fun u' h1 h2 => ?_⟩
    · rw [TrivSqZeroExt.fst_sub, ha a (by simp) _ (hp.1.inBox hidx), ha b (by simp) _ (hp.1.comm.inBox hidx), hp.2 idx hidx]
    · exact ⟨hp.1, fun idx _ => by rw [h1, h2 a (by simp), h2 b (by simp)]⟩
  · next a b => 
    refine ⟨fun idx => u a (project (shapeOf h a) idx) * u b (project (shapeOf h b) idx), fun idx hidx => ?_, fun u' h1 h2 => ?_⟩
    · rw [TrivSqZeroExt.fst_mul, ha a (by simp) _ (hp.1.inBox hidx), ha b (by simp) _ (hp.1.comm.inBox hidx), hp.2 idx hidx]
    · exact ⟨hp.1, fun idx _ => by rw [h1, h2 a (by simp), h2 b (by simp)]⟩
  · next a b => 
    obtain ⟨s1, s2, s3, s4⟩ := hq a b rfl rfl
    refine ⟨fun idx => dn (valOf h x idx) (((u a (project (shapeOf h a) idx)).snd - valOf h x idx * (u b idx).snd) / (u b idx).fst),
      fun idx hidx => dn_fst _ _, fun u' h1 h2 => ?_⟩
    refine ⟨hp.1, s1, hneeds a (by simp) s2, hneeds b (by simp) s3, fun idx hidx => ?_⟩
    have hb := hp.1.comm.inBox hidx
    have hpr : project (shapeOf h b) idx = idx := by rw [s1]; exact project_self hidx
    rw [hpr] at hb
    have hva := ha a (by simp) _ (hp.1.inBox hidx)
    have hvb := ha b (by simp) _ hb
    have hnz : (u b idx).fst ≠ 0 := by
      obtain ⟨i, f, hi', hr⟩ := hI.reads b (hin b (by simp)).1
      rw [shapeOf_eq hi'] at hb
      rw [hvb, valOf_reads hi' hr hb]
      exact s4 i f idx hi' hr hb
    rw [h1, h2 a (by simp), h2 b (by simp)]
    refine ⟨hnz, ?_⟩
    have hv := hp.2 idx hidx
    rw [hpr, ← hva, ← hvb, eq_div_iff hnz] at hv
    refine TrivSqZeroExt.ext ?_ ?_
    · rw [TrivSqZeroExt.fst_mul, dn_fst]; exact hv
    · rw [TrivSqZeroExt.snd_mul]
      simp only [dn_fst, dn_snd, smul_eq_mul, MulOpposite.smul_eq_mul_unop, MulOpposite.unop_op]
      field_simp
      ring
  · next a => 
    refine ⟨fun _ => boxSum (shapeOf h a) (u a), fun idx hidx => ?_, fun u' h1 h2 => ?_⟩
    · rw [hp.1] at hidx
      obtain rfl : idx = [] := by simpa using hidx.length
      rw [hp.2, fst_boxSum]
      exact boxSum_congr fun k hk => ha a (by simp) k hk
    · exact ⟨hp.1, by rw [h1, h2 a (by simp)]⟩
  · next a =>
    have s2 := hme a rfl rfl
    have s1 : x = t := by_contra fun hx => hinn a ⟨hx, g, hg, hk, hi⟩
    refine ⟨fun idx => dn (valOf h x idx) ((boxSum (shapeOf h a) (u a)).snd / (vol (shapeOf h a) : F)),
      fun idx hidx => dn_fst _ _, fun u' h1 h2 => ⟨s1, hneeds a (by simp) ?_, hp.2.1, s2, ?_⟩⟩
    · exact hp.1
    · rw [h1, h2 a (by simp)]
      refine TrivSqZeroExt.ext ?_ ?_
      · rw [TrivSqZeroExt.fst_mul, dn_fst, hp.2.2, fst_boxSum, boxSum_congr fun k hk => ha a (by simp) k hk]
        simp only [TrivSqZeroExt.fst_natCast]
        field_simp
      · rw [TrivSqZeroExt.snd_mul]
        simp only [dn_fst, dn_snd, smul_eq_mul, MulOpposite.smul_eq_mul_unop, MulOpposite.unop_op, TrivSqZeroExt.fst_natCast,
          TrivSqZeroExt.snd_natCast]
        field_simp
        simp
  · next a =>
    refine ⟨u a, fun idx hidx => ?_, fun u' h1 h2 => ⟨hp.1, fun idx _ => by rw [h1, h2 a (by simp)]⟩⟩
    rw [hp.2 idx hidx]
    exact ha a (by simp) idx (by rw [← hp.1]; exact hidx)
  · next b =>
    obtain ⟨i, j, hi', hj, hd, hpos⟩ := hp
    choose! ix hix using hpos
    refine ⟨fun idx => u b (ix idx), fun idx hidx => ?_, fun u' h1 h2 => ⟨i, j, hi', hj, fun idx hidx => ?_⟩⟩
    · rw [shapeOf_eq hi'] at hidx
      rw [ha b (by simp) _ (by rw [shapeOf_eq hj]; exact (hix idx hidx).1)]
      unfold valOf
      rw [hi', hj]
      simp only [Option.bind_some, hd, (hix idx hidx).2]
    · exact ⟨ix idx, (hix idx hidx).1, (hix idx hidx).2, by rw [h1, h2 b (by simp)]⟩
  · next d =>
    obtain ⟨hc, hs⟩ := hp
    have hd := segments_axis hs
    refine ⟨fun idx => dn (valOf h x idx) (catSnd h u d 0 ins idx), fun idx hidx => dn_fst _ _, fun u' h1 h2 => ⟨hc, ?_⟩⟩
    refine cat_lift hd h1 (fun idx => ?_) ins 0 (fun idx _ => rfl) (fun a ha' idx hidx => by rw [h2 a ha']; exact ha a ha' idx hidx) hs
    rw [catSnd_congr ins 0 h2]
  · next kg a =>
    obtain ⟨i, f, hi', h1, h2, h3, hsl, h4, h5⟩ := hp
    refine ⟨fun j => boxSum (shapeOf h a) fun idx => if project (shapeOf h x) idx = j then real (f idx) • u a idx else 0,
      fun j hj => ?_, fun u' e1 e2 => ⟨i, f, hi', h1, h2, h3, hsl, h4, fun j _ => by rw [e1, e2 a (by simp)]⟩⟩
    rw [h5 j hj, fst_boxSum]
    refine boxSum_congr fun k hk => ?_
    split
    · rw [TrivSqZeroExt.fst_smul, ha a (by simp) k hk, smul_eq_mul]
    · rfl
  · exact absurd hp id

theorem op_lift {u : Nat → List Nat → DualNumber F} {x : Nat} {g : GradFn} (hI : Inv h V) (hS : Calm h t) (hx : V x)
    (hf : From h t x) (hg : opOf h x = some g)
    (ha : ∀ a ∈ g.inputs, ∀ idx, InBox (shapeOf h a) idx → (u a idx).fst = valOf h a idx) :
    ∃ w : List Nat → DualNumber F, (∀ idx, InBox (shapeOf h x) idx → (w idx).fst = valOf h x idx) ∧
      ∀ u' : Nat → List Nat → DualNumber F, u' x = w → (∀ a ∈ g.inputs, u' a = u a) → OpDet h t u' x g :=
  op_lift' hI hx hf hg (fun a b => hS.quotient x g a b hf hg) (fun a => hS.mean x g a hf hg) ha

/-! ### Dual numbers for the computation -/

/-- Dual numbers of one tensor: at `ε = 0` its elements, the direction for a leaf, and computed for a result. -/
structure LiftAt (h : Heap F) (t : Nat) (e : Nat → List Nat → F) (u : Nat → List Nat → DualNumber F) (x : Nat) : Prop where
  fst : ∀ idx, InBox (shapeOf h x) idx → (u x idx).fst = valOf h x idx
  leaf : opOf h x = none → ∀ idx, (u x idx).snd = if requiresGrad h x = true then e x idx else 0
  op : ∀ g, opOf h x = some g → OpDet h t u x g

theorem lift_upto (hI : Inv h V) (ht : V t) (hS : Calm h t) (e : Nat → List Nat → F) : ∀ n : Nat,
    ∃ u : Nat → List Nat → DualNumber F, ∀ x, x < n → From h t x → LiftAt h t e u x
  | 0 => ⟨fun _ _ => 0, fun x hx => absurd hx (by omega)⟩
  | n + 1 => by
    obtain ⟨u, hu⟩ := lift_upto hI ht hS e n
    by_cases hf : From h t n
    · have hV := (hI.from ht hf).1
      obtain ⟨w, h1, h2, h3⟩ : ∃ w : List Nat → DualNumber F, (∀ idx, InBox (shapeOf h n) idx → (w idx).fst = valOf h n idx) ∧
          (opOf h n = none → ∀ idx, (w idx).snd = if requiresGrad h n = true then e n idx else 0) ∧
          ∀ g, opOf h n = some g → ∀ u' : Nat → List Nat → DualNumber F, u' n = w → (∀ a ∈ g.inputs, u' a = u a) →
            OpDet h t u' n g := by
        cases hg : opOf h n with
        | none =>
          exact ⟨fun idx => dn (valOf h n idx) (if requiresGrad h n = true then e n idx else 0), fun _ _ => dn_fst _ _,
            fun _ idx => dn_snd _ _, fun g hg => by simp at hg⟩
        | some g =>
          obtain ⟨w, h1, h2⟩ := op_lift (u := u) hI hS hV hf hg fun a ha => by
            refine (hu a ((hI.ops n g hV hg).2.2.1 a ha).2 (.step hf ?_)).fst
            unfold Uses operands; rw [hg]; exact ha
          refine ⟨w, h1, fun hn => by simp at hn, fun g' hg' => ?_⟩
          obtain rfl := Option.some.inj hg'
          exact h2
      refine ⟨Function.update u n w, fun x hx hfx => ?_⟩
      by_cases hxn : x = n
      · subst hxn
        refine ⟨by rw [Function.update_self]; exact h1, by rw [Function.update_self]; exact h2, fun g hg => ?_⟩
        refine h3 g hg _ (Function.update_self ..) fun a ha => Function.update_of_ne ?_ _ _
        have := ((hI.ops x g hV hg).2.2.1 a ha).2
        omega
      · have hl := hu x (by omega) hfx
        refine ⟨by rw [Function.update_of_ne hxn]; exact hl.fst, by rw [Function.update_of_ne hxn]; exact hl.leaf, fun g hg => ?_⟩
        refine opDet_congr (Function.update_of_ne hxn _ _) (fun a ha => Function.update_of_ne ?_ _ _) (hl.op g hg)
        have := ((hI.ops x g (hI.from ht hfx).1 hg).2.2.1 a ha).2
        omega
    · refine ⟨u, fun x hx hfx => hu x ?_ hfx⟩
      have : x ≠ n := fun e => hf (e ▸ hfx)
      omega

/-- Every direction of differentiation extends to the whole computation with means inside held constant. -/
theorem Calm.detached (hI : Inv h V) (ht : V t) (hS : Calm h t) (e : Nat → List Nat → F) :
    ∃ u, Detached h t u ∧ ∀ x, Leaf h t x → ∀ idx, (u x idx).snd = e x idx := by
  obtain ⟨u, hu⟩ := lift_upto hI ht hS e (t + 1)
  have hat : ∀ x, From h t x → LiftAt h t e u x := fun x hx => hu x (by have := (hI.from ht hx).2; omega) hx
  refine ⟨u, ⟨fun x i hx hi => ?_, fun x i hx hi hr idx hidx => ?_, fun x g hx hg => ((hat x hx).op g hg).1,
    fun m a hx ⟨hm, g, hg, hk, hi⟩ => ((hat m hx).op g hg).2 a ⟨hm, g, hg, hk, hi⟩⟩, fun x hx idx => ?_⟩
  · obtain ⟨j, f, hj, hr⟩ := hI.reads x (hI.from ht hx).1
    rw [hi] at hj
    obtain rfl := Option.some.inj hj
    exact ⟨f, hr, fun idx hidx => by rw [(hat x hx).fst idx (by rw [shapeOf_eq hi]; exact hidx), valOf_reads hi hr hidx]⟩
  · have hop : opOf h x = none := by
      cases hg : opOf h x with
      | none => rfl
      | some g =>
        have := (hI.ops x g (hI.from ht hx).1 hg).1
        rw [requiresGrad_eq hi, hr] at this
        exact absurd this (by decide)
    rw [(hat x hx).leaf hop, if_neg (by rw [requiresGrad_eq hi, hr]; decide)]
  · obtain ⟨⟨hf, i, hi, hr⟩, hn⟩ := hx
    have hop : opOf h x = none := by
      unfold Interior at hn
      cases hg : opOf h x with
      | none => rfl
      | some g => rw [hg] at hn; exact absurd rfl hn
    rw [(hat x hf).leaf hop, if_pos (by rw [requiresGrad_eq hi, hr])]

open Classical in
/-- There is such a computation in the dual numbers for the direction of every element of a leaf. -/
theorem Calm.detached_direction (hI : Inv h V) (ht : V t) (hS : Calm h t) (x : Nat) (idx : List Nat) :
    ∃ u, Detached h t u ∧ Direction h t u x idx := by
  obtain ⟨u, hl, hu⟩ := Calm.detached hI ht hS fun y k => if y = x ∧ k = idx then 1 else 0
  refine ⟨u, hl, fun y hy k _ => ⟨fun h1 h2 => ?_, fun hn => ?_⟩⟩
  · rw [hu y hy, if_pos ⟨h1, h2⟩]
  · rw [hu y hy, if_neg hn]

/-- If no mean is inside the computation. -/
theorem Spec.Detached.lift {u : Nat → List Nat → DualNumber F} (hu : Detached h t u) (hm : ∀ x g, From h t x → opOf h x = some g →
    g.kind = .mean → x = t) : Lift h t u :=
  ⟨hu.value, hu.const, fun x g hx hg => hu.op x g hx hg fun _ ⟨hn, g', h1, h2, _⟩ => hn (hm x g' hx h1 h2)⟩

theorem Calm.lift (hI : Inv h V) (ht : V t) (hS : Calm h t) (hm : ∀ x g, From h t x → opOf h x = some g → g.kind = .mean → x = t)
    (e : Nat → List Nat → F) : ∃ u, Lift h t u ∧ ∀ x, Leaf h t x → ∀ idx, (u x idx).snd = e x idx := by
  obtain ⟨u, h1, h2⟩ := Calm.detached hI ht hS e
  exact ⟨u, h1.lift hm, h2⟩

theorem Calm.direction (hI : Inv h V) (ht : V t) (hS : Calm h t) (hm : ∀ x g, From h t x → opOf h x = some g → g.kind = .mean → x = t)
    (x : Nat) (idx : List Nat) : ∃ u, Lift h t u ∧ Direction h t u x idx := by
  obtain ⟨u, h1, h2⟩ := Calm.detached_direction hI ht hS x idx
  exact ⟨u, h1.lift hm, h2⟩

theorem Inv.last_mean (hI : Inv h V) (ht : V t) (hS : Smooth h t) (x : Nat) (g : GradFn) (hx : From h t x) (hg : opOf h x = some g)
    (hk : g.kind = .mean) : x = t := by
  have hp := (hI.ops x g (hI.from ht hx).1 hg).2.2.2
  rw [hk] at hp
  unfold Primal at hp
  split at hp <;> simp_all
  exact (hS.mean x g _ hx hg hk ‹_›).1

theorem exists_lift (hI : Inv h V) (ht : V t) (hS : Smooth h t) (e : Nat → List Nat → F) :
    ∃ u, Lift h t u ∧ ∀ x, Leaf h t x → ∀ idx, (u x idx).snd = e x idx := Calm.lift hI ht hS.calm (hI.last_mean ht hS) e

theorem exists_direction (hI : Inv h V) (ht : V t) (hS : Smooth h t) (x : Nat) (idx : List Nat) :
    ∃ u, Lift h t u ∧ Direction h t u x idx := Calm.direction hI ht hS.calm (hI.last_mean ht hS) x idx

/-! ### Gradients -/

theorem Inv.prepared' (hI : Inv h V) (ht : V t) (hsm : ∀ x i, From h t x → h.ts[x]? = some i → Small i.view.sizes i.dtype)
    (hal : ∀ x d, From h t x → gradStore h x = some d → ¬ ReadStore h t d) : Prepared h t := by
  have hv : ∀ {x}, Needs h t x → V x := fun hx => (hI.from ht hx.1).1
  refine ⟨fun x i hx hi => ?_, hsm, fun x i hx hn hi => ?_, fun x i g hx _ hi hg => (hI.grad x i g (hv hx) hi hg).imp fun j hj => ⟨hj.1, hj.2.1, hj.2.2.1, hj.2.2.2.1⟩,
    fun x i d hx hn _ hi hd => ?_, fun x b hx hw hu => ?_, fun x y d hx hy hnx hny _ _ => hI.apart x y d (hv hx) (hv hy) hnx hny,
    fun x d hx _ _ hd hr => hal x d hx.1 hd hr⟩
  · obtain ⟨j, hj, hr⟩ := hx.2
    rw [hi] at hj
    obtain rfl := Option.some.inj hj
    exact hI.float x i (hv hx) hi hr
  · obtain ⟨j, hj, hr⟩ := hx.2
    rw [hi] at hj
    obtain rfl := Option.some.inj hj
    exact hI.dense x i (hv hx) hi hr hn
  · obtain ⟨s, h1, h2, h3⟩ := hI.cells x i d (hv hx) hn hi hd
    rcases h3 with ⟨h3, h4⟩ | ⟨h3, c, a, h4, h5, h6⟩
    · refine ⟨fun _ => 0, ⟨s, h1, h2, .inl ⟨h3, ?_, fun _ _ => rfl⟩⟩, fun _ _ => rfl⟩
      have hs := hsm x i hx.1 hi
      unfold Spec.Small at hs
      have h7 := vol_lt_of_bytes hs
      rw [Nat.mul_comm] at hs
      rw [h4, numel_eq_vol (by omega), ← Nat.cast_mul, wrapU_natCast (by omega)]
    · exact ⟨a, ⟨s, h1, h2, .inr ⟨c, h4, h5, h6⟩⟩, fun hi => absurd hi h3⟩
  · obtain ⟨h1, h2⟩ := hI.view x b (hv hx) hw hu
    refine ⟨⟨.step hx.1 hu, ?_⟩, h2⟩
    unfold requiresGrad at h1
    split at h1
    · next i hi => exact ⟨i, hi, h1⟩
    · cases h1

theorem Calm.prepared (hI : Inv h V) (ht : V t) (hS : Calm h t) : Prepared h t := hI.prepared' ht hS.small hS.alone

theorem Inv.prepared (hI : Inv h V) (ht : V t) (hS : Smooth h t) : Prepared h t := Calm.prepared hI ht hS.calm

theorem Inv.unused (hI : Inv h V) (ht : V t) : Unused h t := fun x g hx _ hg => by
  obtain ⟨h1, h2, _⟩ := hI.ops x g (hI.from ht hx).1 hg
  exact ⟨h2, fun i hi => by rw [requiresGrad_eq hi] at h1; exact h1⟩

end INNC
