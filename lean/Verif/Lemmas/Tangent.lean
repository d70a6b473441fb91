import Verif.Lemmas.ForwardLift
import Verif.Lemmas.ForwardPrograms
import Verif.Props.Frame
import Verif.Spec.Tangent
/-
Derivatives at the elements the tensors have now: every direction of differentiation extends to the computation, and gradients are
prepared as before the change.
-/
namespace INNC
open Spec Tensor DualNumber
variable {F : Type} [Field F] [FOps F] {h k : Heap F} {V : Nat → Prop} {t : Nat}

/-- As `OpDet`, for the rules of differentiation. -/
def OpTan (h : Heap F) (t : Nat) (u : Nat → List Nat → DualNumber F) (x : Nat) (g : GradFn) : Prop :=
  ((∀ a, ¬ InnerMean h t x a) → Follow h t u x g.kind g.inputs) ∧
  ∀ a, InnerMean h t x a → Needs h t a ∧ shapeOf h x = [] ∧ (vol (shapeOf h a) : F) ≠ 0 ∧ (u x []).snd = 0

/-- The rules of differentiation mention the elements of factors, of the operands and results of quotients, and of slopes only. -/
theorem follow_congr {h : Heap F} {u u' : Nat → List Nat → DualNumber F} {x : Nat} {kd : BackKind} {ins : List Nat}
    (hx : ∀ j, (u' x j).snd = (u x j).snd) (ha : ∀ a ∈ ins, ∀ j, (u' a j).snd = (u a j).snd)
    (hf : kd = .mul ∨ kd = .div → (∀ j, (u' x j).fst = (u x j).fst) ∧ ∀ a ∈ ins, ∀ j, (u' a j).fst = (u a j).fst)
    (hc : Follow h t u x kd ins) : Follow h t u' x kd ins := by
  have seg : ∀ (l : List Nat) (d k : Nat), (∀ a ∈ l, ∀ j, (u' a j).snd = (u a j).snd) →
      Segments h (fun y k => (u y k).snd) x d k l → Segments h (fun y k => (u' y k).snd) x d k l := by
    intro l d
    induction l with
    | nil => intro k _ hs; exact hs
    | cons b l ih =>
      rintro k hl ⟨n, h1, h2, h3⟩
      refine ⟨n, h1, fun idx hi => ?_, ih _ (fun a ha => hl a (by simp [ha])) h3⟩
      show (u' x _).snd = (u' b idx).snd
      rw [hx, hl b (by simp)]
      exact h2 idx hi
  unfold Follow at hc ⊢
  split at hc <;> (try simp only [List.mem_cons, List.not_mem_nil, or_false, forall_eq_or_imp, forall_eq] at ha hf) <;>
    try (simp only [ha, hx]; exact hc)
  · obtain ⟨f1, f2, f3⟩ := hf (by simp)
    simp only [ha, hx, f2, f3]; exact hc
  · obtain ⟨f1, f2, f3⟩ := hf (by simp)
    simp only [ha, hx, f1, f3]; exact hc
  · obtain ⟨i, j, h1, h2, h3⟩ := hc
    refine ⟨i, j, h1, h2, fun idx hi => ?_⟩
    obtain ⟨k, q1, q2, q3⟩ := h3 idx hi
    refine ⟨k, q1, q2, ?_⟩
    show (u' x idx).snd = (u' _ k).snd
    rw [hx, ha]
    exact q3
  · exact ⟨hc.1, seg _ _ _ ha hc.2⟩
  · exact hc

theorem opTan_congr {u u' : Nat → List Nat → DualNumber F} {x : Nat} {g : GradFn} (hx : u' x = u x)
    (ha : ∀ a ∈ g.inputs, u' a = u a) (hc : OpTan h t u x g) : OpTan h t u' x g :=
  ⟨fun hn => follow_congr (fun j => by rw [hx]) (fun a h j => by rw [ha a h])
    (fun _ => ⟨fun j => by rw [hx], fun a h j => by rw [ha a h]⟩) (hc.1 hn), fun a hm => by rw [hx]; exact hc.2 a hm⟩

omit [Field F] [FOps F] in
theorem from_same {x : Nat} (e : k.ts = h.ts) (hf : From h t x) : From k t x := by
  induction hf with
  | root => exact .root
  | step _ hu ih =>
    refine .step ih ?_
    unfold Uses operands opOf at hu ⊢
    rwa [e]

omit [Field F] [FOps F] in
theorem needs_same {x : Nat} (e : k.ts = h.ts) (hf : Needs h t x) : Needs k t x := ⟨from_same e hf.1, by rw [e]; exact hf.2⟩

omit [FOps F] in
/-- Operations other than products, quotients and those with recorded slopes are differentiated without looking at elements. -/
theorem Spec.Follow.elsewhere [FOps F] {st : List (Storage F)} {u : Nat → List Nat → DualNumber F} {x : Nat} {kd : BackKind} {ins : List Nat}
    (h3 : ¬ ∃ c, kd = .knownGrad c) (hc : Follow h t u x kd ins) : Follow (⟨st, h.ts, h.gver⟩ : Heap F) t u x kd ins := by
  have seg : ∀ (l : List Nat) (d k : Nat), Segments h (fun y k => (u y k).snd) x d k l →
      Segments (⟨st, h.ts, h.gver⟩ : Heap F) (fun y k => (u y k).snd) x d k l := by
    intro l d
    induction l with
    | nil => intro k hs; exact hs
    | cons b l ih =>
      rintro k ⟨n, h1, h2, h3⟩
      exact ⟨n, h1, h2, ih _ h3⟩
  unfold Follow at hc
  split at hc
  · exact hc
  · exact hc
  · exact hc
  · exact ⟨hc.1, hc.2.1, needs_same (h := h) rfl hc.2.2.1, needs_same (h := h) rfl hc.2.2.2.1, hc.2.2.2.2⟩
  · exact hc
  · exact ⟨hc.1, needs_same (h := h) rfl hc.2.1, hc.2.2⟩
  · exact hc
  · exact hc
  · exact ⟨hc.1, seg _ _ _ hc.2⟩
  · exact absurd ⟨_, rfl⟩ h3
  · exact hc.elim

/-- What is required of the computation of `t`, apart from what `Calm` requires for the gradients. -/
structure Mild (h : Heap F) (t : Nat) : Prop where
  quotient : ∀ x g a b, From h t x → opOf h x = some g → g.kind = .div → g.inputs = [a, b] →
    shapeOf h b = shapeOf h x ∧ requiresGrad h a = true ∧ requiresGrad h b = true ∧
    ∀ i f idx, h.ts[b]? = some i → Reads h i f → InBox i.view.sizes idx → real (f idx) ≠ 0
  mean : ∀ x g a, From h t x → opOf h x = some g → g.kind = .mean → g.inputs = [a] → (vol (shapeOf h a) : F) ≠ 0

open Classical in
/-- The derivative of each operation. -/
theorem op_tangent {st : List (Storage F)} {u : Nat → List Nat → DualNumber F} {x : Nat} {g : GradFn} (hI : Inv h V)
    (hR : Revalued h t ⟨st, h.ts, h.gver⟩) (hS : Mild (⟨st, h.ts, h.gver⟩ : Heap F) t) (hx : V x)
    (hf : From h t x) (hg : opOf h x = some g)
    (ha : ∀ a ∈ g.inputs, ∀ idx, InBox (shapeOf h a) idx → (u a idx).fst = valOf (⟨st, h.ts, h.gver⟩ : Heap F) a idx) :
    ∃ w : List Nat → DualNumber F, (∀ idx, InBox (shapeOf h x) idx → (w idx).fst = valOf (⟨st, h.ts, h.gver⟩ : Heap F) x idx) ∧
      ∀ u' : Nat → List Nat → DualNumber F, u' x = w → (∀ a ∈ g.inputs, u' a = u a) →
        OpTan (⟨st, h.ts, h.gver⟩ : Heap F) t u' x g := by
  obtain ⟨_, _, hin, hp⟩ := hI.ops x g hx hg
  have hneeds : ∀ a ∈ g.inputs, requiresGrad h a = true → Needs h t a := fun a ha hr => by
    refine ⟨.step hf (by unfold Uses operands; rw [hg]; exact ha), ?_⟩
    unfold requiresGrad at hr
    split at hr
    · next i hi => exact ⟨i, hi, hr⟩
    · cases hr
  have hneeds' : ∀ a ∈ g.inputs, requiresGrad h a = true → Needs (⟨st, h.ts, h.gver⟩ : Heap F) t a := fun a ha hr =>
    needs_same (h := h) rfl (hneeds a ha hr)
  have hf' : From (⟨st, h.ts, h.gver⟩ : Heap F) t x := from_same (h := h) rfl hf
  have hobj : ∀ a ∈ g.inputs, ∃ i, h.ts[a]? = some i := fun a ha => by
    obtain ⟨i, _, hi, _⟩ := hI.reads a (hin a ha).1
    exact ⟨i, hi⟩
  have hnm : ∀ kd, g.kind = kd → kd ≠ .mean → ∀ a, ¬ InnerMean (⟨st, h.ts, h.gver⟩ : Heap F) t x a := by
    rintro kd hk hne a ⟨_, g', q1, q2, _⟩
    have q1 : opOf h x = some g' := q1
    rw [hg] at q1; injection q1 with q1; subst q1
    exact hne (hk.symm.trans q2)
  by_cases h1 : g.kind = .mul
  · rw [h1] at hp
    obtain ⟨a, b, hi⟩ : ∃ a b, g.inputs = [a, b] := by
      rcases hi : g.inputs with _ | ⟨a, _ | ⟨b, _ | ⟨c, l⟩⟩⟩ <;> rw [hi] at hp
      · exact hp.elim
      · exact hp.elim
      · exact ⟨a, b, rfl⟩
      · exact hp.elim
    rw [hi] at hp
    refine ⟨fun idx => dn (valOf (⟨st, h.ts, h.gver⟩ : Heap F) x idx)
      ((u a (project (shapeOf h a) idx)).snd * (u b (project (shapeOf h b) idx)).fst +
        (u a (project (shapeOf h a) idx)).fst * (u b (project (shapeOf h b) idx)).snd), fun _ _ => dn_fst _ _, fun u' e1 e2 =>
      ⟨fun _ => ?_, fun a hm => absurd hm (hnm _ h1 (by simp) a)⟩⟩
    rw [h1, hi]
    rw [hi] at e2
    refine ⟨hp.1, fun idx hidx => ?_⟩
    rw [e1, dn_snd, e2 a (by simp), e2 b (by simp)]
    rfl
  by_cases h2 : g.kind = .div
  · rw [h2] at hp
    obtain ⟨a, b, hi⟩ : ∃ a b, g.inputs = [a, b] := by
      rcases hi : g.inputs with _ | ⟨a, _ | ⟨b, _ | ⟨c, l⟩⟩⟩ <;> rw [hi] at hp
      · exact hp.elim
      · exact hp.elim
      · exact ⟨a, b, rfl⟩
      · exact hp.elim
    rw [hi] at hp
    obtain ⟨s1, s2, s3, s4⟩ := hS.quotient x g a b hf' hg h2 hi
    have s1 : shapeOf h b = shapeOf h x := s1
    refine ⟨fun idx => dn (valOf (⟨st, h.ts, h.gver⟩ : Heap F) x idx)
      (((u a (project (shapeOf h a) idx)).snd - valOf (⟨st, h.ts, h.gver⟩ : Heap F) x idx * (u b idx).snd) / (u b idx).fst),
      fun _ _ => dn_fst _ _, fun u' e1 e2 => ⟨fun _ => ?_, fun a hm => absurd hm (hnm _ h2 (by simp) a)⟩⟩
    rw [h2, hi]
    rw [hi] at e2 ha hneeds
    refine ⟨hp.1, s1, hneeds' a (by rw [hi]; simp) s2, hneeds' b (by rw [hi]; simp) s3, fun idx hidx => ?_⟩
    have hidx : InBox (shapeOf h x) idx := hidx
    rw [e1, dn_snd, dn_fst, e2 a (by simp), e2 b (by simp)]
    refine ⟨?_, rfl⟩
    rw [ha b (by simp) idx (by rw [s1]; exact hidx)]
    obtain ⟨i, hi'⟩ := hobj b (by rw [hi]; simp)
    obtain ⟨f, hr⟩ := hR.elements b i (.step hf (by unfold Uses operands; rw [hg]; show b ∈ g.inputs; rw [hi]; simp)) hi'
    have hb : InBox i.view.sizes idx := by rw [← shapeOf_eq hi', s1]; exact hidx
    rw [valOf_reads (h := ⟨st, h.ts, h.gver⟩) hi' hr hb]
    exact s4 i f idx hi' hr hb
  by_cases h3 : ∃ c, g.kind = .knownGrad c
  · obtain ⟨c, h3⟩ := h3
    rw [h3] at hp
    obtain ⟨a, hi⟩ : ∃ a, g.inputs = [a] := by
      rcases hi : g.inputs with _ | ⟨a, _ | ⟨b, l⟩⟩ <;> rw [hi] at hp
      · exact hp.elim
      · exact ⟨a, rfl⟩
      · exact hp.elim
    rw [hi] at hp
    obtain ⟨i, _, hi', k1, k2, _, _, k3, _⟩ := hp
    obtain ⟨f, hr⟩ := hR.slopes x g c i hf hg h3 hi'
    refine ⟨fun j => dn (valOf (⟨st, h.ts, h.gver⟩ : Heap F) x j) (boxSum (shapeOf h a) fun idx =>
      if project (shapeOf h x) idx = j then real (f idx) * (u a idx).snd else 0), fun _ _ => dn_fst _ _, fun u' e1 e2 =>
      ⟨fun _ => ?_, fun a hm => absurd hm (hnm _ h3 (by simp) a)⟩⟩
    rw [h3, hi]
    rw [hi] at e2
    refine ⟨i, f, hi', k1, k2, hr, k3, fun j _ => ?_⟩
    rw [e1, dn_snd, e2 a (by simp)]
    rfl
  -- the other operations do not look at elements
  obtain ⟨w, w1, w2⟩ := op_lift' (u := fun a idx => dn (valOf h a idx) (u a idx).snd) hI hx hf hg
    (fun _ _ hk => absurd hk h2) (fun a hk hi => hS.mean x g a hf' hg hk hi) fun a _ idx _ => dn_fst _ _
  refine ⟨fun idx => dn (valOf (⟨st, h.ts, h.gver⟩ : Heap F) x idx) (w idx).snd, fun _ _ => dn_fst _ _, fun u' e1 e2 => ?_⟩
  have hne : ∀ a ∈ g.inputs, a ≠ x := fun a ha => by have := (hin a ha).2; omega
  have key := w2 (Function.update (fun a idx => dn (valOf h a idx) (u a idx).snd) x w) (Function.update_self ..)
    fun a ha => Function.update_of_ne (hne a ha) _ _
  refine ⟨fun hn => ?_, fun a hm => ?_⟩
  · refine follow_congr (fun j => ?_) (fun a ha j => ?_) (fun hc => ?_) (Spec.Follow.elsewhere h3 (key.1 hn).follow)
    · rw [e1, dn_snd, Function.update_self]
    · rw [e2 a ha, Function.update_of_ne (hne a ha), dn_snd]
    · rcases hc with hc | hc
      · exact absurd hc h1
      · exact absurd hc h2
  · obtain ⟨q1, q2, q3, q4⟩ := key.2 a hm
    rw [Function.update_self] at q4
    exact ⟨needs_same (h := h) rfl q1, q2, q3, by rw [e1, dn_snd]; exact q4⟩

/-- Dual numbers of one tensor: at `ε = 0` its elements, the direction for a leaf, and differentiated for a result. -/
structure TanAt (k : Heap F) (t : Nat) (e : Nat → List Nat → F) (u : Nat → List Nat → DualNumber F) (x : Nat) : Prop where
  fst : ∀ idx, InBox (shapeOf k x) idx → (u x idx).fst = valOf k x idx
  leaf : opOf k x = none → ∀ idx, (u x idx).snd = if requiresGrad k x = true then e x idx else 0
  op : ∀ g, opOf k x = some g → OpTan k t u x g

theorem tangent_upto {st : List (Storage F)} (hI : Inv h V) (ht : V t) (hR : Revalued h t ⟨st, h.ts, h.gver⟩)
    (hS : Mild (⟨st, h.ts, h.gver⟩ : Heap F) t) (e : Nat → List Nat → F) : ∀ n : Nat,
    ∃ u : Nat → List Nat → DualNumber F, ∀ x, x < n → From h t x → TanAt (⟨st, h.ts, h.gver⟩ : Heap F) t e u x
  | 0 => ⟨fun _ _ => 0, fun x hx => absurd hx (by omega)⟩
  | n + 1 => by
    obtain ⟨u, hu⟩ := tangent_upto hI ht hR hS e n
    by_cases hf : From h t n
    · have hV := (hI.from ht hf).1
      obtain ⟨w, h1, h2, h3⟩ : ∃ w : List Nat → DualNumber F,
          (∀ idx, InBox (shapeOf h n) idx → (w idx).fst = valOf (⟨st, h.ts, h.gver⟩ : Heap F) n idx) ∧
          (opOf h n = none → ∀ idx, (w idx).snd = if requiresGrad h n = true then e n idx else 0) ∧
          ∀ g, opOf h n = some g → ∀ u' : Nat → List Nat → DualNumber F, u' n = w → (∀ a ∈ g.inputs, u' a = u a) →
            OpTan (⟨st, h.ts, h.gver⟩ : Heap F) t u' n g := by
        cases hg : opOf h n with
        | none =>
          exact ⟨fun idx => dn (valOf (⟨st, h.ts, h.gver⟩ : Heap F) n idx) (if requiresGrad h n = true then e n idx else 0),
            fun _ _ => dn_fst _ _, fun _ idx => dn_snd _ _, fun g hg => by simp at hg⟩
        | some g =>
          obtain ⟨w, h1, h2⟩ := op_tangent (u := u) hI hR hS hV hf hg fun a ha => by
            refine (hu a ((hI.ops n g hV hg).2.2.1 a ha).2 (.step hf ?_)).fst
            unfold Uses operands; rw [hg]; exact ha
          refine ⟨w, h1, fun hn => by simp at hn, fun g' hg' => ?_⟩
          obtain rfl := Option.some.inj hg'
          exact h2
      refine ⟨Function.update u n w, fun x hx hfx => ?_⟩
      by_cases hxn : x = n
      · subst hxn
        refine ⟨by rw [Function.update_self]; exact h1, by rw [Function.update_self]; exact h2, fun g hg => ?_⟩
        refine h3 g hg _ (Function.update_self ..) fun a ha => Function.update_of_ne ?_ _ _
        have := ((hI.ops x g hV hg).2.2.1 a ha).2
        omega
      · have hl := hu x (by omega) hfx
        refine ⟨by rw [Function.update_of_ne hxn]; exact hl.fst, by rw [Function.update_of_ne hxn]; exact hl.leaf, fun g hg => ?_⟩
        refine opTan_congr (Function.update_of_ne hxn _ _) (fun a ha => Function.update_of_ne ?_ _ _) (hl.op g hg)
        have := ((hI.ops x g (hI.from ht hfx).1 hg).2.2.1 a ha).2
        omega
    · refine ⟨u, fun x hx hfx => hu x ?_ hfx⟩
      have : x ≠ n := fun e => hf (e ▸ hfx)
      omega

/-- Every direction of differentiation extends to the whole computation, at the elements of `k`. -/
theorem exists_tangent (hI : Inv h V) (ht : V t) (hR : Revalued h t k) (hS : Mild k t) (e : Nat → List Nat → F) :
    ∃ u, Tangent k t u ∧ ∀ x, Leaf k t x → ∀ idx, (u x idx).snd = e x idx := by
  obtain ⟨st, ts, gv⟩ := k
  obtain rfl : ts = h.ts := hR.tensors
  obtain rfl : gv = h.gver := hR.version
  obtain ⟨u, hu⟩ := tangent_upto hI ht hR hS e (t + 1)
  have back : ∀ {x}, From (⟨st, h.ts, h.gver⟩ : Heap F) t x → From h t x := fun hx => from_same (k := h) (h := ⟨st, h.ts, _⟩) rfl hx
  have hat : ∀ x, From (⟨st, h.ts, h.gver⟩ : Heap F) t x → TanAt (⟨st, h.ts, h.gver⟩ : Heap F) t e u x := fun x hx =>
    hu x (by have := (hI.from ht (back hx)).2; omega) (back hx)
  refine ⟨u, ⟨fun x i hx hi => ?_, fun x i hx hi hr idx hidx => ?_, fun x g hx hg => ((hat x hx).op g hg).1,
    fun m a hx ⟨hm, g, hg, hk, hi⟩ => ((hat m hx).op g hg).2 a ⟨hm, g, hg, hk, hi⟩⟩, fun x hx idx => ?_⟩
  · obtain ⟨f, hr⟩ := hR.elements x i (back hx) hi
    exact ⟨f, hr, fun idx hidx => by rw [(hat x hx).fst idx (by rw [shapeOf_eq hi]; exact hidx), valOf_reads hi hr hidx]⟩
  · have hop : opOf h x = none := by
      cases hg : opOf h x with
      | none => rfl
      | some g =>
        have := (hI.ops x g (hI.from ht (back hx)).1 hg).1
        rw [requiresGrad_eq (h := h) hi, hr] at this
        exact absurd this (by decide)
    rw [(hat x hx).leaf hop, if_neg (by rw [requiresGrad_eq hi, hr]; decide)]
  · obtain ⟨⟨hf, i, hi, hr⟩, hn⟩ := hx
    have hop : opOf h x = none := by
      unfold Interior at hn
      cases hg : opOf h x with
      | none => rfl
      | some g => exact absurd (show (opOf h x).isSome = true by rw [hg]; rfl) hn
    rw [(hat x hf).leaf hop, if_pos (by rw [requiresGrad_eq hi, hr])]

open Classical in
theorem tangent_direction (hI : Inv h V) (ht : V t) (hR : Revalued h t k) (hS : Mild k t) (x : Nat) (idx : List Nat) :
    ∃ u, Tangent k t u ∧ Direction k t u x idx := by
  obtain ⟨u, hl, hu⟩ := exists_tangent hI ht hR hS fun y k => if y = x ∧ k = idx then 1 else 0
  refine ⟨u, hl, fun y hy k _ => ⟨fun h1 h2 => ?_, fun hn => ?_⟩⟩
  · rw [hu y hy, if_pos ⟨h1, h2⟩]
  · rw [hu y hy, if_neg hn]

/-- The gradients are still prepared. -/
theorem Spec.Revalued.prepared (hR : Revalued h t k) (hp : Prepared h t) : Prepared k t := by
  obtain ⟨st, ts, gv⟩ := k
  obtain rfl : ts = h.ts := hR.tensors
  have back : ∀ {x}, Needs (⟨st, h.ts, gv⟩ : Heap F) t x → Needs h t x := fun hx => needs_same (k := h) (h := ⟨st, h.ts, _⟩) rfl hx
  have backf : ∀ {x}, From (⟨st, h.ts, gv⟩ : Heap F) t x → From h t x := fun hx => from_same (k := h) (h := ⟨st, h.ts, _⟩) rfl hx
  refine ⟨fun x i hx => hp.float x i (back hx), fun x i hx => hp.bytes x i (backf hx), fun x i hx hn => hp.dense x i (back hx) hn,
    fun x i g hx => hp.grad x i g (back hx), fun x i d hx hn hxt hi hd => ?_, fun x b hx hw hu => ?_,
    fun x y d hx hy h1 h2 => hp.apart x y d (back hx) (back hy) h1 h2, fun x d hx h1 h2 h3 hr => ?_⟩
  · obtain ⟨a, ⟨s, h1, h2⟩, h3⟩ := hp.cells x i d (back hx) hn hxt hi hd
    exact ⟨a, ⟨s, (hR.gradients x d (back hx).1 hd).trans h1, h2⟩, h3⟩
  · obtain ⟨h1, h2⟩ := hp.view x b (back hx) hw hu
    exact ⟨needs_same (h := h) rfl h1, h2⟩
  · refine hp.aside x d (back hx) h1 h2 h3 ?_
    rcases hr with ⟨y, i, hy, hi⟩ | ⟨y, g, a, i, hy, hg⟩
    · exact Or.inl ⟨y, i, backf hy, hi⟩
    · exact Or.inr ⟨y, g, a, i, backf hy, hg⟩

theorem Spec.Revalued.graph (hR : Revalued h t k) (hg : Graph h) : Graph k := by
  obtain ⟨st, ts, gv⟩ := k
  obtain rfl : ts = h.ts := hR.tensors
  obtain rfl : gv = h.gver := hR.version
  exact ⟨hg.older, hg.arity, hg.version⟩

theorem Spec.Revalued.unused (hR : Revalued h t k) (hU : Unused h t) : Unused k t := by
  obtain ⟨st, ts, gv⟩ := k
  obtain rfl : ts = h.ts := hR.tensors
  exact fun x g hx => hU x g (from_same (k := h) (h := ⟨st, h.ts, _⟩) rfl hx)

/-! ### In-place additions -/

/-- What in-place additions keep. -/
structure KeptUp (h : Heap F) (t : Nat) (k : Heap F) : Prop where
  tensors : k.ts = h.ts
  version : k.gver = h.gver
  elements : ∀ (x : Nat) (i : Impl) f, h.ts[x]? = some i → Reads h i f → ∃ f', Reads k i f'
  gradients : ∀ x d, From h t x → gradStore h x = some d → k.st[d]? = h.st[d]?

theorem KeptUp.add (hI : Inv h V) (hK : KeptUp h t k) {c r : Nat} (hc : V c) (hr : V r) (hA : Addable k c r)
    (hd : ∀ x d, From h t x → gradStore h x = some d → storeOf h c ≠ some d) {k' : Heap F} (e : addAssign c r k = .ok () k') :
    KeptUp h t k' := by
  obtain ⟨hrq, hfl, hdist, hns, s, hs, hstr⟩ := hA
  obtain ⟨i, f, hi, hri⟩ := hI.reads c hc
  obtain ⟨j, g, hj, hrj⟩ := hI.reads r hr
  obtain ⟨fi, hir⟩ := hK.elements c i f hi hri
  obtain ⟨fj, hjr⟩ := hK.elements r j g hj hrj
  have hi' : k.ts[c]? = some i := by rw [hK.tensors]; exact hi
  have hj' : k.ts[r]? = some j := by rw [hK.tensors]; exact hj
  rw [shapeOf_eq hi', shapeOf_eq hj'] at hs hstr
  have hg : ∀ idx, ∃ v, accumAt i.dtype j.dtype i.view.sizes j.view.sizes s fi fj idx = some v := fun idx =>
    foldlM_some (fun x y => elemAccum_some (hfl i hi') x _) _ _
  have hrq' : i.requiresGrad = false := by rwa [requiresGrad_eq hi'] at hrq
  obtain ⟨h', e', hts', _, hoth⟩ := add_effect (da := i.dtype) (db := j.dtype) ⟨i, hi', rfl, rfl, hir⟩ ⟨j, hj', rfl, rfl, hjr⟩ hns
    (fun i' h1 => by rw [hi'] at h1; obtain rfl := Option.some.inj h1; exact hrq') hs hstr hdist
    (fun idx _ => (hg idx).choose_spec)
  rw [e] at e'
  injection e' with _ e'
  subst e'
  have hw := addAssign_writes (r := r) hi'
  rw [e] at hw
  refine ⟨hts'.trans hK.tensors, hw.gver.trans hK.version, fun x ix fx hx hrx => ?_, fun x d hx hxd => ?_⟩
  · obtain ⟨f1, h1⟩ := hK.elements x ix fx hx hrx
    obtain ⟨f2, ⟨ix', h2, _, _, h3⟩, _⟩ := hoth x ix.dtype ix.view.sizes f1 ⟨ix, by rw [hK.tensors]; exact hx, rfl, rfl, h1⟩
    rw [hts', hK.tensors, hx] at h2
    obtain rfl := Option.some.inj h2
    exact ⟨f2, h3⟩
  · rw [hw.other d fun ed => hd x d hx hxd (by unfold storeOf; rw [hi, ed]; rfl)]
    exact hK.gradients x d hx hxd

theorem added_steady (hI : Inv h V) {vs : List Nat} (hV : ∀ x ∈ vs, V x) (hA : Advanced h vs t k) : KeptUp h t k := by
  induction hA with
  | none => exact ⟨rfl, rfl, fun x i f _ hr => ⟨f, hr⟩, fun _ _ _ _ => rfl⟩
  | more _ hc hr hA hd e ih => exact ih.add hI (hV _ hc) (hV _ hr) hA hd e

theorem KeptUp.revalued (hI : Inv h V) (ht : V t) (hK : KeptUp h t k) : Revalued h t k := by
  refine ⟨hK.tensors, hK.version, fun x i hx hi => ?_, fun x g a i hx hg hk hi => ?_, hK.gradients⟩
  · obtain ⟨j, f, hj, hr⟩ := hI.reads x (hI.from ht hx).1
    rw [hi] at hj
    obtain rfl := Option.some.inj hj
    exact hK.elements x i f hi hr
  · have hp := (hI.ops x g (hI.from ht hx).1 hg).2.2.2
    rw [hk] at hp
    obtain ⟨b, hb⟩ : ∃ b, g.inputs = [b] := by
      rcases hb : g.inputs with _ | ⟨b, _ | ⟨c, l⟩⟩ <;> rw [hb] at hp
      · exact hp.elim
      · exact ⟨b, rfl⟩
      · exact hp.elim
    rw [hb] at hp
    obtain ⟨j, f, hj, _, _, hr, _⟩ := hp
    rw [hi] at hj
    obtain rfl := Option.some.inj hj
    exact hK.elements a i f hi hr

end INNC
