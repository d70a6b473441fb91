import Verif.Lemmas.Again
import Verif.Spec.Quotient
/-
Back-propagation through a quotient with a constant operand.
-/
namespace INNC
open Spec Tensor
variable {F : Type} [FOps F]

theorem BFrame.visits {h0 : Heap F} {S : Nat → Prop} (hc : GradsIn h0 S) (hop : ∀ x y, S x → Uses h0 x y → S y) :
    ∀ (l : List Nat) {H : Heap F}, BFrame h0 S H → (∀ x ∈ l, S x) → Post (BFrame h0 S) (INNC.visits Tensor.backVisit l H) fun _ _ => True
  | [], H, hb, _ => post_pure hb trivial
  | x :: l, H, hb, hl => by
    rw [visits_cons]
    exact post_bind (hb.backVisit hc (hl x (by simp)) (hop x · (hl x (by simp)))) fun _ h1 hh1 _ =>
      BFrame.visits hc hop l hh1 fun y hy => hl y (by simp [hy])

/-- A pointer to a gradient that does not exist is dereferenced. -/
theorem derefGrad_null {H : Heap F} {p : Nat} {i : Impl} (hi : H.ts[p]? = some i) (hg : i.grad = none) :
    derefGrad p H = .ub .nullptr := by
  unfold derefGrad
  rw [M.bind_ok (getT_ok hi), hg]
  rfl

theorem tryAccUpdate_const {H : Heap F} {p : Nat} {i : Impl} (hi : H.ts[p]? = some i) (hr : i.requiresGrad = false) :
    tryAccUpdate p H = .ok () H := by
  unfold tryAccUpdate
  rw [M.bind_ok (getT_ok hi), hr]
  rfl

theorem bind_ok_inv {α β : Type} {x : M F α} {f : α → M F β} {h h' : Heap F} {b : β} (e : (x >>= f) h = .ok b h') :
    ∃ a h1, x h = .ok a h1 ∧ f a h1 = .ok b h' := by
  rw [M.bind_def] at e
  cases hx : x h with
  | ok a h1 => rw [hx] at e; exact ⟨a, h1, rfl, e⟩
  | throw r h1 => rw [hx] at e; simp at e
  | ub u => rw [hx] at e; simp at e

theorem Stamped.gradsIn {h h1 : Heap F} {n v : Nat → Nat} (hst : Stamped h h1 n v) (hh : History h) {S : Nat → Prop}
    (hS : ∀ x, S x → x < h.ts.length) : GradsIn h1 S := by
  refine ⟨fun x hx => by rw [hst.len]; exact hS x hx, fun x g k hx hk hgk => ?_⟩
  rw [hst.len]
  cases hx0 : h.ts[x]? with
  | none => rw [hst.none hx0] at hk; simp at hk
  | some k0 =>
    rw [hst.at_ x k0 hx0] at hk
    obtain rfl := Option.some.inj hk
    exact (valid_history hh).grad x g k0 hx0 hgk

theorem visits_reaches : ∀ (l : List Nat) {x : Nat} {h h' : Heap F}, x ∈ l → visits backVisit l h = .ok () h' →
    ∃ P h1 a h2, (∀ y ∈ P, y ∈ l) ∧ visits backVisit P h = .ok () h1 ∧ backVisit x h1 = .ok a h2
  | [], x, h, h', hx, _ => by simp at hx
  | z :: l, x, h, h', hx, e => by
    rw [visits_cons] at e
    obtain ⟨a, h1, e1, e2⟩ := bind_ok_inv e
    by_cases hz : x = z
    · subst hz
      exact ⟨[], h, a, h1, by simp, rfl, e1⟩
    · obtain ⟨P, h3, b, h4, hP, e3, e4⟩ := visits_reaches l ((List.mem_cons.1 hx).resolve_left hz) e2
      refine ⟨z :: P, h3, b, h4, fun y hy => ?_, ?_, e4⟩
      · rcases List.mem_cons.1 hy with rfl | hy
        · simp
        · simp [hP y hy]
      · rw [visits_cons, M.bind_ok e1]; exact e3

/-- When `backward()` returns, the step of every result in the graph has returned. -/
theorem backward_steps {h H : Heap F} (hh : History h) {t : Nat} (hu : Unused h t) (hb : backward t h = .ok () H) {x : Nat}
    (hx : From h t x) {g : GradFn} (ho : opOf h x = some g) :
    ∃ h1 n v S Hm g' Hn, Stamped h h1 n v ∧ GradsIn h1 S ∧ (∀ y ∈ g.inputs, S y) ∧ BFrame h1 S Hm ∧ g'.kind = g.kind ∧
      g'.inputs = g.inputs ∧ stepBack x g' Hm = .ok () Hn := by
  obtain ⟨i, hi, hr, hf, hn⟩ := backward_started hb
  have hg := graph_history hh
  obtain ⟨h1, n, v, _, hst, l, _, hmem, hsch, e, _⟩ := backward_order hg hi hr hf hn
  have ht : Interior h t := by unfold Interior; rw [opOf_some hi]; exact hf
  have hxi : Interior h x := by unfold Interior; rw [ho]; rfl
  rw [e] at hb
  obtain ⟨_, h2, e1, e2⟩ := bind_ok_inv hb
  obtain ⟨P, h3, a, h4, hP, e3, e4⟩ := visits_reaches l (((hsch hu).all x).2 ⟨hx, hxi⟩) e2
  have hfrom : ∀ y, From h t y → y < h.ts.length := fun y hy => by
    cases hy with
    | root => exact ht.lt
    | step h5 h6 => have := hg.older _ _ h6; have := h6.interior.lt; omega
  have hc : GradsIn h1 (From h t) := hst.gradsIn hh hfrom
  have hop : ∀ y z, From h t y → Uses h1 y z → From h t z := fun y z hy hz => by
    refine .step hy ?_
    have hj := List.getElem?_eq_getElem (hfrom y hy)
    unfold Uses operands at *
    rw [opOf_some (hst.at_ y _ hj)] at hz
    rw [opOf_some hj]
    cases hgf : (h.ts[y]'(hfrom y hy)).gradFn with
    | none => rw [hgf] at hz; simp at hz
    | some g => rw [hgf] at hz; exact hz
  have b1 := BFrame.seed hc (BFrame.refl _ _) .root (hop t · .root) (hst.at_ t i hi) (by simpa using hf)
  rw [e1] at b1
  have b2 := BFrame.visits hc hop P b1.1 fun y hy => (hmem y (hP y hy)).1
  rw [e3] at b2
  unfold backVisit at e4
  obtain ⟨g', h5, e5, e6⟩ := bind_ok_inv e4
  have b3 := b2.1.getGradFn hc hx (hop x · hx)
  rw [e5] at b3
  obtain ⟨b4, rfl, ⟨k, hk, hgk⟩, _⟩ := b3
  obtain ⟨⟨⟩, h6, e7, _⟩ := bind_ok_inv e6
  have hj := List.getElem?_eq_getElem (hfrom x hx)
  obtain ⟨k', hk', hsk⟩ := b4.skel x _ (hst.at_ x _ hj)
  rw [hk] at hk'
  obtain rfl := Option.some.inj hk'
  have hsg := skel_gradFn hsk
  have hg0 : (h.ts[x]'(hfrom x hx)).gradFn = some g := by rw [opOf_some hj] at ho; exact ho
  rw [hgk, hg0] at hsg
  simp at hsg
  exact ⟨h1, n, v, From h t, h5, g', h6, hst, hc, fun y hy => .step hx (by unfold Uses operands; rw [ho]; exact hy), b4, hsg.1, hsg.2, e7⟩

theorem getOutGrad_same {t g : Nat} {h h' : Heap F} (e : getOutGrad t h = .ok g h') : h' = h := by
  unfold getOutGrad derefGrad at e
  obtain ⟨i, h1, e1, e2⟩ := bind_ok_inv e
  unfold getT at e1
  cases hi : h.ts[t]? with
  | none => rw [hi] at e1; simp at e1
  | some j =>
    rw [hi] at e1
    injection e1 with _ e1
    subst e1
    cases hg : i.grad with
    | none => rw [hg] at e2; cases e2
    | some k => rw [hg] at e2; injection e2 with _ e2; exact e2.symm

/-- When the step of a quotient returns, so do the parts for the operands. -/
theorem quotient_parts {h1 : Heap F} {S : Nat → Prop} (hc : GradsIn h1 S) {x a b : Nat} {g : GradFn} (hk : g.kind = .div)
    (hin : g.inputs = [a, b]) (ha : S a) (hb : S b) {H Hn : Heap F} (hH : BFrame h1 S H) (e : stepBack x g H = .ok () Hn) :
    (∃ H1 p, BFrame h1 S H1 ∧ derefGrad a H1 = .ok p H1) ∧ ∃ H2, BFrame h1 S H2 ∧ divBackDen x b H2 = .ok () Hn := by
  unfold stepBack at e
  rw [hk] at e
  have i0 : ∀ H : Heap F, inputAt g 0 H = .ok a H := fun H => by unfold inputAt; rw [hin]; rfl
  have i1 : ∀ H : Heap F, inputAt g 1 H = .ok b H := fun H => by unfold inputAt; rw [hin]; rfl
  simp only at e
  rw [M.bind_ok (i0 H), M.bind_ok (i1 H)] at e
  obtain ⟨⟨⟩, H1, e1, f1⟩ := bind_ok_inv e
  have b1 := hH.tryAccUpdate hc ha
  rw [e1] at b1
  obtain ⟨p, H2, e2, f2⟩ := bind_ok_inv f1
  have b2 := b1.1.derefGrad hc ha
  rw [e2] at b2
  obtain ⟨b3, hH2, hp⟩ := b2
  obtain ⟨og, H3, e3, f3⟩ := bind_ok_inv f2
  have hH3 : H3 = H2 := getOutGrad_same e3
  obtain ⟨⟨⟩, H4, e4, f4⟩ := bind_ok_inv f3
  have b6 := b3.divBackNum (fun j hj => hp j (by rw [← hH2]; exact hj)) og b
  rw [← hH3, e4] at b6
  obtain ⟨⟨⟩, H5, e5, f5⟩ := bind_ok_inv f4
  have b7 := b6.1.tryAccUpdate hc hb
  rw [e5] at b7
  rw [hH2] at e2
  exact ⟨⟨_, p, b1.1, e2⟩, _, b7.1, f5⟩

theorem BFrame.no_grad {h h1 H : Heap F} {S : Nat → Prop} {n v : Nat → Nat} (hst : Stamped h h1 n v) (hb : BFrame h1 S H) {a : Nat}
    (ha : Constant h a) : Tensor.derefGrad a H = .ub .nullptr := by
  obtain ⟨i, hi, h1, h2, h3⟩ := ha
  have hi' := hst.at_ a i hi
  obtain ⟨j, hj, hsk⟩ := hb.skel a _ hi'
  exact derefGrad_null hj ((hb.leaf a _ j hi' hj (by simp [h2]) (.inr h1)).trans h3)

theorem divBackDen_ok {x b : Nat} {H Hn : Heap F} (e : divBackDen x b H = .ok () Hn) :
    ∃ ib ix g jg, ∃ og : Nat, ∃ jo, H.ts[b]? = some ib ∧ H.ts[x]? = some ix ∧ ib.dtype.isFloat = true ∧ derefGrad b H = .ok g H ∧
      H.ts[g]? = some jg ∧ tensorDivBackDen ib.dtype ix.dtype jg jo ix ib H = .ok () Hn ∧ H.ts[og]? = some jo := by
  have hget : ∀ (p : Nat) (i : Impl) (H H' : Heap F), getT p H = .ok i H' → H.ts[p]? = some i ∧ H' = H := fun p i H H' e => by
    unfold getT at e
    cases hi : H.ts[p]? with
    | none => rw [hi] at e; simp at e
    | some j => rw [hi] at e; injection e with e1 e2; exact ⟨by rw [e1], e2.symm⟩
  unfold divBackDen at e
  obtain ⟨ib, H1, e1, f1⟩ := bind_ok_inv e
  obtain ⟨hib, rfl⟩ := hget _ _ _ _ e1
  obtain ⟨ix, H2, e2, f2⟩ := bind_ok_inv f1
  obtain ⟨hix, rfl⟩ := hget _ _ _ _ e2
  split at f2
  · rename_i hfl
    obtain ⟨g, H3, e3, f3⟩ := bind_ok_inv f2
    obtain rfl : H3 = H2 := getOutGrad_same e3
    obtain ⟨og, H4, e4, f4⟩ := bind_ok_inv f3
    obtain rfl : H4 = H3 := getOutGrad_same e4
    obtain ⟨jg, H5, e5, f5⟩ := bind_ok_inv f4
    obtain ⟨hjg, rfl⟩ := hget _ _ _ _ e5
    obtain ⟨jo, H6, e6, f6⟩ := bind_ok_inv f5
    obtain ⟨hjo, rfl⟩ := hget _ _ _ _ e6
    exact ⟨ib, ix, g, jg, og, jo, hib, hix, by simpa using (Bool.and_eq_true_iff.1 hfl).1, e3, hjg, f6, hjo⟩
  · cases f2

theorem runAll_first {α : Type} {op : α → M F Unit} {x : α} {xs : List α} {h h' : Heap F} (e : runAll op (x :: xs) h = .ok () h') :
    ∃ h1, op x h = .ok () h1 := by
  obtain ⟨⟨⟩, h1, e1, _⟩ := bind_ok_inv (x := op x) (f := fun _ => runAll op xs) e
  exact ⟨h1, e1⟩

/-- The kernel for the denominator throws when the ranks differ. -/
theorem tensorDivBackDen_rank {Den Quot : DType} {dst outGrad quot den : Impl} {H Hn : Heap F} (h0 : vol quot.view.sizes ≠ 0)
    (e : tensorDivBackDen Den Quot dst outGrad quot den H = .ok () Hn) : quot.view.sizes.length = dst.view.sizes.length := by
  unfold tensorDivBackDen at e
  rw [forEach_eq] at e
  cases hr : rowMajor quot.view.sizes with
  | nil =>
    have := length_rowMajor quot.view.sizes
    rw [hr] at this
    exact absurd this.symm h0
  | cons sv rest =>
    have hin : InBox quot.view.sizes sv := mem_rowMajor.1 (by rw [hr]; simp)
    rw [hr] at e
    obtain ⟨H1, e1⟩ := runAll_first e
    obtain ⟨_, _, _, e1⟩ := bind_ok_inv e1
    obtain ⟨_, _, _, e1⟩ := bind_ok_inv e1
    obtain ⟨_, _, _, e1⟩ := bind_ok_inv e1
    obtain ⟨_, _, _, e1⟩ := bind_ok_inv e1
    obtain ⟨_, _, _, e1⟩ := bind_ok_inv e1
    obtain ⟨_, _, _, e1⟩ := bind_ok_inv e1
    obtain ⟨_, _, _, e1⟩ := bind_ok_inv e1
    obtain ⟨_, _, _, e1⟩ := bind_ok_inv e1
    obtain ⟨pos, _, e2, e1⟩ := bind_ok_inv e1
    unfold cntFromIndex at e2
    by_cases hl : sv.length = dst.view.sizes.length
    · rw [← hl, hin.length]
    · rw [show (decide (sv.length = dst.view.sizes.length)) = false from decide_eq_false hl] at e2
      cases e2

end INNC
