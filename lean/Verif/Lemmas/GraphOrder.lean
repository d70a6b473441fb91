import Verif.Lemmas.GraphStep
/-
The main pass of back-propagation: each interior tensor is processed once, after all tensors computed from it.
-/
namespace INNC
open Spec Tensor
variable {F : Type}

/-- The gradient tensor of `x`. -/
def gradAt (h : Heap F) (x : Nat) : Option Nat := (h.ts[x]?).bind (·.grad)

theorem gradAt_some {h : Heap F} {x : Nat} {i : Impl} (hi : h.ts[x]? = some i) : gradAt h x = i.grad := by
  unfold gradAt; rw [hi]; rfl

/-- `H` is a state of the main pass started from `h`: tensors of `h` changed only their gradient and counters, and new
tensors are leaves. -/
structure Prog (h H : Heap F) (n acc ver : Nat → Nat) : Prop where
  at_ : ∀ (x : Nat) (i : Impl), h.ts[x]? = some i → H.ts[x]? = some { i with
      grad := gradAt H x
      gradFn := i.gradFn.map fun g => { g with nOutway := n x, accOutway := acc x, backVersion := ver x } }
  new : ∀ x i, h.ts.length ≤ x → H.ts[x]? = some i → i.gradFn = none

theorem Prog.len {h H : Heap F} {n acc ver : Nat → Nat} (hp : Prog h H n acc ver) : h.ts.length ≤ H.ts.length := by
  by_contra hc
  have hj := hp.at_ H.ts.length _ (List.getElem?_eq_getElem (by omega))
  rw [List.getElem?_eq_none (Nat.le_refl _)] at hj
  simp at hj

theorem Prog.upd {h H H' : Heap F} {n acc ver : Nat → Nat} (hp : Prog h H n acc ver) {l m : List Nat} (hu : Upd l m H H') :
    ∃ acc', Prog h H' n acc' ver ∧ (∀ x i, h.ts[x]? = some i → i.requiresGrad = true → acc' x = acc x + l.count x) ∧
      (∀ x, x < h.ts.length → x ∉ m → gradAt H' x = gradAt H x) ∧
      (∀ x, x < h.ts.length → (gradAt H x).isSome → gradAt H' x = gradAt H x) ∧
      (∀ x i, h.ts[x]? = some i → x ∈ m → i.requiresGrad = true → (gradAt H' x).isSome) := by
  have key : ∀ x i, h.ts[x]? = some i → ∃ gr, H'.ts[x]? = some { i with
      grad := gr
      gradFn := i.gradFn.map fun g => { g with nOutway := n x, accOutway := acc x + (if i.requiresGrad then l.count x else 0), backVersion := ver x } } ∧
      (x ∉ m → gr = gradAt H x) ∧ ((gradAt H x).isSome → gr = gradAt H x) ∧ (x ∈ m → i.requiresGrad = true → gr.isSome) := by
    intro x i hi
    obtain ⟨gr, e1, e2, e3, e4⟩ := hu.old x _ (hp.at_ x i hi)
    refine ⟨gr, ?_, e2, e3, e4⟩
    rw [e1]
    simp only [Option.map_map, Function.comp_def]
  refine ⟨fun x => acc x + (match h.ts[x]? with | some i => if i.requiresGrad then l.count x else 0 | none => 0),
    ⟨fun x i hi => ?_, fun x i hx hi => ?_⟩, fun x i hi hr => ?_, fun x hx hm => ?_, fun x hx hs => ?_, fun x i hi hm hr => ?_⟩
  · obtain ⟨gr, e1, _⟩ := key x i hi
    rw [gradAt_some e1, e1, hi]
  · by_cases hlt : x < H.ts.length
    · have e1 := List.getElem?_eq_getElem hlt
      obtain ⟨gr', f1, _⟩ := hu.old x _ e1
      rw [hi] at f1
      rw [Option.some.inj f1]
      simp only [hp.new x _ hx e1, Option.map_none]
    · exact hu.new x i (by omega) hi
  · simp only [hi, hr, if_true]
  · obtain ⟨gr, e1, e2, _⟩ := key x _ (List.getElem?_eq_getElem hx)
    rw [gradAt_some e1]; exact e2 hm
  · obtain ⟨gr, e1, _, e2, _⟩ := key x _ (List.getElem?_eq_getElem hx)
    rw [gradAt_some e1]; exact e2 hs
  · obtain ⟨gr, e1, _, _, e2⟩ := key x i hi
    rw [gradAt_some e1]; exact e2 hm hr

theorem gradAt_set {H : Heap F} {x : Nat} {k : Impl} (hx : x < H.ts.length) (y : Nat) :
    gradAt { H with ts := H.ts.set x k } y = if y = x then k.grad else gradAt H y := by
  unfold gradAt
  simp only
  by_cases hxy : y = x
  · subst hxy
    rw [List.getElem?_set_self hx, if_pos rfl]; rfl
  · rw [List.getElem?_set_ne (Ne.symm hxy), if_neg hxy]

theorem Prog.setVer {h H : Heap F} {n acc ver : Nat → Nat} (hp : Prog h H n acc ver) {x : Nat} {i : Impl} {g : GradFn}
    (hi : h.ts[x]? = some i) (hg : i.gradFn = some g) (V : Nat) :
    ∃ H', setGF x { g with nOutway := n x, accOutway := acc x, backVersion := V } H = .ok () H' ∧
      Prog h H' n acc (Function.update ver x V) ∧ H'.gver = H.gver ∧ ∀ y, gradAt H' y = gradAt H y := by
  have hx := hp.at_ x i hi
  have hlt := getElem?_lt hx
  have hgr : ∀ y, gradAt { H with ts := H.ts.set x { i with grad := gradAt H x, gradFn := some { g with nOutway := n x, accOutway := acc x, backVersion := V } } } y = gradAt H y := fun y => by
    rw [gradAt_set hlt]
    split
    · next h => rw [h]
    · rfl
  refine ⟨_, setGF_ok hx _, ⟨fun y j hj => ?_, fun y j hy hj => ?_⟩, rfl, hgr⟩
  · rw [hgr]
    simp only
    by_cases hxy : x = y
    · subst hxy
      rw [List.getElem?_set_self hlt, Function.update_self]
      rw [hi] at hj
      obtain rfl := Option.some.inj hj
      rw [hg]; rfl
    · rw [List.getElem?_set_ne hxy, hp.at_ y j hj, Function.update_of_ne (Ne.symm hxy)]
  · simp only at hj
    rw [List.getElem?_set_ne (by have := getElem?_lt hi; omega)] at hj
    exact hp.new y j hy hj

theorem Prog.clear {h H : Heap F} {n acc ver : Nat → Nat} (hp : Prog h H n acc ver) {x : Nat} {j : Impl}
    (hj : H.ts[x]? = some j) (hx : x < h.ts.length) (gr : Option Nat) :
    Prog h { H with ts := H.ts.set x { j with grad := gr } } n acc ver := by
  have hlt := getElem?_lt hj
  refine ⟨fun y i hi => ?_, fun y k hy hk => ?_⟩
  · rw [gradAt_set hlt]
    by_cases hxy : y = x
    · subst hxy
      have := hp.at_ y i hi
      rw [hj] at this
      simp only
      rw [List.getElem?_set_self hlt, if_pos trivial, Option.some.inj this]
    · rw [if_neg hxy]
      simp only
      rw [List.getElem?_set_ne (Ne.symm hxy), hp.at_ y i hi]
  · simp only at hk
    rw [List.getElem?_set_ne (by omega)] at hk
    exact hp.new y k hy hk

theorem getGradFn_prog {h H : Heap F} {n acc ver : Nat → Nat} (hp : Prog h H n acc ver) {x : Nat} (hx : Interior h x) :
    ∃ i g, h.ts[x]? = some i ∧ i.gradFn = some g ∧ operands h x = g.inputs ∧
      getGradFn x H = .ok { g with nOutway := n x, accOutway := acc x, backVersion := ver x } H := by
  obtain ⟨i, g, hi, hg⟩ := hx.obj
  refine ⟨i, g, hi, hg, by unfold operands; rw [opOf_some hi, hg], ?_⟩
  unfold getGradFn
  rw [M.bind_ok (getT_ok (hp.at_ x i hi))]
  simp only [hg, Option.map_some]
  rfl

theorem readyInputs_ok {h : Heap F} {V : Nat} {n acc : Nat → Nat} : ∀ (xs : List Nat), Exist h xs →
    ∀ (m : List Nat) (ver : Nat → Nat) (H : Heap F), Prog h H n acc ver → H.gver = V → Marks h V m ver →
    ∃ new H' ver', readyInputs xs H = .ok new H' ∧ Prog h H' n acc ver' ∧ H'.gver = V ∧ Marks h V (m ++ new) ver' ∧
      (∀ y ∈ new, y ∈ xs ∧ Interior h y ∧ acc y = n y) ∧ (∀ y ∈ xs, Interior h y → acc y = n y → y ∈ m ++ new) ∧
      (∀ y, gradAt H' y = gradAt H y)
  | [], _, m, ver, H, hp, hV, hm => ⟨[], H, ver, rfl, hp, hV, by simpa using hm, by simp, by simp, fun _ => rfl⟩
  | x :: xs, he, m, ver, H, hp, hV, hm => by
    have hxl := he x (by simp)
    have he' : Exist h xs := fun y hy => he y (by simp [hy])
    have hi : h.ts[x]? = some h.ts[x] := List.getElem?_eq_getElem hxl
    have hx := hp.at_ x _ hi
    unfold readyInputs
    rw [M.bind_ok (getT_ok hx)]
    have hv : (getVersion : M F Nat) H = .ok V H := by rw [← hV]; rfl
    rw [M.bind_ok hv]
    cases hg : h.ts[x].gradFn with
    | none =>
      have hni : ¬ Interior h x := by unfold Interior; rw [opOf_some hi, hg]; simp
      obtain ⟨new, H', v', e, h1, h2, h3, h4, h5, h6⟩ := readyInputs_ok xs he' m ver H hp hV hm
      refine ⟨new, H', v', e, h1, h2, h3, fun y hy => ⟨by simp [(h4 y hy).1], (h4 y hy).2⟩, fun y hy hyi ha => ?_, h6⟩
      rcases List.mem_cons.1 hy with rfl | hy
      · exact absurd hyi hni
      · exact h5 y hy hyi ha
    | some g =>
      have hin : Interior h x := by unfold Interior; rw [opOf_some hi, hg]; rfl
      simp only [Option.map_some]
      by_cases hlt : ver x < V ∧ acc x = n x
      · rw [if_pos hlt]
        have hxm : x ∉ m := fun hc => by have := (hm.iff x hin).2 hc; omega
        obtain ⟨h1, e1, hs1, hV1, hG1⟩ := hp.setVer hi hg V
        rw [M.bind_ok e1]
        obtain ⟨new, H', v', e, h2, h3, h4, h5, h6, h7⟩ := readyInputs_ok xs he' (m ++ [x]) _ h1 hs1
          (by rw [hV1, hV]) (hm.push hxm)
        rw [M.bind_ok e]
        refine ⟨x :: new, H', v', rfl, h2, h3, by simpa using h4, fun y hy => ?_, fun y hy hyi ha => ?_, fun y => (h7 y).trans (hG1 y)⟩
        · rcases List.mem_cons.1 hy with rfl | hy
          · exact ⟨by simp, hin, hlt.2⟩
          · exact ⟨by simp [(h5 y hy).1], (h5 y hy).2⟩
        · rcases List.mem_cons.1 hy with rfl | hy
          · simp
          · have := h6 y hy hyi ha
            simpa [List.append_assoc] using this
      · rw [if_neg hlt]
        obtain ⟨new, H', v', e, h1, h2, h3, h4, h5, h6⟩ := readyInputs_ok xs he' m ver H hp hV hm
        refine ⟨new, H', v', e, h1, h2, h3, fun y hy => ⟨by simp [(h4 y hy).1], (h4 y hy).2⟩, fun y hy hyi ha => ?_, h6⟩
        rcases List.mem_cons.1 hy with rfl | hy
        · have hxm : y ∈ m := (hm.iff y hin).1 (by have := hm.le y hin; omega)
          simp [hxm]
        · exact h5 y hy hyi ha

/-! ### Order -/

theorem Spec.From.le {h : Heap F} (hg : Graph h) {t x : Nat} (hf : From h t x) : x ≤ t := by
  induction hf with
  | root => exact Nat.le_refl _
  | step _ hu ih => exact Nat.le_trans (Nat.le_of_lt (hg.older _ _ hu)) ih

theorem not_uses_root {h : Heap F} (hg : Graph h) {t x : Nat} (hf : From h t x) : ¬ Uses h x t := fun hu => by
  have h1 := hf.le hg
  have h2 := hg.older _ _ hu
  omega

theorem indeg_le {h : Heap F} {P R : List Nat} (hP : P.Nodup) (hR : R.Nodup) (hs : ∀ x ∈ P, x ∈ R) (y : Nat) :
    indeg h P y ≤ indeg h R y := by
  unfold indeg
  rw [← List.sum_toFinset _ hP, ← List.sum_toFinset _ hR]
  exact Finset.sum_le_sum_of_subset fun x hx => by simp at *; exact hs x hx

theorem indeg_consumer {h : Heap F} {P R : List Nat} (hP : P.Nodup) (hR : R.Nodup) (hs : ∀ x ∈ P, x ∈ R) {y : Nat}
    (he : indeg h P y = indeg h R y) {c : Nat} (hc : c ∈ R) (hu : Uses h c y) : c ∈ P := by
  by_contra hcP
  have := indeg_le (h := h) (P := P ++ [c]) (R := R) (by
    rw [List.nodup_append]
    refine ⟨hP, by simp, fun a ha b hb => ?_⟩
    rw [List.mem_singleton] at hb
    rintro rfl
    exact hcP (hb ▸ ha)) hR (fun x hx => by
      rcases List.mem_append.1 hx with hx | hx
      · exact hs x hx
      · rw [List.mem_singleton.1 hx]; exact hc) y
  rw [indeg_append, indeg_singleton, he] at this
  have hpos : 0 < (operands h c).count y := List.count_pos_iff.2 hu
  omega

theorem indeg_eq {h : Heap F} {P R : List Nat} (hP : P.Nodup) (hR : R.Nodup) (hs : ∀ x ∈ P, x ∈ R) {y : Nat}
    (hc : ∀ c ∈ R, Uses h c y → c ∈ P) : indeg h P y = indeg h R y := by
  unfold indeg
  rw [← List.sum_toFinset _ hP, ← List.sum_toFinset _ hR]
  refine Finset.sum_subset (fun x hx => by simp at *; exact hs x hx) fun x hx hxp => ?_
  simp only [List.mem_toFinset] at hx hxp
  exact List.count_eq_zero.2 fun hu => hxp (hc x hx hu)

/-- State of the main pass: `P` has been processed, `Q` is queued. `R` is the list of interior tensors of the graph. -/
structure Pass (h : Heap F) (t V : Nat) (R : List Nat) (n : Nat → Nat) (P Q : List Nat) (H : Heap F) : Prop where
  gver : H.gver = V
  mem : ∀ x ∈ P ++ Q, x ∈ R
  root : t ∈ P ++ Q
  ex : ∃ acc ver, Prog h H n acc ver ∧ Marks h V (P ++ Q) ver ∧
    (∀ y i g, h.ts[y]? = some i → i.gradFn = some g → i.requiresGrad = true → acc y = g.accOutway + indeg h P y)
  ready : Unused h t → ∀ y ∈ R, y ≠ t → (y ∈ P ++ Q ↔ indeg h P y = indeg h R y)
  order : Unused h t → P.Pairwise fun a b => ¬ Uses h b a
  /-- Processed tensors keep no gradient unless it is retained. -/
  dropped : Unused h t → ∀ x ∈ P, ∀ i, h.ts[x]? = some i → i.retainGrad = false → gradAt H x = none
  /-- Gradients that exist are kept, except those of processed tensors. -/
  kept : ∀ x, x < h.ts.length → x ∉ R → (gradAt h x).isSome → gradAt H x = gradAt h x
  /-- Operands of processed tensors have a gradient, if they require grad and it is not dropped. -/
  made : ∀ p ∈ P, ∀ y i, Uses h p y → h.ts[y]? = some i → i.requiresGrad = true → y ∉ P ∨ i.retainGrad = true →
    (gradAt H y).isSome
  /-- The root has a gradient until it is dropped. -/
  rooted : ∀ i, h.ts[t]? = some i → t ∉ P ∨ i.retainGrad = true → (gradAt H t).isSome
  /-- Gradients that are to be kept stay the same tensors. -/
  stays : ∀ x i, h.ts[x]? = some i → x ≠ t → i.retainGrad = true → (gradAt h x).isSome → gradAt H x = gradAt h x

variable [FOps F]

theorem pass_step {h : Heap F} (hg : Graph h) {t V : Nat} {R : List Nat} {n : Nat → Nat} (hR : R.Nodup)
    (hall : ∀ x, x ∈ R ↔ From h t x ∧ Interior h x) (hn : ∀ y ∈ R, n y = indeg h R y)
    {P Q : List Nat} {x : Nat} {H H' : Heap F} {new : List Nat} (hi : Pass h t V R n P (x :: Q) H)
    (hv : backVisit x H = .ok new H') : Pass h t V R n (P ++ [x]) (Q ++ new) H' ∧ ∀ y ∈ new, Uses h x y ∧ Interior h y ∧
      ∀ i g, h.ts[y]? = some i → i.gradFn = some g → i.requiresGrad = true → g.accOutway + indeg h (P ++ [x]) y = n y := by
  obtain ⟨acc, ver, hp, hm, hacc⟩ := hi.ex
  have hxR : x ∈ R := hi.mem x (by simp)
  obtain ⟨hxf, hxi⟩ := (hall x).1 hxR
  have hxlt := hxi.lt
  obtain ⟨i, g, hxo, hgi, hop, eg⟩ := getGradFn_prog hp hxi
  have har : Arity g.kind g.inputs.length := hg.arity x g (by rw [opOf_some hxo, hgi])
  unfold backVisit at hv
  rw [M.bind_ok eg, M.bind_def] at hv
  cases hsb : stepBack x { g with nOutway := n x, accOutway := acc x, backVersion := ver x } H with
  | throw e h1 => rw [hsb] at hv; simp at hv
  | ub u => rw [hsb] at hv; simp at hv
  | ok a H1 =>
    rw [hsb] at hv
    simp only at hv
    have hu : Upd g.inputs g.inputs H H1 := does_stepBack x { g with nOutway := n x, accOutway := acc x, backVersion := ver x } har H a H1 hsb
    obtain ⟨acc1, hp1, hacc1, hgr1, hgr2, hgr3⟩ := hp.upd hu
    have hx1 := hp1.at_ x i hxo
    rw [M.bind_ok (getT_ok hx1)] at hv
    -- the gradient is dropped unless retained
    obtain ⟨H2, hp2, hV2, hg2, hv⟩ : ∃ H2, Prog h H2 n acc1 ver ∧ H2.gver = V ∧
        (∀ y, gradAt H2 y = if y = x ∧ i.retainGrad = false then none else gradAt H1 y) ∧
        (getGradFn x >>= fun g => readyInputs g.inputs) H2 = .ok new H' := by
      cases hrt : i.retainGrad with
      | false =>
        have hv := (congrFun (if_pos (show (!i.retainGrad) = true by rw [hrt]; rfl)) H1).symm.trans hv
        refine ⟨_, hp1.clear hx1 hxlt none, hu.gver.trans hi.gver, fun y => ?_, hv⟩
        rw [gradAt_set (getElem?_lt hx1)]
        simp
      | true =>
        have hv := (congrFun (if_neg (show ¬ (!i.retainGrad) = true by rw [hrt]; simp)) H1).symm.trans hv
        refine ⟨_, hp1, hu.gver.trans hi.gver, fun y => by simp, hv⟩
    obtain ⟨i', g', hxo', hgi', _, eg'⟩ := getGradFn_prog hp2 hxi
    rw [hxo] at hxo'
    obtain rfl := Option.some.inj hxo'
    rw [hgi] at hgi'
    obtain rfl := Option.some.inj hgi'
    rw [M.bind_ok eg'] at hv
    obtain ⟨new', H3, ver', e3, b1, b2, b3, b4, b5, b6⟩ := readyInputs_ok g.inputs
      (by rw [← hop]; exact exist_operands hg hxi) (P ++ x :: Q) ver H2 hp2 hV2 hm
    have hv : readyInputs g.inputs H2 = .ok new H' := hv
    rw [e3] at hv
    injection hv with hv1 hv2
    subst hv1
    subst hv2
    have eq : P ++ [x] ++ (Q ++ new') = P ++ x :: Q ++ new' := by simp
    have hnodup := b3.nodup
    have hP' : (P ++ [x]).Nodup := by
      rw [← eq] at hnodup
      exact (List.nodup_append.1 hnodup).1
    have hsub : ∀ y ∈ P ++ [x], y ∈ R := fun y hy => hi.mem y (by
      rcases List.mem_append.1 hy with h | h
      · simp [h]
      · simp [List.mem_singleton.1 h])
    have hPn : P.Nodup := (List.nodup_append.1 hP').1
    have hsubP : ∀ y ∈ P, y ∈ R := fun y hy => hsub y (by simp [hy])
    have hxP : x ∉ P := fun hc => (List.nodup_append.1 hP').2.2 x hc x (by simp) rfl
    have hnewR : ∀ y ∈ new', y ∈ R := fun y hy => (hall y).2 ⟨.step hxf (by unfold Uses; rw [hop]; exact (b4 y hy).1), (b4 y hy).2.1⟩
    have hacc0 : ∀ y i g, h.ts[y]? = some i → i.gradFn = some g → i.requiresGrad = true →
        acc1 y = g.accOutway + indeg h (P ++ [x]) y := by
      intro y k gk hk hgk hreq
      rw [hacc1 y k hk hreq, hacc y k gk hk hgk hreq, indeg_append, indeg_singleton, hop, Nat.add_assoc]
    have hacc' : Unused h t → ∀ y ∈ R, y ≠ t → acc1 y = indeg h (P ++ [x]) y := by
      intro hU y hyR hyt
      obtain ⟨hyf, hyi⟩ := (hall y).1 hyR
      obtain ⟨k, gk, hk, hgk⟩ := hyi.obj
      have hreq := (hU y gk hyf hyt (by rw [opOf_some hk, hgk])).2 k hk
      rw [hacc0 y k gk hk hgk hreq, (hU y gk hyf hyt (by rw [opOf_some hk, hgk])).1, Nat.zero_add]
    have hready : Unused h t → ∀ y ∈ R, y ≠ t → (y ∈ P ++ x :: Q ++ new' ↔ indeg h (P ++ [x]) y = indeg h R y) := by
      intro hU y hyR hyt
      constructor
      · intro hy
        rcases List.mem_append.1 hy with hy | hy
        · have h1 := (hi.ready hU y hyR hyt).1 hy
          have h2 := indeg_le (h := h) hP' hR hsub y
          have h3 : indeg h P y ≤ indeg h (P ++ [x]) y := by rw [indeg_append]; omega
          omega
        · rw [← hacc' hU y hyR hyt, (b4 y hy).2.2, hn y hyR]
      · intro hy
        by_cases hyx : y ∈ g.inputs
        · exact b5 y hyx ((hall y).1 hyR).2 (by rw [hacc' hU y hyR hyt, hy, hn y hyR])
        · rw [indeg_append, indeg_singleton, hop, List.count_eq_zero.2 hyx, Nat.add_zero] at hy
          exact List.mem_append_left _ ((hi.ready hU y hyR hyt).2 hy)
    -- consumers of what is queued or processed are processed
    have hcons : Unused h t → ∀ y ∈ P ++ x :: Q, ∀ c ∈ R, Uses h c y → c ∈ P := by
      intro hU y hy c hc hcu
      by_cases hyt : y = t
      · subst hyt
        exact absurd hcu (not_uses_root hg ((hall c).1 hc).1)
      · exact indeg_consumer hPn hR hsubP ((hi.ready hU y (hi.mem y hy) hyt).1 hy) hc hcu
    have hnotin : Unused h t → ∀ y ∈ P ++ [x], y ∉ g.inputs := by
      intro hU y hy hc
      have := hcons hU y (by
        rcases List.mem_append.1 hy with h | h
        · simp [h]
        · simp [List.mem_singleton.1 h]) x hxR (by unfold Uses; rw [hop]; exact hc)
      exact hxP this
    refine ⟨?_, fun y hy => ⟨by unfold Uses; rw [hop]; exact (b4 y hy).1, (b4 y hy).2.1, fun k gk hk hgk hreq => by
      rw [← hacc0 y k gk hk hgk hreq]; exact (b4 y hy).2.2⟩⟩
    refine ⟨b2, ?_, ?_, ⟨acc1, ver', b1, by rw [eq]; exact b3, hacc0⟩, by rw [eq]; exact hready, fun hU => ?_, fun hU y hy k hk hrt => ?_,
      fun y hy hyR hs => ?_, fun p hpm y k hpu hk hreq hor => ?_, fun k hk hor => ?_, fun y k hk hyt hret hs => ?_⟩
    · rw [eq]
      intro y hy
      rcases List.mem_append.1 hy with hy | hy
      · exact hi.mem y hy
      · exact hnewR y hy
    · rw [eq]; exact List.mem_append_left _ hi.root
    · rw [List.pairwise_append]
      refine ⟨hi.order hU, by simp, fun a ha b hb => ?_⟩
      rw [List.mem_singleton.1 hb]
      intro huse
      exact hxP (hcons hU a (by simp [ha]) x hxR huse)
    · rw [b6, hg2]
      by_cases hyx : y = x
      · subst hyx
        rw [hxo] at hk
        obtain rfl := Option.some.inj hk
        simp [hrt]
      · have hyP : y ∈ P := by
          rcases List.mem_append.1 hy with h | h
          · exact h
          · exact absurd (List.mem_singleton.1 h) hyx
        rw [if_neg (by simp [hyx]), hgr1 y (getElem?_lt hk) (hnotin hU y hy)]
        exact hi.dropped hU y hyP k hk hrt
    · have hyx : y ≠ x := by rintro rfl; exact hyR hxR
      rw [b6, hg2, if_neg (by simp [hyx])]
      have := hi.kept y hy hyR hs
      rw [hgr2 y hy (by rw [this]; exact hs), this]
    · rw [b6, hg2]
      have hcond : ¬ (y = x ∧ i.retainGrad = false) := by
        rintro ⟨rfl, hrt⟩
        rw [hxo] at hk
        obtain rfl := Option.some.inj hk
        rcases hor with h | h
        · simp at h
        · rw [hrt] at h; simp at h
      rw [if_neg hcond]
      by_cases hyin : y ∈ g.inputs
      · exact hgr3 y k hk hyin hreq
      · rcases List.mem_append.1 hpm with hpm | hpm
        · rw [hgr1 y (getElem?_lt hk) hyin]
          refine hi.made p hpm y k hpu hk hreq ?_
          rcases hor with h | h
          · exact .inl fun hc => h (by simp [hc])
          · exact .inr h
        · rw [List.mem_singleton.1 hpm] at hpu
          unfold Uses at hpu
          rw [hop] at hpu
          exact absurd hpu hyin
    · have hcond : ¬ (t = x ∧ i.retainGrad = false) := by
        rintro ⟨rfl, hrt⟩
        rw [hxo] at hk
        obtain rfl := Option.some.inj hk
        rcases hor with h | h
        · simp at h
        · rw [hrt] at h; simp at h
      have := hi.rooted k hk (by
        rcases hor with h | h
        · exact .inl fun hc => h (by simp [hc])
        · exact .inr h)
      rw [b6, hg2, if_neg hcond, hgr2 t (getElem?_lt hk) this]
      exact this
    · have hcond : ¬ (y = x ∧ i.retainGrad = false) := by
        rintro ⟨rfl, hrt⟩
        rw [hxo] at hk
        obtain rfl := Option.some.inj hk
        rw [hrt] at hret; simp at hret
      have := hi.stays y k hk hyt hret hs
      rw [b6, hg2, if_neg hcond, hgr2 y (getElem?_lt hk) (by rw [this]; exact hs), this]

/-- What `backward` does between counting and the main loop: the gradient of the root becomes a tensor of ones. -/
def seed (t : Nat) : M F Unit := do
  let o ← onesLike t
  let i ← getT t
  setT t { i with grad := some o }
  let v ← bumpVersion
  let g ← getGradFn t
  setGF t { g with backVersion := v }

theorem complete_schedule {h : Heap F} (hg : Graph h) {t : Nat} {R : List Nat} (hR : R.Nodup)
    (hall : ∀ x, x ∈ R ↔ From h t x ∧ Interior h x) {P : List Nat} (hP : P.Nodup) (hsub : ∀ x ∈ P, x ∈ R)
    (hord : P.Pairwise fun a b => ¬ Uses h b a) (hcl : ∀ a ∈ P, ∀ c ∈ R, Uses h c a → c ∈ P) :
    ∃ rest, Schedule h t (P ++ rest) := by
  have hperm := List.mergeSort_perm (R.filter fun x => decide (x ∉ P)) (fun a b => decide (b ≤ a))
  have hmem : ∀ x, x ∈ (R.filter fun x => decide (x ∉ P)).mergeSort (fun a b => decide (b ≤ a)) ↔ x ∈ R ∧ x ∉ P := fun x => by
    rw [hperm.mem_iff]; simp
  have hnd : ((R.filter fun x => decide (x ∉ P)).mergeSort (fun a b => decide (b ≤ a))).Nodup := hperm.nodup_iff.2 (hR.filter _)
  have hso : ((R.filter fun x => decide (x ∉ P)).mergeSort (fun a b => decide (b ≤ a))).Pairwise fun a b => decide (b ≤ a) = true :=
    List.pairwise_mergeSort (fun a b c h1 h2 => by simp at *; omega) (fun a b => by simp; omega) _
  refine ⟨(R.filter fun x => decide (x ∉ P)).mergeSort (fun a b => decide (b ≤ a)), ⟨?_, fun x => ?_, ?_⟩⟩
  · rw [List.nodup_append]
    refine ⟨hP, hnd, fun a ha b hb hab => ?_⟩
    subst hab
    exact ((hmem a).1 hb).2 ha
  · rw [List.mem_append, hmem, ← hall]
    constructor
    · rintro (h | h)
      · exact hsub x h
      · exact h.1
    · intro h
      by_cases hx : x ∈ P
      · exact .inl hx
      · exact .inr ⟨h, hx⟩
  · rw [List.pairwise_append]
    refine ⟨hord, ?_, fun a ha b hb hu => ((hmem b).1 hb).2 (hcl a ha b ((hmem b).1 hb).1 hu)⟩
    refine hso.imp fun {a b} hab hu => ?_
    have := hg.older _ _ hu
    simp at hab
    omega

theorem pass_closed {h : Heap F} (hg : Graph h) {t V : Nat} {R : List Nat} {n : Nat → Nat} (hR : R.Nodup)
    (hall : ∀ x, x ∈ R ↔ From h t x ∧ Interior h x) {P Q : List Nat} {H : Heap F} (hi : Pass h t V R n P Q H)
    (hU : Unused h t) : ∀ y ∈ P ++ Q, ∀ c ∈ R, Uses h c y → c ∈ P := by
  intro y hy c hc hcu
  obtain ⟨_, _, _, hm, _⟩ := hi.ex
  by_cases hyt : y = t
  · subst hyt
    exact absurd hcu (not_uses_root hg ((hall c).1 hc).1)
  · exact indeg_consumer (List.nodup_append.1 hm.nodup).1 hR (fun x hx => hi.mem x (by simp [hx]))
      ((hi.ready hU y (hi.mem y hy) hyt).1 hy) hc hcu

theorem pass_done {h : Heap F} (hg : Graph h) {t V : Nat} {R : List Nat} {n : Nat → Nat} (hR : R.Nodup)
    (hall : ∀ x, x ∈ R ↔ From h t x ∧ Interior h x) {P : List Nat} {H : Heap F} (hi : Pass h t V R n P [] H)
    (hU : Unused h t) : Schedule h t P := by
  obtain ⟨_, _, _, hm, _⟩ := hi.ex
  have hnd := hm.nodup
  rw [List.append_nil] at hnd
  have hmem := hi.mem
  have hready := hi.ready hU
  have hroot := hi.root
  rw [List.append_nil] at hmem hroot hready
  have hc : ∀ k x, t - x ≤ k → x ∈ R → x ∈ P := by
    intro k
    induction k with
    | zero =>
      intro x hk hx
      have := ((hall x).1 hx).1.le hg
      obtain rfl : x = t := by omega
      exact hroot
    | succ k ih =>
      intro x hk hx
      by_cases hxt : x = t
      · rw [hxt]; exact hroot
      · refine (hready x hx hxt).2 (indeg_eq hnd hR hmem fun c hc hu => ih c ?_ hc)
        have h1 := hg.older _ _ hu
        have h2 := ((hall c).1 hc).1.le hg
        omega
  exact ⟨hnd, fun x => ⟨fun hx => (hall x).1 (hmem x hx), fun hx => hc _ x (Nat.le_refl _) ((hall x).2 hx)⟩, hi.order hU⟩

theorem seed_pass {h h1 : Heap F} (hg : Graph h) {t : Nat} (ht : Interior h t) {R : List Nat} {n v : Nat → Nat}
    (hs : Stamped h h1 n v) (hv : ∀ x, Interior h x → v x ≤ h1.gver) (hR : R.Nodup)
    (hall : ∀ x, x ∈ R ↔ From h t x ∧ Interior h x) {H : Heap F} (he : seed t h1 = .ok () H) :
    Pass h t (h1.gver + 1) R n [] [t] H := by
  obtain ⟨i, g, hi, hgi⟩ := ht.obj
  unfold seed at he
  rw [M.bind_def] at he
  cases ho : onesLike t h1 with
  | throw e h2 => rw [ho] at he; simp at he
  | ub u => rw [ho] at he; simp at he
  | ok o h2 =>
    rw [ho] at he
    simp only at he
    have hp0 : Prog h h1 n (fun x => match opOf h x with | some g => g.accOutway | none => 0) v := by
      refine ⟨fun x j hj => ?_, fun x j hx hj => ?_⟩
      · have := hs.at_ x j hj
        rw [gradAt_some this, this, opOf_some hj]
        cases hjg : j.gradFn with
        | none => simp
        | some g => simp
      · rw [hs.none (List.getElem?_eq_none hx)] at hj
        simp at hj
    have hu := does_onesLike t h1 o h2 ho
    obtain ⟨acc, hp1, hacc, hgr, _⟩ := hp0.upd hu
    have ht2 := hp1.at_ t i hi
    rw [M.bind_ok (getT_ok ht2)] at he
    have hp2 := hp1.clear ht2 (getElem?_lt hi) (some o)
    have hgr2 := fun y => gradAt_set (H := h2) (x := t) (k := { i with
      grad := some o
      gradFn := i.gradFn.map fun g => { g with nOutway := n t, accOutway := acc t, backVersion := v t } }) (getElem?_lt ht2) y
    generalize hH3 : ({ h2 with ts := h2.ts.set t { i with
      grad := some o
      gradFn := i.gradFn.map fun g => { g with nOutway := n t, accOutway := acc t, backVersion := v t } } } : Heap F) = h3 at hgr2
    have hp2 : Prog h h3 n acc v := by rw [← hH3]; exact hp2
    have hV3 : h3.gver = h1.gver := by rw [← hH3]; exact hu.gver
    have he : (bumpVersion >>= fun v => getGradFn t >>= fun g => setGF t { g with backVersion := v }) h3 = .ok () H := by
      rw [← hH3]; exact he
    have hb : (bumpVersion : M F Nat) h3 = .ok (h1.gver + 1) { h3 with gver := h1.gver + 1 } := by
      unfold bumpVersion; rw [hV3]
    rw [M.bind_ok hb] at he
    have hp3 : Prog h { h3 with gver := h1.gver + 1 } n acc v := ⟨hp2.at_, hp2.new⟩
    obtain ⟨i', g', hxo', hgi', _, eg'⟩ := getGradFn_prog hp3 ht
    rw [hi] at hxo'
    obtain rfl := Option.some.inj hxo'
    rw [hgi] at hgi'
    obtain rfl := Option.some.inj hgi'
    rw [M.bind_ok eg'] at he
    obtain ⟨H4, e4, hp4, hV4, hG4⟩ := hp3.setVer hi hgi (h1.gver + 1)
    simp only at he
    rw [e4] at he
    injection he with _ he
    subst he
    have hf : ∀ y ∈ R, y ≠ t → indeg h R y ≠ 0 := by
      intro y hy hyt h0
      cases ((hall y).1 hy).1 with
      | root => exact hyt rfl
      | step hf hu =>
        have := indeg_consumer (h := h) (P := []) List.nodup_nil hR (by simp) (y := y) (by rw [h0]; rfl) ((hall _).2 ⟨hf, hu.interior⟩) hu
        simp at this
    refine ⟨hV4, fun x hx => ?_, by simp, ⟨acc, _, hp4, ?_, fun y k gk hk hgk hreq => ?_⟩, fun hU y hy hyt => ?_, fun _ => by simp, by simp,
      fun x hx hxR hsm => ?_, by simp, fun k hk _ => ?_, fun x k hk hxt _ hsm => ?_⟩
    · rw [List.nil_append, List.mem_singleton] at hx
      subst hx
      exact (hall _).2 ⟨.root, ht⟩
    · refine ⟨by simp, fun x hx => ?_, fun x hx => ?_⟩
      · by_cases hxt : x = t
        · subst hxt; simp
        · rw [Function.update_of_ne hxt]; simp only [List.nil_append, List.mem_singleton, hxt, iff_false]
          have := hv x hx; omega
      · by_cases hxt : x = t
        · subst hxt; simp
        · rw [Function.update_of_ne hxt]; have := hv x hx; omega
    · have ho : opOf h y = some gk := by rw [opOf_some hk, hgk]
      rw [hacc y k hk hreq, ho]
      rfl
    · have := hf y hy hyt
      simp only [List.nil_append, List.mem_singleton, hyt, false_iff]
      exact fun hc => this hc.symm
    · have hxt : x ≠ t := by rintro rfl; exact hxR ((hall _).2 ⟨.root, ht⟩)
      rw [hG4]
      show gradAt h3 x = _
      rw [hgr2, if_neg hxt, hgr x hx (by simp)]
      obtain ⟨j, hj⟩ : ∃ j, h.ts[x]? = some j := ⟨_, List.getElem?_eq_getElem hx⟩
      rw [gradAt_some (hs.at_ x j hj), gradAt_some hj]
    · rw [hG4]
      show (gradAt h3 t).isSome = true
      rw [hgr2, if_pos rfl]
      rfl
    · rw [hG4]
      show gradAt h3 x = _
      rw [hgr2, if_neg hxt, hgr x (getElem?_lt hk) (by simp), gradAt_some (hs.at_ x k hk), gradAt_some hk]

theorem backward_unfold {h h1 : Heap F} {t : Nat} {i : Impl} (hi : h.ts[t]? = some i) (hr : i.requiresGrad = true)
    (hf : i.gradFn.isSome = true) (hn : numel i.view.sizes = 1) (hre : refreshNOutway t h = .ok () h1) :
    backward t h = (seed t >>= fun _ => queueLoop backVisit (h.ts.length + 1) [t]) h1 := by
  unfold backward
  rw [M.bind_ok (getT_ok hi)]
  have e1 : (expect i.requiresGrad : M F Unit) h = .ok () h := by rw [hr]; rfl
  have e2 : (expect i.gradFn.isSome : M F Unit) h = .ok () h := by rw [hf]; rfl
  have e3 : (expect (decide (numel i.view.sizes = 1)) : M F Unit) h = .ok () h := by rw [hn]; rfl
  have e4 : (heapSize : M F Nat) h = .ok h.ts.length h := rfl
  rw [M.bind_ok e1, M.bind_ok e2, M.bind_ok e3, M.bind_ok e4, M.bind_ok hre]
  unfold seed
  simp only [bind_assoc]

theorem visits_fail {visit : Nat → M F (List Nat)} {l : List Nat} {x : Nat} {h h' : Heap F} (hl : visits visit l h = .ok () h')
    (hx : ∀ new h'', visit x h' ≠ .ok new h'') (rest : List Nat) :
    visits visit (l ++ [x] ++ rest) h = visits visit (l ++ [x]) h := by
  have h1 : visits visit (l ++ [x]) h = (visit x >>= fun _ => pure ()) h' := by
    rw [visits_append, M.bind_ok hl, visits_cons]; rfl
  rw [visits_append, M.bind_def, h1, M.bind_def]
  cases hv : visit x h' with
  | ok new h'' => exact absurd hv (hx new h'')
  | throw e h'' => rfl
  | ub u => rfl

/-- The schedule of `backward`. -/
theorem backward_order {h : Heap F} {t : Nat} {i : Impl} (hg : Graph h) (hi : h.ts[t]? = some i) (hr : i.requiresGrad = true)
    (hf : i.gradFn.isSome = true) (hn : numel i.view.sizes = 1) :
    ∃ h1 n v, refreshNOutway t h = .ok () h1 ∧ Stamped h h1 n v ∧ ∃ l, l.Nodup ∧ (∀ x ∈ l, From h t x ∧ Interior h x) ∧
      (Unused h t → Schedule h t l) ∧ backward t h = (seed t >>= fun _ => visits backVisit l) h1 ∧
      (∀ H, backward t h = .ok () H → ∃ R, R.Nodup ∧ (∀ x, x ∈ R ↔ From h t x ∧ Interior h x) ∧
        Pass h t (h1.gver + 1) R n l [] H) := by
  have ht : Interior h t := by unfold Interior; rw [opOf_some hi]; exact hf
  obtain ⟨h1, R, n, v, hre, hs, hV, hv, hR, hall, hcnt⟩ := refresh_ok hg ht
  refine ⟨h1, n, v, hre, hs, ?_⟩
  rw [backward_unfold hi hr hf hn hre]
  have hsched0 : ∃ rest, Schedule h t ([] ++ rest) := complete_schedule hg hR hall List.nodup_nil (by simp) List.Pairwise.nil (by simp)
  cases hsd : seed t h1 with
  | throw e h2 =>
    obtain ⟨l, hl⟩ := hsched0
    rw [List.nil_append] at hl
    refine ⟨l, hl.once, fun x hx => (hl.all x).1 hx, fun _ => hl, ?_, fun H hH => ?_⟩
    · rw [M.bind_throw hsd, M.bind_throw hsd]
    · rw [M.bind_throw hsd] at hH; simp at hH
  | ub u =>
    obtain ⟨l, hl⟩ := hsched0
    rw [List.nil_append] at hl
    refine ⟨l, hl.once, fun x hx => (hl.all x).1 hx, fun _ => hl, ?_, fun H hH => ?_⟩
    · rw [M.bind_ub hsd, M.bind_ub hsd]
    · rw [M.bind_ub hsd] at hH; simp at hH
  | ok a h2 =>
    rw [M.bind_ok hsd]
    have hpass := seed_pass hg ht hs (by rw [hV]; exact hv) hR hall hsd
    rcases queueLoop_visits (visit := backVisit) (Inv := Pass h t (h1.gver + 1) R n) (N := h.ts.length)
      (fun P Q H hp => by
        obtain ⟨_, _, _, hm, _⟩ := hp.ex
        have := nodup_length_le hm.nodup fun x hx => ((hall x).1 (hp.mem x hx)).2.lt
        simpa using this)
      (fun P x Q H new H' hp hvis => (pass_step hg hR hall hcnt hp hvis).1) (h.ts.length + 1) [] [t] h2 hpass (by simp) with
      ⟨l, h', e1, e2, hp⟩ | ⟨l, x, Q', h', e1, hp, hno, e2⟩
    · rw [List.nil_append] at hp
      obtain ⟨_, _, _, hm, _⟩ := hp.ex
      have hnd := hm.nodup
      have hmem := hp.mem
      rw [List.append_nil] at hnd hmem
      refine ⟨l, hnd, fun x hx => (hall x).1 (hmem x hx), fun hU => pass_done hg hR hall hp hU, ?_, fun H hH => ?_⟩
      · rw [M.bind_ok hsd, e1, e2]
      · rw [e2] at hH
        injection hH with _ hH
        subst hH
        exact ⟨R, hR, hall, hp⟩
    · rw [List.nil_append] at hp
      obtain ⟨_, _, _, hm, _⟩ := hp.ex
      have hnd : (l ++ [x]).Nodup := by
        have := hm.nodup
        rw [show l ++ x :: Q' = (l ++ [x]) ++ Q' by simp] at this
        exact (List.nodup_append.1 this).1
      have hmem : ∀ y ∈ l ++ [x], y ∈ R := fun y hy => hp.mem y (by
        rcases List.mem_append.1 hy with h | h
        · simp [h]
        · simp [List.mem_singleton.1 h])
      have hfail : ∀ rest H, visits backVisit (l ++ [x] ++ rest) h2 ≠ .ok () H := by
        intro rest H hc
        rw [visits_fail e1 hno, visits_append, M.bind_ok e1, visits_cons, M.bind_def] at hc
        cases hv : backVisit x h' with
        | ok new h'' => exact hno new h'' hv
        | throw e h'' => rw [hv] at hc; simp at hc
        | ub u => rw [hv] at hc; simp at hc
      have hq : ∀ rest, queueLoop backVisit (h.ts.length + 1) [t] h2 = visits backVisit (l ++ [x] ++ rest) h2 := fun rest => by
        rw [e2, visits_fail e1 hno]
      by_cases hU : Unused h t
      · have hcl := pass_closed hg hR hall hp hU
        have hxl : x ∉ l := fun hc => (List.nodup_append.1 hnd).2.2 x hc x (by simp) rfl
        obtain ⟨rest, hsch⟩ := complete_schedule hg hR hall hnd hmem (by
            rw [List.pairwise_append]
            refine ⟨hp.order hU, by simp, fun a ha b hb hu => ?_⟩
            rw [List.mem_singleton.1 hb] at hu
            exact hxl (hcl a (by simp [ha]) x (hmem x (by simp)) hu)) (fun a ha c hc hu => by
            have := hcl a (by
              rcases List.mem_append.1 ha with h | h
              · simp [h]
              · simp [List.mem_singleton.1 h]) c hc hu
            simp [this])
        refine ⟨l ++ [x] ++ rest, hsch.once, fun y hy => (hsch.all y).1 hy, fun _ => hsch, ?_, fun H hH => ?_⟩
        · rw [M.bind_ok hsd]; exact hq rest
        · rw [hq rest] at hH
          exact absurd hH (hfail rest H)
      · refine ⟨l ++ [x], hnd, fun y hy => (hall y).1 (hmem y hy), fun h => absurd h hU, ?_, fun H hH => ?_⟩
        · rw [M.bind_ok hsd, hq [], List.append_nil]
        · rw [hq []] at hH
          exact absurd hH (hfail [] H)

end INNC
