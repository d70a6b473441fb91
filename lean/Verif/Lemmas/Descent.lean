import Verif.Spec.Descent
import Verif.Lemmas.Apart
import Verif.Props.Accumulate
import Verif.Props.Accum
import Verif.Props.Guards
import Verif.Props.Frame
/-
Gradient descent: one step for one parameter.
-/
namespace INNC
open Spec Tensor
variable {F : Type} [Field F] [FOps F] {h H : Heap F}

theorem Spec.Values.unique {x : Nat} {s : List Nat} {a b : List Nat → F} (h1 : Values h x s a) (h2 : Values h x s b) {idx : List Nat}
    (hb : InBox s idx) : a idx = b idx := by
  obtain ⟨dt, f, ⟨i, hi, rfl, rfl, hr⟩, ha⟩ := h1
  obtain ⟨dt', f', ⟨i', hi', _, _, hr'⟩, hb'⟩ := h2
  rw [hi] at hi'
  obtain rfl := Option.some.inj hi'
  rw [← ha idx hb, ← hb' idx hb, reads_unique hr hr' hb]

omit [FOps F] in
theorem Spec.Values.shape {x : Nat} {s : List Nat} {a : List Nat → F} (h1 : Values h x s a) : shapeOf h x = s := by
  obtain ⟨dt, f, ⟨i, hi, rfl, rfl, hr⟩, ha⟩ := h1
  exact shapeOf_eq hi

/-- What a step for the parameter `w` leaves alone. -/
structure Descends (h H : Heap F) (w : Nat) : Prop where
  ts : ∀ (x : Nat) (i : Impl), h.ts[x]? = some i → H.ts[x]? = some i
  grads : ∀ d, GradIn H d → GradIn h d ∨ h.st.length ≤ d
  elems : ∀ x dt s f, OffGradients h x → ¬ SameStorage h x w → Denotes h x dt s f → Denotes H x dt s f

variable [Exact F]

theorem descend_ok {ws ds : List Nat} {rate w : Nat} {c : F} (hf : Forward h (ws ++ rate :: ds)) (hB : TrainBase h ws rate c ds)
    (hw : w ∈ ws) {G a : List Nat → F} {s : List Nat} (hG : GradIs h w G) (ha : Values h w s a) :
    ∃ H, descend rate w h = .ok () H ∧ Forward H (ws ++ rate :: ds) ∧ Descends h H w ∧
      (Values H w s fun idx => a idx + c * G idx) ∧ (GradIs H w fun _ => 0) ∧
      ∀ x ∈ ws, x ≠ w → ∀ b, GradIs h x b → GradIs H x b := by
  have hh := forward_history hf
  obtain ⟨V, hV, hI⟩ := forward_inv hf
  have hwv : w ∈ ws ++ rate :: ds := by simp [hw]
  have hrv : rate ∈ ws ++ rate :: ds := by simp
  obtain ⟨hreq, hsm⟩ := hB.params w hw
  obtain ⟨hint, hasd⟩ := hB.leaf w hwv
  obtain ⟨i, g, fg, hi, hg, hgd, hgv⟩ := id hG
  obtain ⟨dt, f, hwd, hav⟩ := ha
  obtain ⟨i', hi', rfl, rfl, hir⟩ := id hwd
  rw [hi] at hi'
  obtain rfl := Option.some.inj hi'
  rw [requiresGrad_eq hi] at hreq
  rw [shapeOf_eq hi] at hsm
  have hfl := hI.float w i (hV w hwv) hi hreq
  have hdense := hI.dense w i (hV w hwv) hi hreq fun ⟨g, hg, _⟩ => hint (by unfold Interior; rw [hg]; rfl)
  obtain ⟨j, hj, _, hjv, hjq, hjo, hjg⟩ := hI.grad w i g (hV w hwv) hi hg
  have hgs : gradStore h w = some j.data := by simp [gradStore, hi, hg, hj]
  obtain ⟨dr, fr, hrd, hrc⟩ := hB.value
  obtain ⟨ir, hir', hdr, hrs, hrr⟩ := id hrd
  have hrq := hB.scale
  rw [requiresGrad_eq hir'] at hrq
  -- the gradient
  have e0 : gradOf w h = .ok (some g) h := by
    unfold gradOf
    rw [M.bind_ok (getT_ok hi), hg]; rfl
  have F0 := Forward.gradient hf hwv hG e0
  -- the product
  have hbc := broadcasts_nil i.view.sizes
  obtain ⟨h1, gi, ri, jp, k1, k2, e1, hp, x1, fr1, kp, kg, kd, kv, _, kq, ko⟩ := arith_ok (op := .mul) hgd hrd hbc.1 hbc.2
    (small_of_f64 hsm _) (g := fun idx => .f (G idx * c)) fun idx hb => by
      rw [elemBinary_exact .mul (.inl hfl), project_self hb, project_nil, hrc [] trivial, hgv idx hb]; rfl
  rw [hj] at k1
  obtain rfl := Option.some.inj k1
  rw [hir'] at k2
  obtain rfl := Option.some.inj k2
  have F1 : Forward h1 (h.ts.length :: g :: (ws ++ rate :: ds)) := by
    refine F0.returns (c := .mul g rate) ?_ (fun x hx => ?_) (t := h.ts.length) (h' := h1) ?_
    · refine ⟨i.view.sizes, ?_, hsm⟩
      rw [shapeOf_eq hj, shapeOf_eq hir', hjv, hrs]; exact hbc
    · simp only [args, List.mem_cons, List.not_mem_nil, or_false] at hx
      rcases hx with rfl | rfl
      · simp
      · exact List.mem_cons_of_mem _ hrv
    · show some' (mulT g rate) h = _
      unfold some'
      rw [M.bind_ok (show mulT g rate h = _ from e1)]; rfl
  -- the detached parameter
  have hi1 := x1.ts w i hi
  obtain ⟨u, h2, e2, x2, hul, hju⟩ : ∃ u h2, Tensor.detach w h1 = .ok u h2 ∧ Extends h1 h2 ∧ h1.ts.length ≤ u ∧
      h2.ts[u]? = some ⟨i.dtype, i.view, i.data, none, false, false, none⟩ := by
    refine ⟨h1.ts.length, { h1 with ts := h1.ts ++ [⟨i.dtype, i.view, i.data, none, false, false, none⟩] }, ?_,
      ⟨fun t j hj => ?_, fun _ _ h => h⟩, Nat.le_refl _, by simp⟩
    · unfold Tensor.detach
      rw [M.bind_ok (getT_ok hi1)]; rfl
    · show (h1.ts ++ _)[t]? = _
      rw [List.getElem?_append_left (getElem?_lt hj)]; exact hj
  have F2 : Forward h2 (u :: h.ts.length :: g :: (ws ++ rate :: ds)) := by
    refine F1.returns (c := .detach w) trivial (fun x hx => ?_) (t := u) (h' := h2) ?_
    · simp only [args, List.mem_cons, List.not_mem_nil, or_false] at hx
      rw [hx]
      exact List.mem_cons_of_mem _ (List.mem_cons_of_mem _ hwv)
    · show some' (Tensor.detach w) h1 = _
      unfold some'
      rw [M.bind_ok e2]; rfl
  have x12 := x1.trans x2
  have hi2 := x12.ts w i hi
  have hir2 := hir.extends fun d hd => x12.st _ d hd
  have hud : Denotes h2 u i.dtype i.view.sizes f := ⟨_, hju, rfl, rfl, hir2.flags rfl rfl rfl⟩
  have hpd := hp.of_extends x2
  have hp2 := x2.ts _ _ kp
  -- in-place addition
  have hns : ¬ SameStorage h2 u h.ts.length := by
    rintro ⟨a1, a2, b1, b2, b3⟩
    rw [hju] at b1
    obtain rfl := Option.some.inj b1
    rw [hp2] at b2
    obtain rfl := Option.some.inj b2
    have := hir.data_lt
    simp only at b3
    omega
  have hdis : Distinct h2 u := fun i2 hi2 a b ha hb hab => by
    rw [hju] at hi2
    obtain rfl := Option.some.inj hi2
    exact hdense.inj a b ha hb hab
  have hbs := broadcasts_self i.view.sizes
  have hacc : ∀ idx, InBox i.view.sizes idx → accumAt i.dtype (later i.dtype dr) i.view.sizes i.view.sizes i.view.sizes f
      (fun idx => .f (G idx * c)) idx = some (.f (a idx + c * G idx)) := fun idx hb => by
    rw [C32_one _ _ _ _ hbs.1 idx hb, project_self hb]
    unfold elemAccum
    rw [elemArith_exact .add (.inl hfl), Option.bind_some, convert_exact hfl, hav idx hb, mul_comm c]
    rfl
  obtain ⟨h3, e3, t3, d3, o3⟩ := C32_add hud hpd hns (fun i2 hi2 => by rw [hju] at hi2; obtain rfl := Option.some.inj hi2; rfl) hbs.1 hbs.2 hdis hacc
  have hoff : j.data ≠ i.data := fun he => hasd i hi w (by rw [hgs, he])
  -- objects and gradients
  have hobj : ∀ x ∈ ws ++ rate :: ds, ∃ ix, h.ts[x]? = some ix ∧ h2.ts[x]? = some ix := fun x hx => by
    obtain ⟨ix, _, hix, _⟩ := hI.reads x (hV x hx)
    exact ⟨ix, hix, x12.ts x ix hix⟩
  have hlf : ∀ x ∈ ws ++ rate :: ds, ∀ h' : Heap F, h'.ts = h2.ts → ¬ Interior h' x := fun x hx h' ht => by
    obtain ⟨ix, k1, k2⟩ := hobj x hx
    have := (hB.leaf x hx).1
    unfold Interior at this ⊢
    rw [opOf_eq k1] at this
    rw [opOf_eq (by rw [ht]; exact k2)]
    exact this
  have v0 := valid_history hh
  have a1 : AK true h h1 := (ak_mulT (q := true) g rate).ok (show mulT g rate h = _ from e1)
  have a2 : AK true h1 h2 := (ak_detach (q := true) w).ok e2
  have hG2 : ∀ d, GradIn h2 d → GradIn h d := fun d hd => by
    rcases a2.grads (a1.vk.valid v0) d hd with h1 | h1
    · rcases a1.grads v0 d h1 with h2 | h2
      · exact h2
      · exact absurd h2.1 (by decide)
    · exact absurd h1.1 (by decide)
  have hG3 : ∀ h' : Heap F, h'.ts = h2.ts → ∀ d, GradIn h' d → GradIn h d := fun h' ht d hd =>
    hG2 d (by unfold GradIn gradStore at *; rw [ht] at hd; exact hd)
  have F3 : Forward h3 (ws ++ rate :: ds) := by
    refine F2.update (t := u) (r := h.ts.length) (by simp) (by simp) ⟨by rw [requiresGrad_eq hju], fun i2 hi2 => ?_, hdis, hns, i.view.sizes, ?_⟩
      (by show none' (addAssign u _) h2 = _; unfold none'; rw [M.bind_ok e3]; rfl) fun x hx => ⟨by simp only [List.mem_cons]; exact .inr (.inr (.inr hx)), ?_, ?_⟩
    · rw [hju] at hi2; obtain rfl := Option.some.inj hi2; exact hfl
    · rw [shapeOf_eq hju, shapeOf_eq hp2, kv]; exact hbs
    · intro y gy hy hgy
      obtain rfl := from_leaf (hlf x hx h2 rfl) hy
      exact absurd (by unfold Interior; rw [hgy]; rfl) (hlf y hx h2 rfl)
    · intro y iy hy hiy hgy
      obtain rfl := from_leaf (hlf x hx h2 rfl) hy
      rw [hju] at hiy
      obtain rfl := Option.some.inj hiy
      obtain ⟨z, hz⟩ := hG2 _ ⟨y, hgy⟩
      exact hasd i hi z hz
  -- clearing the gradient
  have hi3 : h3.ts[w]? = some i := by rw [t3]; exact hi2
  have hj3 : h3.ts[g]? = some j := by rw [t3]; exact x12.ts g j hj
  have hg3 : Denotes h3 g j.dtype j.view.sizes fg := by
    obtain ⟨j', hj', b1, b2, b3⟩ := hgd
    rw [hj] at hj'
    obtain rfl := Option.some.inj hj'
    refine o3 g _ _ _ (fun ⟨a1, a2, c1, c2, c3⟩ => ?_) (Denotes.of_extends ⟨j, hj, rfl, rfl, b3⟩ x12)
    rw [x12.ts g j hj] at c1
    obtain rfl := Option.some.inj c1
    rw [hju] at c2
    obtain rfl := Option.some.inj c2
    exact hoff c3
  obtain ⟨H, e4, t4, d4, o4⟩ := C41_zeroed h3 w g i j hi3 hg hj3 fg hg3
  have F4 : Forward H (ws ++ rate :: ds) := by
    refine F3.zero (t := w) hwv (by show none' (Tensor.zeroGrad w) h3 = _; unfold none'; rw [M.bind_ok e4]; rfl) fun x hx => ⟨hx, fun d hd hr => ?_⟩
    obtain ⟨z, hz⟩ := hG3 h3 t3 d ⟨w, hd⟩
    obtain ⟨ix, k1, k2⟩ := hobj x hx
    rcases hr with ⟨y, iy, hy, hiy, hyd⟩ | ⟨y, gy, k, iy, hy, hgy, _⟩ <;> obtain rfl := from_leaf (hlf x hx h3 t3) hy
    · rw [t3, k2] at hiy
      obtain rfl := Option.some.inj hiy
      exact (hB.leaf y hx).2 ix k1 z (by rw [hz, hyd])
    · exact absurd (by unfold Interior; rw [hgy]; rfl) (hlf y hx h3 t3)
  refine ⟨H, ?_, F4, ⟨fun x ix hix => ?_, fun d hd => ?_, fun x dt s f hx hxw hxd => ?_⟩, ?_, ?_, fun x hx hxw b hb => ?_⟩
  · unfold descend
    rw [M.bind_ok e0]
    show (mulT g rate >>= fun p => Tensor.detach w >>= fun d => addAssign d p >>= fun _ => Tensor.zeroGrad w) h = _
    rw [M.bind_ok (show mulT g rate h = _ from e1), M.bind_ok e2, M.bind_ok e3, e4]
  · rw [t4, t3]; exact x12.ts x ix hix
  · exact .inl (hG3 H (by rw [t4, t3]) d hd)
  · obtain ⟨ix, hix, _⟩ := id hxd
    have hx2 := x12.ts x ix hix
    refine o4 x ix dt s f (by rw [t3]; exact hx2) (fun hd => hx ix hix w (by rw [hgs, hd])) (o3 x dt s f (fun ⟨a1, a2, c1, c2, c3⟩ => hxw ⟨ix, i, hix, hi, ?_⟩)
      (hxd.of_extends x12))
    rw [hx2] at c1
    obtain rfl := Option.some.inj c1
    rw [hju] at c2
    obtain rfl := Option.some.inj c2
    exact c3
  · have hw3 : Denotes h3 w i.dtype i.view.sizes fun idx => .f (a idx + c * G idx) := by
      obtain ⟨i4, b1, _, _, b4⟩ := d3
      rw [t3, hju] at b1
      obtain rfl := Option.some.inj b1
      exact ⟨i, hi3, rfl, rfl, b4.flags rfl rfl rfl⟩
    exact ⟨_, _, o4 w i _ _ _ hi3 (Ne.symm hoff) hw3, fun _ _ => rfl⟩
  · have hjd : j.dtype = i.dtype := by
      obtain ⟨j', hj', b1, _⟩ := hgd
      rw [hj] at hj'
      obtain rfl := Option.some.inj hj'
      exact b1
    refine ⟨i, g, fun _ => zeroElem i.dtype, by rw [t4]; exact hi3, hg, ?_, fun idx _ => ?_⟩
    · rw [hjd, hjv] at d4
      exact d4
    · rw [zeroElem_exact hfl]; rfl
  · obtain ⟨ix, gx, fx, hix, hgx, hdx, hbx⟩ := hb
    obtain ⟨jx, hjx, b1, b2, b3⟩ := id hdx
    have hx2 := x12.ts x ix hix
    have hjx2 := x12.ts gx jx hjx
    have hgsx : gradStore h x = some jx.data := by simp [gradStore, hix, hgx, hjx]
    refine ⟨ix, gx, fx, by rw [t4, t3]; exact hx2, hgx, ?_, hbx⟩
    refine o4 gx jx _ _ _ (by rw [t3]; exact hjx2) (fun hd => hxw ?_) (o3 gx _ _ _ (fun ⟨a1, a2, c1, c2, c3⟩ => ?_) (hdx.of_extends x12))
    · have hxv : x ∈ ws ++ rate :: ds := by simp [hx]
      have nv : ∀ y ∈ ws ++ rate :: ds, ¬ IsView h y := fun y hy ⟨g, hg, _⟩ => (hB.leaf y hy).1 (by unfold Interior; rw [hg]; rfl)
      exact hI.apart x w _ (hV x hxv) (hV w hwv) (nv x hxv) (nv w hwv) hgsx (by rw [hgs, hd])
    · rw [hjx2] at c1
      obtain rfl := Option.some.inj c1
      rw [hju] at c2
      obtain rfl := Option.some.inj c2
      exact hasd i hi x (by rw [hgsx, c3])

omit [Exact F] in
/-- A variable is the same object, up to its gradient. -/
def Kept (h H : Heap F) (x : Nat) : Prop := ∃ i i', h.ts[x]? = some i ∧ H.ts[x]? = some i' ∧ i'.view = i.view ∧ i'.data = i.data ∧
  i'.requiresGrad = i.requiresGrad ∧ opOf H x = opOf h x

omit [Field F] [FOps F] [Exact F] in
theorem Kept.same {x y : Nat} (hx : Kept h H x) (hy : Kept h H y) (hs : SameStorage H x y) : SameStorage h x y := by
  obtain ⟨i, i', a1, a2, a3, a4, _⟩ := hx
  obtain ⟨j, j', b1, b2, b3, b4, _⟩ := hy
  obtain ⟨k, l, c1, c2, c3⟩ := hs
  rw [a2] at c1
  obtain rfl := Option.some.inj c1
  rw [b2] at c2
  obtain rfl := Option.some.inj c2
  exact ⟨i, j, a1, b1, by rw [← a4, ← b4, c3]⟩

omit [Exact F] in
theorem Spec.TrainBase.keep {ws ds : List Nat} {rate : Nat} {c : F} (hv : Valid h) (hB : TrainBase h ws rate c ds)
    (hk : ∀ x ∈ ws ++ rate :: ds, Kept h H x) (hg : ∀ d, GradIn H d → GradIn h d ∨ h.st.length ≤ d)
    (hval : Values H rate [] fun _ => c) : TrainBase H ws rate c ds where
  leaf := fun x hx => by
    obtain ⟨i, i', a1, a2, a3, a4, a5, a6⟩ := hk x hx
    obtain ⟨b1, b2⟩ := hB.leaf x hx
    refine ⟨by unfold Interior; rw [a6]; exact b1, fun j hj y hy => ?_⟩
    rw [a2] at hj
    obtain rfl := Option.some.inj hj
    rw [a4] at hy
    rcases hg _ ⟨y, hy⟩ with ⟨z, hz⟩ | h1
    · exact b2 i a1 z hz
    · have := hv.data x i a1; omega
  params := fun w hw => by
    obtain ⟨i, i', a1, a2, a3, a4, a5, a6⟩ := hk w (by simp [hw])
    obtain ⟨b1, b2⟩ := hB.params w hw
    rw [requiresGrad_eq a1] at b1
    rw [shapeOf_eq a1] at b2
    rw [requiresGrad_eq a2, shapeOf_eq a2, a5, a3]
    exact ⟨b1, b2⟩
  apart := hB.apart.imp_of_mem fun {a b} ha hb hab hc => hab ((hk a (by simp [ha])).same (hk b (by simp [hb])) hc)
  others := fun x hx w hw hc => hB.others x hx w hw ((hk x (List.mem_append_right _ hx)).same (hk w (by simp [hw])) hc)
  scale := by
    obtain ⟨i, i', a1, a2, a3, a4, a5, a6⟩ := hk rate (by simp)
    have := hB.scale
    rw [requiresGrad_eq a1] at this
    rw [requiresGrad_eq a2, a5, this]
  value := hval

omit [Exact F] in
theorem Spec.TrainBase.nodup {ws ds : List Nat} {rate : Nat} {c : F} (hB : TrainBase h ws rate c ds)
    (he : ∀ w ∈ ws, ∃ i, h.ts[w]? = some i) : ws.Nodup :=
  hB.apart.imp_of_mem fun {a b} ha _ hab e => hab (by
    obtain ⟨i, hi⟩ := he a ha
    exact ⟨i, i, hi, e ▸ hi, rfl⟩)

omit [Field F] [FOps F] [Exact F] in
theorem apart_of {R : Nat → Nat → Prop} (hs : ∀ a b, R a b → R b a) : ∀ {l : List Nat}, l.Pairwise R → ∀ {x y : Nat}, x ∈ l → y ∈ l → x ≠ y → R x y
  | [], _, _, _, hx, _, _ => absurd hx List.not_mem_nil
  | a :: l, hl, x, y, hx, hy, hne => by
    obtain ⟨h1, h2⟩ := List.pairwise_cons.1 hl
    rcases List.mem_cons.1 hx with rfl | hx'
    · rcases List.mem_cons.1 hy with rfl | hy'
      · exact absurd rfl hne
      · exact h1 y hy'
    · rcases List.mem_cons.1 hy with rfl | hy'
      · exact hs _ _ (h1 x hx')
      · exact apart_of hs h2 hx' hy' hne

omit [Exact F] in
theorem Spec.TrainBase.differ {ws ds : List Nat} {rate : Nat} {c : F} (hB : TrainBase h ws rate c ds) {x w : Nat} (hx : x ∈ ws ++ rate :: ds)
    (hw : w ∈ ws) (hne : x ≠ w) : ¬ SameStorage h x w := by
  rcases List.mem_append.1 hx with hx | hx
  · have hs : ∀ a b, ¬ SameStorage h a b → ¬ SameStorage h b a := fun a b hab ⟨i, j, h1, h2, h3⟩ => hab ⟨j, i, h2, h1, h3.symm⟩
    exact apart_of hs hB.apart hx hw hne
  · exact hB.others x hx w hw

theorem descendAll_ok {ws ds : List Nat} {rate : Nat} {c : F} {s : Nat → List Nat} {a G : Nat → List Nat → F} :
    ∀ (l : List Nat) (h : Heap F), Forward h (ws ++ rate :: ds) → TrainBase h ws rate c ds → (∀ w ∈ l, w ∈ ws) → l.Nodup →
      (∀ w ∈ l, GradIs h w (G w) ∧ Values h w (s w) (a w)) →
      ∃ H, descendAll rate l h = .ok () H ∧ Forward H (ws ++ rate :: ds) ∧ TrainBase H ws rate c ds ∧
        (∀ w ∈ l, (Values H w (s w) fun idx => a w idx + c * G w idx) ∧ GradIs H w fun _ => 0) ∧
        (∀ w ∈ ws, w ∉ l → ∀ b, GradIs h w b → GradIs H w b) ∧
        ∀ x ∈ ws ++ rate :: ds, x ∉ l → ∀ s a, Values h x s a → Values H x s a
  | [], h, hf, hB, _, _, _ => ⟨h, rfl, hf, hB, fun _ h => absurd h List.not_mem_nil, fun _ _ _ _ h => h, fun _ _ _ _ _ h => h⟩
  | w :: l, h, hf, hB, hl, hnd, hv => by
    obtain ⟨hnw, hnd⟩ := List.nodup_cons.1 hnd
    have hw := hl w (by simp)
    obtain ⟨h1, e1, f1, D1, v1, g1, o1⟩ := descend_ok hf hB hw (hv w (by simp)).1 (hv w (by simp)).2
    obtain ⟨V, hV, hI⟩ := forward_inv hf
    have hval : ∀ x ∈ ws ++ rate :: ds, x ≠ w → ∀ s a, Values h x s a → Values h1 x s a := fun x hx hne s a ⟨dt, f, hd, ha⟩ =>
      ⟨dt, f, D1.elems x dt s f (hB.leaf x hx).2 (hB.differ hx hw hne) hd, ha⟩
    have hrw : rate ≠ w := fun e => by
      obtain ⟨i, _, hi, _⟩ := hI.reads w (hV w (by simp [hw]))
      exact hB.others rate (by simp) w hw ⟨i, i, e ▸ hi, hi, rfl⟩
    have hB1 : TrainBase h1 ws rate c ds := hB.keep (valid_history (forward_history hf)) (fun x hx => by
      obtain ⟨i, _, hi, _⟩ := hI.reads x (hV x hx)
      have := D1.ts x i hi
      exact ⟨i, i, hi, this, rfl, rfl, rfl, by rw [opOf_eq hi, opOf_eq this]⟩) D1.grads (hval rate (by simp) hrw _ _ hB.value)
    obtain ⟨H, e2, f2, B2, v2, g2, o2⟩ := descendAll_ok l h1 f1 hB1 (fun x hx => hl x (by simp [hx])) hnd fun x hx => by
      have hne : x ≠ w := fun e => hnw (e ▸ hx)
      have hxw := hl x (by simp [hx])
      exact ⟨o1 x hxw hne _ (hv x (by simp [hx])).1, hval x (by simp [hxw]) hne _ _ (hv x (by simp [hx])).2⟩
    refine ⟨H, by rw [descendAll, M.bind_ok e1]; exact e2, f2, B2, fun x hx => ?_, fun x hx hxl b hb => ?_, fun x hx hxl s a hb => ?_⟩
    · rcases List.mem_cons.1 hx with rfl | hx
      · exact ⟨o2 x (by simp [hw]) hnw _ _ v1, g2 x hw hnw _ g1⟩
      · exact v2 x hx
    · rw [List.mem_cons, not_or] at hxl
      exact g2 x hx hxl.2 b (o1 x hx hxl.1 b hb)
    · rw [List.mem_cons, not_or] at hxl
      exact o2 x hx hxl.2 s a (hval x hx hxl.1 s a hb)

theorem Inv.partial_exists {V : Nat → Prop} (hI : Inv h V) {t : Nat} (ht : V t) (hs : Starts h t) (x : Nat) (idx : List Nat) : ∃ d, Partial h t x idx d := by
  by_cases hl : Leaf h t x
  · obtain ⟨u, k1, k2⟩ := exists_direction hI ht hs.2.2.2 x idx
    have hn := hs.2.2.1
    obtain ⟨r, hr⟩ : ∃ r, InBox (shapeOf h t) r := by
      cases hl : rowMajor (shapeOf h t) with
      | nil =>
        have := length_rowMajor (shapeOf h t)
        rw [hl, hn] at this; cases this
      | cons r l => exact ⟨r, mem_rowMajor.1 (by rw [hl]; simp)⟩
    exact ⟨_, fun _ => ⟨u, r, k1, k2, hr, rfl⟩, fun hc => absurd hl hc⟩
  · exact ⟨0, fun hc => absurd hc hl, fun _ => rfl⟩

theorem back_base {us ws ds : List Nat} {rate t : Nat} {c : F} (hf : Forward h us) (hB : TrainBase h ws rate c ds)
    (hus : ∀ x ∈ t :: (ws ++ rate :: ds), x ∈ us) (hs : Starts h t) :
    ∃ H, backward t h = .ok () H ∧ Forward H (ws ++ rate :: ds) ∧ TrainBase H ws rate c ds ∧
      (∀ x ∈ ws ++ rate :: ds, ∀ s a, Values h x s a → Values H x s a) ∧
      ∀ w ∈ ws, ∀ G₀, GradOrZero h w G₀ → ∃ G₁, GradOrZero H w G₁ ∧ (Leaf h t w → GradIs H w G₁) ∧
        ∀ idx, InBox (shapeOf h w) idx → ∀ d, Partial h t w idx d → G₁ idx = G₀ idx + d := by
  have hh := forward_history hf
  obtain ⟨V, hV, hI⟩ := forward_inv hf
  have ht := hV t (hus t (by simp))
  have hbv : ∀ x ∈ ws ++ rate :: ds, V x := fun x hx => hV x (hus x (List.mem_cons_of_mem _ hx))
  have hcl : ∀ x ∈ ws ++ rate :: ds, Separate h x t ∧ Aloof h x t := fun x hx => by
    obtain ⟨b1, b2⟩ := hB.leaf x hx
    obtain ⟨i, _, hi, _⟩ := hI.reads x (hbv x hx)
    refine ⟨fun y hy _ hc => ?_, fun y d _ hd hr => ?_⟩
    · obtain rfl := from_leaf b1 hy
      exact absurd hc b1
    · rcases hr with ⟨z, iz, hz, hiz, hzd⟩ | ⟨z, gz, k, iz, hz, hgz, _⟩ <;> obtain rfl := from_leaf b1 hz
      · exact b2 iz hiz y (by rw [hd, hzd])
      · exact absurd (by unfold Interior; rw [hgz]; rfl) b1
  obtain ⟨H, e, hg⟩ := hI.back_step hh ht hs
  have erun : (Call.backward t).run h = .ok none H := by
    show none' (backward t) h = _
    unfold none'
    rw [M.bind_ok e]; rfl
  have hag : ∀ x ∈ ws ++ rate :: ds, Agree h H x := fun x hx => hI.back_agree hh ht e ⟨hbv x hx, hcl x hx⟩
  have hval : ∀ x ∈ ws ++ rate :: ds, ∀ s a, Values h x s a → Values H x s a := fun x hx s a ⟨dt, f, ⟨i, hi, h1, h2, h3⟩, ha⟩ => by
    obtain ⟨i0, i', k1, k2, k3, k4, k5, k6, k7⟩ := (hag x hx).same x .root
    rw [hi] at k1
    obtain rfl := Option.some.inj k1
    exact ⟨dt, f, ⟨i', k2, by rw [k3, h1], by rw [k4, h2], h3.same k3 k4 k5 k7⟩, ha⟩
  refine ⟨H, e, hf.back (hus t (by simp)) hs erun fun x hx => ⟨hus x (List.mem_cons_of_mem _ hx), hcl x hx⟩,
    hB.keep (valid_history hh) (fun x hx => ?_) (fun d hd => ?_) (hval rate (by simp) _ _ hB.value), hval, fun w hw G₀ hG₀ => ?_⟩
  · obtain ⟨i, i', k1, k2, k3, k4, k5, k6, k7⟩ := (hag x hx).same x .root
    have b1 := (hB.leaf x hx).1
    have b2 : ¬ Interior H x := fun hc => b1 (((hag x hx).interior .root).1 hc)
    unfold Interior at b1 b2
    rw [Option.not_isSome_iff_eq_none] at b1 b2
    exact ⟨i, i', k1, k2, k4, k5, k6, by rw [b1, b2]⟩
  · exact ((ak_run (.backward t)).ok erun).grads (valid_history hh) d hd |>.imp id And.right
  · obtain ⟨G₁, h1, h2, _, h4⟩ := hg w (hbv w (by simp [hw])) (hB.leaf w (by simp [hw])).1 G₀ hG₀
    exact ⟨G₁, h1, h2, h4⟩

end INNC
