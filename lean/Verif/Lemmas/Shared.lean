import Verif.Lemmas.ConstQuotient
import Verif.Spec.Shared
/-
Results that an earlier back-propagation has used are not processed again.
-/
namespace INNC
open Spec Tensor
variable {F : Type}

theorem Spec.UseCount.total {h : Heap F} {t y k : Nat} (hk : UseCount h t y k) {R : List Nat} (hR : R.Nodup)
    (hall : ∀ x, x ∈ R ↔ From h t x ∧ Interior h x) : indeg h R y = k := by
  obtain ⟨R', hR', hall', e⟩ := hk
  have h1 : indeg h R y ≤ indeg h R' y := indeg_le hR hR' (fun x hx => (hall' x).2 ((hall x).1 hx)) y
  have h2 : indeg h R' y ≤ indeg h R y := indeg_le hR' hR (fun x hx => (hall x).2 ((hall' x).1 hx)) y
  have h3 : indeg h R' y = k := e
  omega

theorem Spec.Around.toFrom {h : Heap F} {t : Nat} {B : Nat → Prop} {x : Nat} (hx : Around h t B x) : From h t x := by
  induction hx with
  | root => exact .root
  | step _ _ hu ih => exact .step ih hu

/-- The uses of `y` in the computation of `t` have arrived before. -/
def Worn (h : Heap F) (t y : Nat) : Prop :=
  ∃ i g k, h.ts[y]? = some i ∧ i.gradFn = some g ∧ i.requiresGrad = true ∧ UseCount h t y k ∧ k ≤ g.accOutway

variable [FOps F]

theorem visits_frame {h0 : Heap F} {S : Nat → Prop} (hc : GradsIn h0 S) :
    ∀ (l : List Nat) {H : Heap F}, BFrame h0 S H → (∀ x ∈ l, S x ∧ ∀ y, Uses h0 x y → S y) →
      Post (BFrame h0 S) (INNC.visits Tensor.backVisit l H) fun _ _ => True
  | [], H, hb, _ => post_pure hb trivial
  | x :: l, H, hb, hl => by
    rw [visits_cons]
    exact post_bind (hb.backVisit hc (hl x (by simp)).1 (hl x (by simp)).2) fun _ h1 hh1 _ =>
      visits_frame hc l hh1 fun y hy => hl y (by simp [hy])

theorem worn_order {h : Heap F} {t : Nat} {i : Impl} (hg : Graph h) (hi : h.ts[t]? = some i) (hr : i.requiresGrad = true)
    (hf : i.gradFn.isSome = true) (hn : numel i.view.sizes = 1) {B : Nat → Prop} (hB : ∀ y, B y → Worn h t y) :
    ∃ h1 n v l, Stamped h h1 n v ∧ (∀ x ∈ l, Around h t B x ∧ (x = t ∨ ¬ B x)) ∧
      backward t h = (seed t >>= fun _ => visits backVisit l) h1 := by
  have ht : Interior h t := by unfold Interior; rw [opOf_some hi]; exact hf
  obtain ⟨h1, R, n, v, hre, hs, hV, hv, hR, hall, hcnt⟩ := refresh_ok hg ht
  rw [backward_unfold hi hr hf hn hre]
  cases hsd : seed t h1 with
  | throw e h2 => exact ⟨h1, n, v, [], hs, by simp, by rw [M.bind_throw hsd, M.bind_throw hsd]⟩
  | ub u => exact ⟨h1, n, v, [], hs, by simp, by rw [M.bind_ub hsd, M.bind_ub hsd]⟩
  | ok a h2 =>
    have hpass := seed_pass hg ht hs (by rw [hV]; exact hv) hR hall hsd
    rw [M.bind_ok hsd]
    rcases queueLoop_visits (visit := backVisit)
      (Inv := fun P Q H => Pass h t (h1.gver + 1) R n P Q H ∧ ∀ x ∈ P ++ Q, Around h t B x ∧ (x = t ∨ ¬ B x)) (N := h.ts.length)
      (fun P Q H hp => by
        obtain ⟨_, _, _, hm, _⟩ := hp.1.ex
        have := nodup_length_le hm.nodup fun x hx => ((hall x).1 (hp.1.mem x hx)).2.lt
        simpa using this)
      (fun P x Q H new H' hp hvis => by
        obtain ⟨hp1, hnew⟩ := pass_step hg hR hall hcnt hp.1 hvis
        refine ⟨hp1, fun y hy => ?_⟩
        have hold : ∀ y ∈ P ++ x :: Q, Around h t B y ∧ (y = t ∨ ¬ B y) := hp.2
        simp only [List.mem_append, List.mem_singleton] at hy
        rcases hy with (hy | rfl) | hy | hy
        · exact hold y (by simp [hy])
        · exact hold y (by simp)
        · exact hold y (by simp [hy])
        · obtain ⟨hu, hyi, e⟩ := hnew y hy
          obtain ⟨ha, hx⟩ := hold x (by simp)
          refine ⟨.step ha hx hu, .inr fun hb => ?_⟩
          obtain ⟨j, g, k, hj, hgj, hrj, hk, hle⟩ := hB y hb
          have e1 := e j g hj hgj hrj
          have e2 := hcnt y ((hall y).2 ⟨.step ha.toFrom hu, hyi⟩)
          have e3 := hk.total hR hall
          have e4 : 0 < indeg h (P ++ [x]) y := by
            rw [indeg_append, indeg_singleton]
            have := List.count_pos_iff.2 hu
            omega
          omega) (h.ts.length + 1) [] [t] h2 ⟨hpass, by
            intro x hx
            rw [List.nil_append, List.mem_singleton] at hx
            subst hx
            exact ⟨.root, .inl rfl⟩⟩ (by simp) with ⟨l, h', e1, e2, hp⟩ | ⟨l, x, Q', h', e1, hp, hno, e2⟩
    · refine ⟨h1, n, v, l, hs, fun x hx => hp.2 x (by simp [hx]), ?_⟩
      rw [M.bind_ok hsd, e1, e2]
    · refine ⟨h1, n, v, l ++ [x], hs, fun y hy => hp.2 y ?_, ?_⟩
      · rcases List.mem_append.1 hy with hy | hy
        · simp [hy]
        · simp [List.mem_singleton.1 hy]
      · rw [M.bind_ok hsd, e2]

theorem worn_frame {h H : Heap F} {t : Nat} {i : Impl} (hh : History h) (hi : h.ts[t]? = some i) (hr : i.requiresGrad = true)
    (hf : i.gradFn.isSome = true) (hn : numel i.view.sizes = 1) {B : Nat → Prop} (hB : ∀ y, B y → Worn h t y)
    (hp : Propagates t h H) : ∃ h1 n v, Stamped h h1 n v ∧ BFrame h1 (Around h t B) H := by
  have hg := graph_history hh
  obtain ⟨h1, n, v, l, hst, hl, e⟩ := worn_order hg hi hr hf hn hB
  refine ⟨h1, n, v, hst, ?_⟩
  have hlt : ∀ x, Around h t B x → x < h.ts.length := fun x hx => by
    have := hx.toFrom.le hg
    have := getElem?_lt hi
    omega
  have hc : GradsIn h1 (Around h t B) := hst.gradsIn hh hlt
  have hop : ∀ y, Around h t B y → y = t ∨ ¬ B y → ∀ z, Uses h1 y z → Around h t B z := fun y hy hb z hz => by
    refine .step hy hb ?_
    have hj := List.getElem?_eq_getElem (hlt y hy)
    unfold Uses operands at *
    rw [opOf_some (hst.at_ y _ hj)] at hz
    rw [opOf_some hj]
    cases hgf : (h.ts[y]'(hlt y hy)).gradFn with
    | none => rw [hgf] at hz; simp at hz
    | some g => rw [hgf] at hz; exact hz
  have hpost : Post (BFrame h1 (Around h t B)) ((seed t >>= fun _ => visits backVisit l) h1) fun _ _ => True :=
    post_bind (BFrame.seed hc (BFrame.refl _ _) .root (hop t .root (.inl rfl)) (hst.at_ t i hi) (by simpa using hf)) fun _ h2 hh2 _ =>
      visits_frame hc l hh2 fun x hx => ⟨(hl x hx).1, hop x (hl x hx).1 (hl x hx).2⟩
  rw [← e] at hpost
  rcases hp with hp | ⟨x, hp⟩ <;> rw [hp] at hpost
  · exact hpost.1
  · exact hpost

/-- After a back-propagation the arrivals counted are the uses. -/
theorem arrived_backward {h H : Heap F} {s y k : Nat} {g' : GradFn} (hg : Graph h) (hU : Unused h s) (hb : backward s h = .ok () H)
    (hy : From h s y) (hys : y ≠ s) (hk : UseCount h s y k) (hg' : opOf H y = some g') : k ≤ g'.accOutway := by
  obtain ⟨i, hi, hr, hf, hn⟩ := backward_started hb
  obtain ⟨h1, n, v, _, _, l, hnd, _, hsch, _, hend⟩ := backward_order hg hi hr hf hn
  obtain ⟨R, hR, hall, hp⟩ := hend H hb
  obtain ⟨acc, ver, hpr, _, hacc⟩ := hp.ex
  have hs := hsch hU
  have hylt : y < h.ts.length := by
    have := hy.le hg
    have := getElem?_lt hi
    omega
  have hj := List.getElem?_eq_getElem hylt
  rw [opOf_some (hpr.at_ y _ hj)] at hg'
  cases hgf : (h.ts[y]'hylt).gradFn with
  | none => rw [hgf] at hg'; simp at hg'
  | some g =>
    rw [hgf] at hg'
    obtain rfl := Option.some.inj hg'
    have ho : opOf h y = some g := by rw [opOf_some hj, hgf]
    have hreq := (hU y g hy hys ho).2 _ hj
    have e1 := hacc y _ g hj hgf hreq
    have e2 := hk.total hs.once hs.all
    show k ≤ acc y
    omega

end INNC
