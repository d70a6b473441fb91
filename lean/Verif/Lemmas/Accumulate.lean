import Verif.Lemmas.Agree
/-
Back-propagation from several roots: the gradients of leaves accumulate.
-/
namespace INNC
open Spec Tensor
variable {F : Type} [Field F] [FOps F] {h H : Heap F} {V : Nat → Prop} {t u x : Nat}

/-! ### Gradients are determined -/

theorem gradIs_not_none {a : List Nat → F} (h1 : GradIs h x a) (h2 : NoGrad h x) : False := by
  obtain ⟨i, g, f, hi, hg, ⟨j, hj, _, _, hr⟩, _⟩ := h1
  obtain ⟨i', hi', hn⟩ := h2
  rw [hi] at hi'
  obtain rfl := Option.some.inj hi'
  obtain ⟨s, c, hs, _, hb, _⟩ := hr.cells
  have := hn g j s hg hj hs
  rw [hb] at this
  cases this

theorem gradOrZero_unique {a b : List Nat → F} (h1 : GradOrZero h x a) (h2 : GradOrZero h x b) {idx : List Nat}
    (hb : InBox (shapeOf h x) idx) : a idx = b idx := by
  rcases h1 with h1 | ⟨n1, h1⟩ <;> rcases h2 with h2 | ⟨n2, h2⟩
  · obtain ⟨i, g, f, hi, hg, ⟨j, hj, k1, k2, hr⟩, ha⟩ := h1
    obtain ⟨i', g', f', hi', hg', ⟨j', hj', _, _, hr'⟩, ha'⟩ := h2
    rw [hi] at hi'
    obtain rfl := Option.some.inj hi'
    rw [hg] at hg'
    obtain rfl := Option.some.inj hg'
    rw [hj] at hj'
    obtain rfl := Option.some.inj hj'
    rw [shapeOf_eq hi] at hb
    rw [← ha idx hb, ← ha' idx hb, reads_unique hr hr' (by rw [k2]; exact hb)]
  · exact (gradIs_not_none h1 n2).elim
  · exact (gradIs_not_none h2 n1).elim
  · rw [h1 idx hb, h2 idx hb]

/-- Every leaf has a gradient, or none. -/
theorem Inv.gradOrZero (hI : Inv h V) (hx : V x) (hl : ¬ Interior h x) : ∃ a, GradOrZero h x a := by
  obtain ⟨i, f, hi, hr⟩ := hI.reads x hx
  have hv : ¬ IsView h x := fun ⟨g, hg, _⟩ => hl (by unfold Interior; rw [hg]; rfl)
  cases hg : i.grad with
  | none => exact ⟨fun _ => 0, .inr ⟨⟨i, hi, fun g j s hg' => by rw [hg] at hg'; cases hg'⟩, fun _ _ => rfl⟩⟩
  | some g =>
    obtain ⟨j, hj, k1, k2, _⟩ := hI.grad x i g hx hi hg
    have hd : gradStore h x = some j.data := by simp [gradStore, hi, hg, hj]
    obtain ⟨s, hs, hdt, hc⟩ := hI.cells x i j.data hx hv hi hd
    rcases hc with ⟨hb, _⟩ | ⟨_, c, a, hb, hlen, hc⟩
    · refine ⟨fun _ => 0, .inr ⟨⟨i, hi, fun g' j' s' hg' hj' hs' => ?_⟩, fun _ _ => rfl⟩⟩
      rw [hg] at hg'
      obtain rfl := Option.some.inj hg'
      rw [hj] at hj'
      obtain rfl := Option.some.inj hj'
      rw [hs] at hs'
      obtain rfl := Option.some.inj hs'
      exact hb
    · refine ⟨a, .inl ⟨i, g, fun idx => .f (a idx), hi, hg, ⟨j, hj, k1, by rw [k2], by rw [k2]; exact hr.strides, by rw [k2]; exact hr.offset,
        ⟨s, c, hs, by rw [hdt, k1], hb, hlen, fun idx hidx => ?_⟩, fun idx hidx => ?_⟩, fun _ _ => rfl⟩⟩
      · rw [k2] at hidx ⊢
        obtain ⟨_, _, _, _, _, _, hp⟩ := hr.cells
        obtain ⟨p, hp, _⟩ := hp idx hidx
        refine ⟨p, hp, ?_⟩
        have := hc idx hidx
        rwa [hp, Int.toNat_natCast] at this
      · have hfl : i.dtype.isFloat = true := by
          cases hrq : i.requiresGrad with
          | true => exact hI.float x i hx hi hrq
          | false => rw [hI.bare x i hx hi hrq] at hg; cases hg
        rw [k1]
        exact hfl



/-! ### What `backward()` leaves alone -/

theorem Inv.back_agree (hI : Inv h V) (hh : History h) (ht : V t) (e : backward t h = .ok () H) (hu : Clear h V t u) :
    Agree h H u := by
  have hb := backward_frame hh (.inl e)
  have hstore : ∀ x d, Clear h V t x → ReadStore h x d → H.st[d]? = h.st[d]? := fun x d hx hd => hb.store d fun hw => by
    rcases hw with hw | ⟨y, hy, hg⟩
    · have := hI.used_lt (hI.read_used hx.1 hd); omega
    · exact hx.2.2 y d hy hg hd
  have hcl : ∀ x, From h u x → Clear h V t x := fun x hx => hu.next hI hx
  have halike : ∀ (x : Nat) (i : Impl), h.ts[x]? = some i → ReadStore h u i.data → Alike h H x := fun x i hi hd => by
    obtain ⟨i', hi', hsk⟩ := hb.skel x i hi
    obtain ⟨e1, e2, e3, e4, _⟩ := skel_eq hsk
    exact ⟨i, i', hi, hi', e1, e2, e3, e4, hstore u _ hu hd⟩
  refine ⟨fun x hx => ?_, fun x hx => ?_, fun x g k hx hg hk => ?_⟩
  · obtain ⟨i, _, hi, _⟩ := hI.reads x (hcl x hx).1
    exact halike x i hi (.inl ⟨x, i, hx, hi, rfl⟩)
  · have hx := hcl x hx
    obtain ⟨i, _, hi, _⟩ := hI.reads x hx.1
    obtain ⟨i', hi', hsk⟩ := hb.skel x i hi
    rw [opOf_eq hi, opOf_eq hi']
    exact skel_gradFn hsk
  · obtain ⟨ik, _, hik, _⟩ := hI.slopes (hcl x hx).1 hg hk
    exact halike k ik hik (.inr ⟨x, g, k, ik, hx, hg, hk, hik, rfl⟩)

/-- Gradients that existed before are where they were, new ones are on new storages. -/
theorem Inv.back_store (hI : Inv h V) (hh : History h) (e : backward t h = .ok () H) (hx : V x) {d : Nat}
    (hd : gradStore H x = some d) : gradStore h x = some d ∨ h.st.length ≤ d := by
  have hb := backward_frame hh (.inl e)
  obtain ⟨i, f, hi, hr⟩ := hI.reads x hx
  obtain ⟨i', g, j', hi', hg, hj', rfl⟩ := gradStore_some hd
  rcases hb.from_ x g i i' hi hi' hg with h1 | ⟨_, j, hj, h2⟩
  · obtain ⟨j, hj, _⟩ := hI.grad x i g hx hi h1
    obtain ⟨j1, hj1, hsk⟩ := hb.skel g j hj
    rw [hj'] at hj1
    obtain rfl := Option.some.inj hj1
    exact .inl (by simp [gradStore, hi, h1, hj, (skel_eq hsk).2.2.1])
  · rw [hj'] at hj
    obtain rfl := Option.some.inj hj
    exact .inr h2

/-- The gradient of a leaf that does not take part in the computation of `t` is left alone. -/
theorem Inv.back_grad (hI : Inv h V) (hh : History h) (ht : V t) (e : backward t h = .ok () H) (hx : V x) (hl : ¬ Interior h x)
    (hn : ¬ Leaf h t x) {a : List Nat → F} : (GradIs h x a → GradIs H x a) ∧ (GradOrZero h x a → GradOrZero H x a) := by
  have hb := backward_frame hh (.inl e)
  have hSV : ∀ x, From h t x → V x := fun x hx => (hI.from ht hx).1
  obtain ⟨i, f, hi, hr⟩ := hI.reads x hx
  have hv : ¬ IsView h x := fun ⟨g, hg, _⟩ => hl (by unfold Interior; rw [hg]; rfl)
  have hop : i.gradFn = none := by
    unfold Interior at hl
    rw [opOf_eq hi] at hl
    simpa using hl
  obtain ⟨i', hi', hsk⟩ := hb.skel x i hi
  have hview : i'.view = i.view := (skel_eq hsk).2.1
  have hsh : shapeOf H x = shapeOf h x := by rw [shapeOf_eq hi, shapeOf_eq hi', hview]
  by_cases hf : From h t x
  · have hrq : i.requiresGrad = false := by
      by_contra hc
      exact hn ⟨⟨hf, i, hi, by simpa using hc⟩, hl⟩
    have hg := hI.bare x i hx hi hrq
    have hg' : i'.grad = none := by rw [hb.leaf x i i' hi hi' hop (.inr hrq)]; exact hg
    have hno : ¬ GradIs h x a := fun ⟨j, g, _, hj, hjg, _⟩ => by
      rw [hi] at hj
      obtain rfl := Option.some.inj hj
      rw [hg] at hjg; cases hjg
    refine ⟨fun h1 => (hno h1).elim, fun h1 => .inr ⟨⟨i', hi', fun g j s hj => by rw [hg'] at hj; cases hj⟩, ?_⟩⟩
    rw [hsh]
    exact (h1.resolve_left hno).2
  · rw [hb.out x i hi hf] at hi'
    obtain rfl := Option.some.inj hi'
    have hgobj : ∀ (g : Nat) (j : Impl), i.grad = some g → h.ts[g]? = some j → ∃ j', H.ts[g]? = some j' ∧ j'.dtype = j.dtype ∧
        j'.view = j.view ∧ j'.data = j.data ∧ H.st[j.data]? = h.st[j.data]? :=
      fun g j hg hj => by
        obtain ⟨j', hj', hsk⟩ := hb.skel g j hj
        obtain ⟨e1, e2, e3, _⟩ := skel_eq hsk
        refine ⟨j', hj', e1, e2, e3, hb.store _ ?_⟩
        have hd : gradStore h x = some j.data := by simp [gradStore, hi, hg, hj]
        rintro (hw | ⟨y, hy, hg⟩)
        · obtain ⟨s, q1, _⟩ := hI.cells x i j.data hx hv hi hd
          have := getElem?_lt q1; omega
        · obtain ⟨o, o1, o2, o3, o4⟩ := hI.ownerFrom _ y (Nat.lt_succ_self y) (hSV y hy) hg
          have := hI.apart o x _ o1 hx o3 hv o4 hd
          subst this
          exact hf (hy.trans o2)
    have hI1 : GradIs h x a → GradIs H x a := by
      rintro ⟨i1, g, f, hi1, hg, ⟨j, hj, k1, k2, hjr⟩, ha⟩
      rw [hi] at hi1
      obtain rfl := Option.some.inj hi1
      obtain ⟨j', q1, q2, q3, q4, q5⟩ := hgobj g j hg hj
      exact ⟨i, g, f, by rw [hb.out x i hi hf], hg, ⟨j', q1, by rw [q2, k1], by rw [q3, k2], hjr.same q2 q3 q4 q5⟩, ha⟩
    refine ⟨hI1, ?_⟩
    rintro (h1 | ⟨⟨i1, hi1, hn1⟩, h1⟩)
    · exact .inl (hI1 h1)
    · refine .inr ⟨⟨i, by rw [hb.out x i hi hf], fun g j s hg hj hs => ?_⟩, by rw [hsh]; exact h1⟩
      rw [hi] at hi1
      obtain rfl := Option.some.inj hi1
      obtain ⟨j0, hj0, _⟩ := hI.grad x i g hx hi hg
      obtain ⟨j', q1, q2, q3, q4, q5⟩ := hgobj g j0 hg hj0
      rw [q1] at hj
      obtain rfl := Option.some.inj hj
      rw [q4, q5] at hs
      exact hn1 g j0 s hg hj0 hs

end INNC
