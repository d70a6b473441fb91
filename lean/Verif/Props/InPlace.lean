import Verif.Lemmas.InPlace
import Verif.Props.Accum
import Verif.Lemmas.Laws
/-
C64 (in-place addition of operands that share memory).
-/
namespace INNC
open Spec Tensor
variable {F : Type} [FOps F] {h : Heap F} {a b : Nat} {da db : DType} {sa sb : List Nat} {fa fb g : List Nat → Val F}

/-- **C64.** What `a += b` does, for any shapes and any sharing of memory between `a`, `b` and other tensors. Number the places
at which the elements of `a` and `b` lie and let `m` be the memory. The pairs of elements are added one by one in row-major order
of the common shape, each reading the memory the earlier ones have left. If all can be added the call returns; if an index has no
element in one of the operands it throws `std::runtime_error` there; if a sum has no value the behaviour is undefined. When it
returns or throws, `a`, `b` and every other tensor read the memory at that point; elements at no place of `a` have not changed. -/
theorem C64_effect {p q : List Nat → Nat} {m : Nat → Val F} (ha : Denotes h a da sa fun i => m (p i))
    (hb : Denotes h b db sb fun j => m (q j)) (hgr : ∀ i, h.ts[a]? = some i → i.requiresGrad = false)
    (hn : Numbered h a b sa sb p q) :
    match addEach da db sa sb p q (rowMajor (maxShape sa sb)) m with
    | .done m' => ∃ h', addAssign a b h = .ok () h' ∧ Changed h h' a b da db sa sb p q m'
    | .rejected m' => ∃ h', addAssign a b h = .throw .runtime h' ∧ Changed h h' a b da db sa sb p q m'
    | .undefined => ∃ u, addAssign a b h = .ub u ∧ ByValue u :=
  addAssign_each ha hb hgr hn

/-- **C64**: places can be numbered as `C64_effect` asks, whatever `a` and `b` are. -/
theorem C64_numbered (ha : Denotes h a da sa fa) (hb : Denotes h b db sb fb) :
    ∃ (p q : List Nat → Nat) (m : Nat → Val F), Numbered h a b sa sb p q ∧ (Denotes h a da sa fun i => m (p i)) ∧
      Denotes h b db sb fun j => m (q j) := by
  obtain ⟨p, q, m, h1, h2, h3⟩ := exists_numbered ha hb
  exact ⟨p, q, m, h1, ha.congr fun i hi => (h2 i hi).symm, hb.congr fun j hj => (h3 j hj).symm⟩

/-- **C64**: if no element of `b` is at the place of an element of `a`, for instance for two rows of one matrix, `a += b` adds to each
element of `a` the elements of `b` that broadcasting pairs with it, as for tensors on different storages (C32, C09). -/
theorem C64_separate {s : List Nat} (ha : Denotes h a da sa fa) (hb : Denotes h b db sb fb)
    (hsep : ∀ i j, ¬ SamePlace h a i b j) (hgr : ∀ i, h.ts[a]? = some i → i.requiresGrad = false) (hs : bshape sa sb = some s)
    (hstr : ¬ stretched sa sb) (hinj : Distinct h a)
    (hg : ∀ idx, InBox sa idx → accumAt da db sa sb s fa fb idx = some (g idx)) :
    ∃ h', addAssign a b h = .ok () h' ∧ h'.ts = h.ts ∧ Denotes h' a da sa g ∧ Denotes h' b db sb fb ∧
      ∀ t dt st f, Denotes h t dt st f → ∃ f', Denotes h' t dt st f' ∧ ∀ idx, InBox st idx →
        (∀ k, SamePlace h t idx a k → f' idx = g k) ∧ ((∀ k, ¬ SamePlace h t idx a k) → f' idx = f idx) := by
  obtain ⟨p, q, m, hn, hpa, hqb⟩ := exists_numbered ha hb
  have hinj' : ∀ i i', InBox sa i → InBox sa i' → p i = p i' → i = i' := by
    intro i i' hi hi' e
    obtain ⟨x, y, hx, hy, _, h1, h2, h3⟩ := (hn.left i i' hi hi').1 e
    rw [hx] at hy
    obtain rfl := Option.some.inj hy
    exact hinj x hx i i' h1 h2 h3
  have hsep' : ∀ i j, InBox sa i → InBox sb j → p i ≠ q j := fun i j hi hj e => hsep i j ((hn.both i j hi hj).1 e)
  have he := C64_effect (ha.congr fun i hi => (hpa i hi).symm) (hb.congr fun j hj => (hqb j hj).symm) hgr hn
  obtain ⟨m', e, hm'⟩ := addEach_separate (da := da) (db := db) (fb := fb) (g := g) hinj' hsep' (rowMajor (maxShape sa sb)) m
    (fun k hk => by
      rw [maxShape_eq hs hstr] at hk
      have hk := mem_rowMajor.1 hk
      exact ⟨project_inBox_left hs hk, project_inBox_right hs hk⟩) hqb
    (fun idx hi => by rw [maxShape_eq hs hstr, hpa idx hi]; exact hg idx hi)
  rw [e] at he
  obtain ⟨h', e', c1, c2, c3, c4⟩ := he
  have hall : ∀ t dt st f, Denotes h t dt st f → ∃ f', Denotes h' t dt st f' ∧ ∀ idx, InBox st idx →
      (∀ k, SamePlace h t idx a k → f' idx = g k) ∧ ((∀ k, ¬ SamePlace h t idx a k) → f' idx = f idx) := by
    intro t dt st f ht
    obtain ⟨f', hf', hv⟩ := c4 t dt st f ht
    refine ⟨f', hf', fun idx hi => ⟨fun k hk => ?_, (hv idx hi).2⟩⟩
    have hkb : InBox sa k := by
      obtain ⟨x, y, hx, hy, _, _, h3, _⟩ := hk
      obtain ⟨z, hz, _, hzs, _⟩ := ha
      rw [hy] at hz
      obtain rfl := Option.some.inj hz
      rw [← hzs]; exact h3
    rw [(hv idx hi).1 k hk, hm' k hkb]
  refine ⟨h', e', c1, c2.congr fun i hi => hm' i hi, ?_, hall⟩
  obtain ⟨f', hf', hv⟩ := hall b db sb fb hb
  refine hf'.congr fun j hj => (hv j hj).2 fun k hk => hsep k j ?_
  obtain ⟨x, y, hx, hy, h1, h2, h3, h4⟩ := hk
  exact ⟨y, x, hy, hx, h1.symm, h3, h2, h4.symm⟩

/-- **C64**: let `b` broadcast to the shape of `a`. If no element of `b` is read after it was overwritten, that is if the element of `b`
paired with index `k` is not at the place of an element of `a` before `k` in row-major order, then `a += b` adds the elements that `b`
had before the call. -/
theorem C64_in_order (ha : Denotes h a da sa fa) (hb : Denotes h b db sb fb) (hgr : ∀ i, h.ts[a]? = some i → i.requiresGrad = false)
    (hs : bshape sa sb = some sa) (hstr : ¬ stretched sa sb) (hinj : Distinct h a)
    (hord : ∀ k k', InBox sa k → InBox sa k' → rank sa k' < rank sa k → ¬ SamePlace h a k' b (project sb k))
    (hg : ∀ idx, InBox sa idx → elemAccum da db (fa idx) (fb (project sb idx)) = some (g idx)) :
    ∃ h', addAssign a b h = .ok () h' ∧ h'.ts = h.ts ∧ Denotes h' a da sa g ∧
      ∀ t dt st f, Denotes h t dt st f → ∃ f', Denotes h' t dt st f' ∧ ∀ idx, InBox st idx →
        (∀ k, SamePlace h t idx a k → f' idx = g k) ∧ ((∀ k, ¬ SamePlace h t idx a k) → f' idx = f idx) := by
  obtain ⟨p, q, m, hn, hpa, hqb⟩ := exists_numbered ha hb
  have hinj' : ∀ i i', InBox sa i → InBox sa i' → p i = p i' → i = i' := by
    intro i i' hi hi' e
    obtain ⟨x, y, hx, hy, _, h1, h2, h3⟩ := (hn.left i i' hi hi').1 e
    rw [hx] at hy
    obtain rfl := Option.some.inj hy
    exact hinj x hx i i' h1 h2 h3
  have he := C64_effect (ha.congr fun i hi => (hpa i hi).symm) (hb.congr fun j hj => (hqb j hj).symm) hgr hn
  rw [maxShape_eq hs hstr] at he
  obtain ⟨m', e, hm', _⟩ := addEach_inOrder (da := da) (db := db) (sb := sb) (q := q) (g := g) hinj' (rowMajor sa) m
    (fun k hk => by
      have hk := mem_rowMajor.1 hk
      exact ⟨hk, project_inBox_right hs hk⟩)
    ((rowMajor_pairwise sa).imp_of_mem fun {x y} hx hy hxy => by
      have hx := mem_rowMajor.1 hx
      have hy := mem_rowMajor.1 hy
      refine ⟨fun e => by rw [e] at hxy; omega, fun e => hord y x hy hx hxy ?_⟩
      exact (hn.both x _ hx (project_inBox_right hs hy)).1 e)
    (fun k hk => by
      have hk := mem_rowMajor.1 hk
      rw [hpa k hk, hqb _ (project_inBox_right hs hk)]
      exact hg k hk)
  rw [e] at he
  obtain ⟨h', e', c1, c2, c3, c4⟩ := he
  refine ⟨h', e', c1, c2.congr fun i hi => hm' i (mem_rowMajor.2 hi), ?_⟩
  intro t dt st f ht
  obtain ⟨f', hf', hv⟩ := c4 t dt st f ht
  refine ⟨f', hf', fun idx hi => ⟨fun k hk => ?_, (hv idx hi).2⟩⟩
  have hkb : InBox sa k := by
    obtain ⟨x, y, hx, hy, _, _, h3, _⟩ := hk
    obtain ⟨z, hz, _, hzs, _⟩ := ha
    rw [hy] at hz
    obtain rfl := Option.some.inj hz
    rw [← hzs]; exact h3
  rw [(hv idx hi).1 k hk, hm' k (mem_rowMajor.2 hkb)]

/-- **C64**: `a += b` where the elements of `b` are those of `a`, place by place (`b` is `a`, or `a.detach()`): each element is added to
itself. -/
theorem C64_self (ha : Denotes h a da sa fa) (hinj : Distinct h a) (hsame : ∀ k, InBox sa k → SamePlace h a k b k)
    (hb : Denotes h b da sa fa) (hgr : ∀ i, h.ts[a]? = some i → i.requiresGrad = false)
    (hg : ∀ idx, InBox sa idx → elemAccum da da (fa idx) (fa idx) = some (g idx)) :
    ∃ h', addAssign a b h = .ok () h' ∧ h'.ts = h.ts ∧ Denotes h' a da sa g ∧
      ∀ t dt st f, Denotes h t dt st f → ∃ f', Denotes h' t dt st f' ∧ ∀ idx, InBox st idx →
        (∀ k, SamePlace h t idx a k → f' idx = g k) ∧ ((∀ k, ¬ SamePlace h t idx a k) → f' idx = f idx) := by
  refine C64_in_order ha hb hgr (bshape_self sa) (fun h => stretchRev_self _ h) hinj (fun k k' hk hk' hr hp => ?_) fun idx hi => ?_
  · rw [project_self hk] at hp
    obtain ⟨x, y, hx, hy, _, _, h3, h4⟩ := hsame k hk
    obtain ⟨x', y', hx', hy', _, h2', _, h4'⟩ := hp
    rw [hx] at hx'
    rw [hy] at hy'
    obtain rfl := Option.some.inj hx'
    obtain rfl := Option.some.inj hy'
    obtain ⟨z, hz, _, hzs, _⟩ := ha
    rw [hx] at hz
    obtain rfl := Option.some.inj hz
    have := hinj x hx k' k h2' (by rw [hzs]; exact hk) (by rw [h4', h4])
    rw [this] at hr
    omega
  · rw [project_self hi]; exact hg idx hi

/-- **C64**: shifted by one, the additions see each other. Let `x` have `n + 1` elements and let element `k` of `a` be element `k + 1`
of `x` and element `k` of `b` be element `k` of `x` (as for `x["1:"]` and `x[":-1"]`). After `a += b`, `x` holds its running sums. -/
theorem C64_running {x n : Nat} {dt : DType} {f g : Nat → Val F} (hx : Denotes h x dt [n + 1] fun i => f (i.getD 0 0)) (hinj : Distinct h x)
    (ha : Denotes h a dt [n] fun i => f (i.getD 0 0 + 1)) (hb : Denotes h b dt [n] fun i => f (i.getD 0 0))
    (hpa : ∀ k, k < n → SamePlace h a [k] x [k + 1]) (hpb : ∀ k, k < n → SamePlace h b [k] x [k])
    (hgr : ∀ i, h.ts[a]? = some i → i.requiresGrad = false) (hg0 : g 0 = f 0)
    (hg : ∀ k, k < n → elemAccum dt dt (f (k + 1)) (g k) = some (g (k + 1))) :
    ∃ h', addAssign a b h = .ok () h' ∧ Denotes h' x dt [n + 1] fun i => g (i.getD 0 0) := by
  obtain ⟨xi, hxi, _, hxs, _⟩ := id hx
  have hplace : ∀ k k', k < n + 1 → k' < n + 1 → position xi.view [k] = position xi.view [k'] → k = k' := by
    intro k k' hk hk' e
    have := hinj xi hxi [k] [k'] (by rw [hxs]; exact ⟨hk, trivial⟩) (by rw [hxs]; exact ⟨hk', trivial⟩) e
    simpa using this
  have line : ∀ i : List Nat, InBox [n] i → ∃ k, k < n ∧ i = [k] := by
    intro i hi
    match i, hi with
    | [k], hi => exact ⟨k, hi.1, rfl⟩
  have pa : ∀ k, k < n → ∃ ai, h.ts[a]? = some ai ∧ ai.data = xi.data ∧ InBox ai.view.sizes [k] ∧ position ai.view [k] = position xi.view [k + 1] := by
    intro k hk
    obtain ⟨ai, xi', h1, h2, h3, h4, _, h5⟩ := hpa k hk
    rw [hxi] at h2; obtain rfl := Option.some.inj h2
    exact ⟨ai, h1, h3, h4, h5⟩
  have pb : ∀ k, k < n → ∃ bi, h.ts[b]? = some bi ∧ bi.data = xi.data ∧ InBox bi.view.sizes [k] ∧ position bi.view [k] = position xi.view [k] := by
    intro k hk
    obtain ⟨ai, xi', h1, h2, h3, h4, _, h5⟩ := hpb k hk
    rw [hxi] at h2; obtain rfl := Option.some.inj h2
    exact ⟨ai, h1, h3, h4, h5⟩
  have hn : Numbered h a b [n] [n] (fun i => i.getD 0 0 + 1) fun i => i.getD 0 0 := by
    refine ⟨fun i i' hi hi' => ?_, fun i j hi hj => ?_⟩
    · obtain ⟨k, hk, rfl⟩ := line i hi
      obtain ⟨k', hk', rfl⟩ := line i' hi'
      obtain ⟨ai, h1, h2, h3, h4⟩ := pa k hk
      obtain ⟨ai', h1', h2', h3', h4'⟩ := pa k' hk'
      rw [h1] at h1'; obtain rfl := Option.some.inj h1'
      rw [samePlace_iff h1 h1]
      show k + 1 = k' + 1 ↔ _
      refine ⟨fun e => ?_, fun e => hplace _ _ (by omega) (by omega) (by rw [← h4, ← h4']; exact e.2.2.2)⟩
      obtain rfl : k = k' := by omega
      exact ⟨rfl, h3, h3, rfl⟩
    · obtain ⟨k, hk, rfl⟩ := line i hi
      obtain ⟨k', hk', rfl⟩ := line j hj
      obtain ⟨ai, h1, h2, h3, h4⟩ := pa k hk
      obtain ⟨bi, h1', h2', h3', h4'⟩ := pb k' hk'
      rw [samePlace_iff h1 h1']
      show k + 1 = k' ↔ _
      refine ⟨fun e => ?_, fun e => hplace _ _ (by omega) (by omega) (by rw [← h4, ← h4']; exact e.2.2.2)⟩
      subst e
      exact ⟨by rw [h2, h2'], h3, h3', by rw [h4, h4']⟩
  have he := C64_effect (m := f) ha hb hgr hn
  rw [maxShape_self, rowMajor_line] at he
  obtain ⟨m', e, hm'⟩ := addEach_running (f := f) hg0 hg n 0 f (by omega) (fun k hk => by
    by_cases h0 : k = 0
    · subst h0; rw [if_pos (Nat.le_refl _), hg0]
    · rw [if_neg (by omega)])
  rw [e] at he
  obtain ⟨h', e', c1, c2, c3, c4⟩ := he
  obtain ⟨f', hf', hv⟩ := c4 x dt _ _ hx
  refine ⟨h', e', hf'.congr fun idx hi => ?_⟩
  have : ∃ k, k < n + 1 ∧ idx = [k] := by
    match idx, hi with
    | [k], hi => exact ⟨k, hi.1, rfl⟩
  obtain ⟨k, hk, rfl⟩ := this
  cases k with
  | zero =>
    show f' [0] = g 0
    rw [(hv [0] hi).2 ?_, hg0]
    · rfl
    intro j hj
    obtain ⟨ai, xi', h2, h1, h3, h5, h4, h6⟩ := hj
    rw [hxi] at h2; obtain rfl := Option.some.inj h2
    obtain ⟨z, hz, _, hzs, _⟩ := ha
    rw [h1] at hz
    obtain rfl := Option.some.inj hz
    rw [hzs] at h4
    obtain ⟨k, hk, rfl⟩ := line j h4
    obtain ⟨ai', h1', h2', h3', h4'⟩ := pa k hk
    rw [h1] at h1'; obtain rfl := Option.some.inj h1'
    exact absurd (hplace 0 (k + 1) (by omega) (by omega) (by rw [h6, h4'])) (by omega)
  | succ k =>
    show f' [k + 1] = g (k + 1)
    obtain ⟨ai', h1', h2', h3', h4'⟩ := pa k (by omega)
    rw [(hv [k + 1] hi).1 [k] ⟨xi, ai', hxi, h1', h2'.symm, by rw [hxs]; exact hi, h3', h4'.symm⟩]
    show m' (k + 1) = _
    exact hm' _ (by omega)

/-- **C33**, what is left of it for `+=`: if `a += b` throws, it is `std::runtime_error`, and types, shapes and all elements that are not at
a place of `a` are as before (what happened to the others is said by `C64_effect`; `C33_add_assign_changes` shows that they can change). -/
theorem C33_add_assign_elsewhere {h' : Heap F} {e : Exc} (ha : Denotes h a da sa fa) (hb : Denotes h b db sb fb)
    (hr : addAssign a b h = .throw e h') : e = .runtime ∧ ∀ t dt st f, Denotes h t dt st f →
      ∃ f', Denotes h' t dt st f' ∧ ∀ idx, InBox st idx → (∀ k, ¬ SamePlace h t idx a k) → f' idx = f idx := by
  obtain ⟨i, hi, _⟩ := id ha
  cases hg : i.requiresGrad with
  | true =>
    rw [C32_requires_grad hi hg] at hr
    injection hr with h1 h2
    subst h2
    exact ⟨h1.symm, fun t dt st f ht => ⟨f, ht, fun _ _ _ => rfl⟩⟩
  | false =>
    obtain ⟨p, q, m, hn, h1, h2⟩ := C64_numbered ha hb
    have := C64_effect h1 h2 (fun i' hi' => by rw [hi] at hi'; obtain rfl := Option.some.inj hi'; exact hg) hn
    cases ho : addEach da db sa sb p q (rowMajor (maxShape sa sb)) m with
    | done m' => rw [ho] at this; obtain ⟨h2', e2, _⟩ := this; rw [hr] at e2; exact nomatch e2
    | undefined => rw [ho] at this; obtain ⟨u, e2, _⟩ := this; rw [hr] at e2; exact nomatch e2
    | rejected m' =>
      rw [ho] at this
      obtain ⟨h2', e2, hc⟩ := this
      rw [hr] at e2
      injection e2 with e1 e2
      subst e2
      refine ⟨e1, fun t dt st f ht => ?_⟩
      obtain ⟨f', hf', hv⟩ := hc.every t dt st f ht
      exact ⟨f', hf', fun idx hi => (hv idx hi).2⟩

/-! ### Non-vacuity -/

/-- The 2x3 matrix 1..6 and its transpose share all their places; a square corner would meet itself. Here: adding the matrix to itself. -/
example : ∃ h', addAssign 0 0 exHeap = .ok () h' ∧ h'.ts = exHeap.ts ∧
    Denotes h' 0 .i16 [2, 3] (fun idx => .i (2 * (3 * idx.getD 0 0 + idx.getD 1 0 + 1))) ∧
      ∀ t dt st f, Denotes exHeap t dt st f → ∃ f', Denotes h' t dt st f' ∧ ∀ idx, InBox st idx →
        (∀ k, SamePlace exHeap t idx 0 k → f' idx = .i (2 * (3 * k.getD 0 0 + k.getD 1 0 + 1))) ∧
          ((∀ k, ¬ SamePlace exHeap t idx 0 k) → f' idx = f idx) := by
  refine C64_self exHeap_a (exHeap_distinct 0 (by decide)) (fun k hk => ?_) exHeap_a (fun i hi => ?_) (forall_inBox (by decide))
  · exact ⟨_, _, rfl, rfl, rfl, hk, hk, rfl⟩
  · obtain rfl := Option.some.inj hi
    rfl

/-- The vector 1..4 (0), its tail (1), its front (2) and its last element as a one-element vector (3). -/
def exLine : Heap Int where
  st := [⟨.i32, 4, some [some (.i 1), some (.i 2), some (.i 3), some (.i 4)]⟩]
  ts := [⟨.i32, ⟨[4], [1], 0⟩, 0, none, false, false, none⟩, ⟨.i32, ⟨[3], [1], 1⟩, 0, none, false, false, none⟩,
    ⟨.i32, ⟨[3], [1], 0⟩, 0, none, false, false, none⟩, ⟨.i32, ⟨[1], [1], 3⟩, 0, none, false, false, none⟩]
  gver := 0

def exOf (n : Nat) : Val Int := .i (n + 1)

theorem exLine_x : Denotes exLine 0 .i32 [4] fun i => exOf (i.getD 0 0) :=
  ⟨_, rfl, rfl, rfl, reads_of_check (by decide) (by decide) rfl rfl rfl (by decide) (by decide) (by decide)⟩
theorem exLine_tail : Denotes exLine 1 .i32 [3] fun i => exOf (i.getD 0 0 + 1) :=
  ⟨_, rfl, rfl, rfl, reads_of_check (by decide) (by decide) rfl rfl rfl (by decide) (by decide) (by decide)⟩
theorem exLine_front : Denotes exLine 2 .i32 [3] fun i => exOf (i.getD 0 0) :=
  ⟨_, rfl, rfl, rfl, reads_of_check (by decide) (by decide) rfl rfl rfl (by decide) (by decide) (by decide)⟩
theorem exLine_last : Denotes exLine 3 .i32 [1] fun _ => exOf 3 :=
  ⟨_, rfl, rfl, rfl, reads_of_check (by decide) (by decide) rfl rfl rfl (by decide) (by decide) (by decide)⟩

theorem exLine_distinct : ∀ t < 3, Distinct exLine t := by
  intro t ht i hi
  have : ∀ t < 3, ∀ i, exLine.ts[t]? = some i → ∀ a ∈ rowMajor i.view.sizes, ∀ b ∈ rowMajor i.view.sizes,
      position i.view a = position i.view b → a = b := by
    intro t ht
    match t, ht with
    | 0, _ => intro i hi; obtain rfl := Option.some.inj hi; decide
    | 1, _ => intro i hi; obtain rfl := Option.some.inj hi; decide
    | 2, _ => intro i hi; obtain rfl := Option.some.inj hi; decide
  exact fun a b ha hb => this t ht i hi a (mem_rowMajor.2 ha) b (mem_rowMajor.2 hb)

/-- Running sums: 1, 3, 6, 10. -/
example : ∃ h', addAssign 1 2 exLine = .ok () h' ∧
    Denotes h' 0 .i32 [4] fun i => ((fun k => .i ((k + 1) * (k + 2) / 2 : Nat)) : Nat → Val Int) (i.getD 0 0) := by
  refine C64_running (n := 3) (f := exOf) (g := fun k => .i ((k + 1) * (k + 2) / 2 : Nat)) exLine_x (exLine_distinct 0 (by decide)) exLine_tail exLine_front
    (fun k hk => ?_) (fun k hk => ?_) (fun i hi => ?_) (by decide) (by decide)
  · exact ⟨_, _, rfl, rfl, rfl, ⟨hk, trivial⟩, ⟨by show k + 1 < 4; omega, trivial⟩, by simp [position, dot]; omega⟩
  · exact ⟨_, _, rfl, rfl, rfl, ⟨hk, trivial⟩, ⟨by show k < 4; omega, trivial⟩, by simp [position, dot]⟩
  · obtain rfl := Option.some.inj hi
    rfl

/-- The other way round no element is read after it was overwritten: 1+2, 2+3, 3+4. -/
example : ∃ h', addAssign 2 1 exLine = .ok () h' ∧ h'.ts = exLine.ts ∧ Denotes h' 2 .i32 [3] (fun i => .i (2 * i.getD 0 0 + 3)) ∧
      ∀ t dt st f, Denotes exLine t dt st f → ∃ f', Denotes h' t dt st f' ∧ ∀ idx, InBox st idx →
        (∀ k, SamePlace exLine t idx 2 k → f' idx = .i (2 * k.getD 0 0 + 3)) ∧ ((∀ k, ¬ SamePlace exLine t idx 2 k) → f' idx = f idx) := by
  refine C64_in_order exLine_front exLine_tail (fun i hi => ?_) (by decide) (by simp [stretched, stretchRev]) (exLine_distinct 2 (by decide))
    (fun k k' hk hk' hr hp => ?_) (forall_inBox (by decide))
  · obtain rfl := Option.some.inj hi
    rfl
  · have h0 : ∀ k ∈ rowMajor [3], ∀ k' ∈ rowMajor [3], rank [3] k' < rank [3] k →
        position ⟨[3], [1], 0⟩ k' ≠ position ⟨[3], [1], 1⟩ (project [3] k) := by decide
    obtain ⟨x, y, hx, hy, _, _, _, h4⟩ := hp
    obtain rfl := Option.some.inj hx
    obtain rfl := Option.some.inj hy
    exact h0 k (mem_rowMajor.2 hk) k' (mem_rowMajor.2 hk') hr h4

/-- The front and the last element share the storage but no place: 1+4, 2+4, 3+4. -/
example : ∃ h', addAssign 2 3 exLine = .ok () h' ∧ h'.ts = exLine.ts ∧ Denotes h' 2 .i32 [3] (fun i => .i (i.getD 0 0 + 5)) ∧
      Denotes h' 3 .i32 [1] (fun _ => exOf 3) ∧
      ∀ t dt st f, Denotes exLine t dt st f → ∃ f', Denotes h' t dt st f' ∧ ∀ idx, InBox st idx →
        (∀ k, SamePlace exLine t idx 2 k → f' idx = .i (k.getD 0 0 + 5)) ∧ ((∀ k, ¬ SamePlace exLine t idx 2 k) → f' idx = f idx) := by
  refine C64_separate (s := [3]) exLine_front exLine_last (fun i j hp => ?_) (fun i hi => ?_) (by decide) (by simp [stretched, stretchRev])
    (exLine_distinct 2 (by decide)) (forall_inBox (by decide))
  · have h0 : ∀ k ∈ rowMajor [3], ∀ k' ∈ rowMajor [1], position ⟨[3], [1], 0⟩ k ≠ position ⟨[1], [1], 3⟩ k' := by decide
    obtain ⟨x, y, hx, hy, _, h2, h3, h4⟩ := hp
    obtain rfl := Option.some.inj hx
    obtain rfl := Option.some.inj hy
    exact h0 i (mem_rowMajor.2 h2) j (mem_rowMajor.2 h3) h4
  · obtain rfl := Option.some.inj hi
    rfl

/-- The front (3 elements) and the whole (4 elements) do not fit. -/
example : thrown (addAssign 2 0 exLine) = some .runtime := by decide +kernel

/-- Along a history: `x["1:"] += x[":-1"]` leaves the running sums in `x`; `x[":-1"] += x["1:"]` the sums of neighbours; and a sum with
a shorter tensor stops half-way, having seen its own changes. -/
example : result ((do
      let x ← Tensor.full [5] .i32 (.i 1) .i32
      let a ← Tensor.slice x "1:".toList
      let b ← Tensor.slice x ":-1".toList
      addAssign a b
      Tensor.toString x : M Int (List Char)) Heap.empty) = some "[1, 2, 3, 4, 5]".toList := by decide +kernel

example : result ((do
      let x ← Tensor.full [5] .i32 (.i 1) .i32
      let a ← Tensor.slice x "1:".toList
      let b ← Tensor.slice x ":-1".toList
      addAssign b a
      Tensor.toString x : M Int (List Char)) Heap.empty) = some "[2, 2, 2, 2, 1]".toList := by decide +kernel

end INNC
