import Verif.Lemmas.TrackBack
import Verif.Spec.Graph
import Mathlib.Algebra.Order.BigOperators.Group.Finset
import Mathlib.Logic.Function.Basic
/-
The scheduling of back-propagation.
-/
namespace INNC
open Spec Tensor
variable {F : Type}

/-! ### Queues -/

/-- `visit` on each element of a list, in order. -/
def visits (visit : Nat → M F (List Nat)) (l : List Nat) : M F Unit := runAll (fun x => visit x >>= fun _ => pure ()) l

theorem visits_cons (visit : Nat → M F (List Nat)) (x : Nat) (l : List Nat) :
    visits visit (x :: l) = (visit x >>= fun _ => visits visit l) := by
  show ((visit x >>= fun _ => pure ()) >>= fun _ => visits visit l) = _
  rw [bind_assoc]; rfl

theorem visits_append (visit : Nat → M F (List Nat)) (a b : List Nat) :
    visits visit (a ++ b) = (visits visit a >>= fun _ => visits visit b) := by
  induction a with
  | nil => rfl
  | cons x a ih => rw [List.cons_append, visits_cons, visits_cons, bind_assoc, ih]

/-- The queue loop visits the elements of some list in order; `Inv P Q` holds whenever `P` has been processed and `Q` is
the queue. If a visit fails, so does the loop. -/
theorem queueLoop_visits {visit : Nat → M F (List Nat)} {Inv : List Nat → List Nat → Heap F → Prop} {N : Nat}
    (hlen : ∀ P Q h, Inv P Q h → P.length + Q.length ≤ N)
    (hstep : ∀ P x Q h new h', Inv P (x :: Q) h → visit x h = .ok new h' → Inv (P ++ [x]) (Q ++ new) h') :
    ∀ (n : Nat) (P Q : List Nat) (h : Heap F), Inv P Q h → N < n + P.length →
      (∃ l h', visits visit l h = .ok () h' ∧ queueLoop visit n Q h = .ok () h' ∧ Inv (P ++ l) [] h') ∨
      (∃ l x Q' h', visits visit l h = .ok () h' ∧ Inv (P ++ l) (x :: Q') h' ∧ (∀ new h'', visit x h' ≠ .ok new h'') ∧
        queueLoop visit n Q h = visits visit (l ++ [x]) h)
  | n, P, [], h, hi, _ => Or.inl ⟨[], h, rfl, by cases n <;> rfl, by simpa using hi⟩
  | 0, P, x :: Q, h, hi, hn => by
    have := hlen _ _ _ hi
    simp only [List.length_cons] at this
    omega
  | n + 1, P, x :: Q, h, hi, hn => by
    have e : queueLoop visit (n + 1) (x :: Q) h = (visit x >>= fun new => queueLoop visit n (Q ++ new)) h := rfl
    have v1 : ∀ l, visits visit (x :: l) h = (visit x >>= fun _ => visits visit l) h := fun l => by rw [visits_cons]
    cases hv : visit x h with
    | ok new h' =>
      rw [M.bind_ok hv] at e
      rw [e]
      rcases queueLoop_visits hlen hstep n (P ++ [x]) (Q ++ new) h' (hstep _ _ _ _ _ _ hi hv) (by simp; omega) with
        ⟨l, h'', e1, e2, e3⟩ | ⟨l, y, Q', h'', e1, e2, e3, e4⟩
      · refine Or.inl ⟨x :: l, h'', by rw [v1, M.bind_ok hv]; exact e1, e2, by simpa using e3⟩
      · refine Or.inr ⟨x :: l, y, Q', h'', by rw [v1, M.bind_ok hv]; exact e1, by simpa using e2, e3, ?_⟩
        rw [List.cons_append, v1, M.bind_ok hv]; exact e4
    | throw ex h' =>
      refine Or.inr ⟨[], x, Q, h, rfl, by simpa using hi, by simp [hv], ?_⟩
      rw [e, List.nil_append, v1, M.bind_throw hv, M.bind_throw hv]
    | ub u =>
      refine Or.inr ⟨[], x, Q, h, rfl, by simpa using hi, by simp [hv], ?_⟩
      rw [e, List.nil_append, v1, M.bind_ub hv, M.bind_ub hv]

/-! ### Counters -/

/-- `h` is `h0` with the counters `nOutway` and `backVersion` of the interior tensors replaced. -/
structure Stamped (h0 h : Heap F) (n v : Nat → Nat) : Prop where
  st : h.st = h0.st
  len : h.ts.length = h0.ts.length
  at_ : ∀ (x : Nat) (i : Impl), h0.ts[x]? = some i →
    h.ts[x]? = some { i with gradFn := i.gradFn.map fun g => { g with nOutway := n x, backVersion := v x } }

def nOf (h : Heap F) (x : Nat) : Nat := match opOf h x with | some g => g.nOutway | none => 0
def vOf (h : Heap F) (x : Nat) : Nat := match opOf h x with | some g => g.backVersion | none => 0

theorem opOf_some {h : Heap F} {x : Nat} {i : Impl} (hi : h.ts[x]? = some i) : opOf h x = i.gradFn := by
  unfold opOf; rw [hi]; rfl

theorem stamped_refl (h : Heap F) : Stamped h h (nOf h) (vOf h) := by
  refine ⟨rfl, rfl, fun x i hi => ?_⟩
  rw [hi]
  unfold nOf vOf
  rw [opOf_some hi]
  obtain ⟨a, b, c, d, e, f, g⟩ := i
  cases g <;> rfl

theorem Stamped.none {h0 h : Heap F} {n v : Nat → Nat} (hs : Stamped h0 h n v) {x : Nat} (hx : h0.ts[x]? = none) :
    h.ts[x]? = none := by
  rw [List.getElem?_eq_none_iff] at *
  rw [hs.len]; exact hx

theorem Stamped.opOf {h0 h : Heap F} {n v : Nat → Nat} (hs : Stamped h0 h n v) (x : Nat) :
    opOf h x = (opOf h0 x).map fun g => { g with nOutway := n x, backVersion := v x } := by
  cases hx : h0.ts[x]? with
  | none => unfold Spec.opOf; rw [hx, hs.none hx]; rfl
  | some i => rw [opOf_some (hs.at_ x i hx), opOf_some hx]

theorem Stamped.operands {h0 h : Heap F} {n v : Nat → Nat} (hs : Stamped h0 h n v) (x : Nat) :
    operands h x = operands h0 x := by
  unfold Spec.operands
  rw [hs.opOf]
  cases Spec.opOf h0 x <;> rfl

theorem Stamped.gver {h0 h : Heap F} {n v : Nat → Nat} (hs : Stamped h0 h n v) (k : Nat) :
    Stamped h0 { h with gver := k } n v := ⟨hs.st, hs.len, hs.at_⟩

theorem Stamped.congr {h0 h : Heap F} {n v n' v' : Nat → Nat} (hs : Stamped h0 h n v)
    (hn : ∀ x, Interior h0 x → n' x = n x) (hv : ∀ x, Interior h0 x → v' x = v x) : Stamped h0 h n' v' := by
  refine ⟨hs.st, hs.len, fun x i hi => ?_⟩
  rw [hs.at_ x i hi]
  cases hg : i.gradFn with
  | none => rfl
  | some g =>
    have : Interior h0 x := by unfold Interior; rw [opOf_some hi, hg]; rfl
    rw [hn x this, hv x this]

theorem setGF_ok {h : Heap F} {x : Nat} {i : Impl} (hi : h.ts[x]? = some i) (g : GradFn) :
    setGF x g h = .ok () { h with ts := h.ts.set x { i with gradFn := some g } } := by
  unfold setGF
  rw [M.bind_ok (getT_ok hi)]
  rfl

/-- Writing the counters of one interior tensor. -/
theorem Stamped.setGF {h0 h : Heap F} {n v : Nat → Nat} (hs : Stamped h0 h n v) {x : Nat} {i : Impl} {g : GradFn}
    (hi : h0.ts[x]? = some i) (hg : i.gradFn = some g) (a b : Nat) :
    ∃ h', setGF x { g with nOutway := a, backVersion := b } h = .ok () h' ∧
      Stamped h0 h' (Function.update n x a) (Function.update v x b) ∧ h'.gver = h.gver := by
  have hx := hs.at_ x i hi
  refine ⟨_, setGF_ok hx _, ⟨hs.st, by simp [hs.len], fun y j hj => ?_⟩, rfl⟩
  simp only
  by_cases hxy : x = y
  · subst hxy
    rw [List.getElem?_set_self (getElem?_lt hx), Function.update_self, Function.update_self]
    rw [hi] at hj
    obtain rfl := Option.some.inj hj
    rw [hg]; rfl
  · rw [List.getElem?_set_ne hxy, hs.at_ y j hj, Function.update_of_ne (Ne.symm hxy), Function.update_of_ne (Ne.symm hxy)]


/-! ### Marking -/

/-- The interior tensors visited with version `V` are exactly those of `m`. -/
structure Marks (h0 : Heap F) (V : Nat) (m : List Nat) (v : Nat → Nat) : Prop where
  nodup : m.Nodup
  iff : ∀ x, Interior h0 x → (v x = V ↔ x ∈ m)
  le : ∀ x, Interior h0 x → v x ≤ V

theorem Marks.push {h0 : Heap F} {V : Nat} {m : List Nat} {v : Nat → Nat} (hm : Marks h0 V m v) {x : Nat}
    (hx : x ∉ m) : Marks h0 V (m ++ [x]) (Function.update v x V) := by
  refine ⟨?_, fun y hy => ?_, fun y hy => ?_⟩
  · rw [List.nodup_append]
    refine ⟨hm.nodup, by simp, fun a ha b hb => ?_⟩
    rw [List.mem_singleton] at hb
    rintro rfl
    exact hx (hb ▸ ha)
  · by_cases h : y = x
    · subst h; simp
    · rw [Function.update_of_ne h, hm.iff y hy]; simp [h]
  · by_cases h : y = x
    · subst h; simp
    · rw [Function.update_of_ne h]; exact hm.le y hy

/-- The tensors of a list. -/
def Exist (h0 : Heap F) (xs : List Nat) : Prop := ∀ x ∈ xs, x < h0.ts.length

theorem resetInputs_ok {h0 : Heap F} {V : Nat} : ∀ (xs : List Nat), Exist h0 xs → ∀ (m : List Nat) (n v : Nat → Nat) (h : Heap F),
    Stamped h0 h n v → h.gver = V → Marks h0 V m v →
    ∃ new h' n' v', resetInputs xs h = .ok new h' ∧ Stamped h0 h' n' v' ∧ h'.gver = V ∧ Marks h0 V (m ++ new) v' ∧
      (∀ y ∈ new, y ∈ xs ∧ Interior h0 y) ∧ (∀ y ∈ xs, Interior h0 y → y ∈ m ++ new) ∧
      (∀ y ∈ new, n' y = 0) ∧ (∀ y, y ∉ new → n' y = n y)
  | [], _, m, n, v, h, hs, hV, hm => ⟨[], h, n, v, rfl, hs, hV, by simpa using hm, by simp, by simp, by simp, by simp⟩
  | x :: xs, he, m, n, v, h, hs, hV, hm => by
    have hxl := he x (by simp)
    have he' : Exist h0 xs := fun y hy => he y (by simp [hy])
    have hi : h0.ts[x]? = some h0.ts[x] := List.getElem?_eq_getElem hxl
    have hx := hs.at_ x _ hi
    unfold resetInputs
    rw [M.bind_ok (getT_ok hx)]
    have hv : (getVersion : M F Nat) h = .ok V h := by rw [← hV]; rfl
    rw [M.bind_ok hv]
    cases hg : h0.ts[x].gradFn with
    | none =>
      have hni : ¬ Interior h0 x := by unfold Interior; rw [opOf_some hi, hg]; simp
      obtain ⟨new, h', n', v', e, h1, h2, h3, h4, h5, h6, h7⟩ := resetInputs_ok xs he' m n v h hs hV hm
      refine ⟨new, h', n', v', e, h1, h2, h3, fun y hy => ⟨by simp [(h4 y hy).1], (h4 y hy).2⟩, fun y hy hyi => ?_, h6, h7⟩
      rcases List.mem_cons.1 hy with rfl | hy
      · exact absurd hyi hni
      · exact h5 y hy hyi
    | some g =>
      have hin : Interior h0 x := by unfold Interior; rw [opOf_some hi, hg]; rfl
      simp only [Option.map_some]
      by_cases hlt : v x < V
      · rw [if_pos hlt]
        have hxm : x ∉ m := fun hc => by have := (hm.iff x hin).2 hc; omega
        obtain ⟨h1, e1, hs1, hV1⟩ := hs.setGF hi hg 0 V
        rw [M.bind_ok e1]
        obtain ⟨new, h', n', v', e, h2, h3, h4, h5, h6, h7, h8⟩ := resetInputs_ok xs he' (m ++ [x]) _ _ h1 hs1
          (by rw [hV1, hV]) (hm.push hxm)
        rw [M.bind_ok e]
        refine ⟨x :: new, h', n', v', rfl, h2, h3, by simpa using h4, fun y hy => ?_, fun y hy hyi => ?_, fun y hy => ?_, fun y hy => ?_⟩
        · rcases List.mem_cons.1 hy with rfl | hy
          · exact ⟨by simp, hin⟩
          · exact ⟨by simp [(h5 y hy).1], (h5 y hy).2⟩
        · rcases List.mem_cons.1 hy with rfl | hy
          · simp
          · have := h6 y hy hyi
            simpa [List.append_assoc] using this
        · by_cases hyn : y ∈ new
          · exact h7 y hyn
          · obtain rfl : y = x := by simpa [hyn] using hy
            rw [h8 y hyn, Function.update_self]
        · have hyn : y ∉ new := fun hc => hy (by simp [hc])
          rw [h8 y hyn, Function.update_of_ne (by rintro rfl; exact hy (by simp))]
      · rw [if_neg hlt]
        have hxm : x ∈ m := (hm.iff x hin).1 (by have := hm.le x hin; omega)
        obtain ⟨new, h', n', v', e, h1, h2, h3, h4, h5, h6, h7⟩ := resetInputs_ok xs he' m n v h hs hV hm
        refine ⟨new, h', n', v', e, h1, h2, h3, fun y hy => ⟨by simp [(h4 y hy).1], (h4 y hy).2⟩, fun y hy hyi => ?_, h6, h7⟩
        rcases List.mem_cons.1 hy with rfl | hy
        · simp [hxm]
        · exact h5 y hy hyi

theorem countInputs_ok {h0 : Heap F} {V : Nat} : ∀ (xs : List Nat), Exist h0 xs → ∀ (m : List Nat) (n v : Nat → Nat) (h : Heap F),
    Stamped h0 h n v → h.gver = V → Marks h0 V m v →
    ∃ new h' v', countInputs xs h = .ok new h' ∧ Stamped h0 h' (fun y => n y + xs.count y) v' ∧ h'.gver = V ∧
      Marks h0 V (m ++ new) v' ∧ (∀ y ∈ new, y ∈ xs ∧ Interior h0 y) ∧ (∀ y ∈ xs, Interior h0 y → y ∈ m ++ new)
  | [], _, m, n, v, h, hs, hV, hm => ⟨[], h, v, rfl, by simpa using hs, hV, by simpa using hm, by simp, by simp⟩
  | x :: xs, he, m, n, v, h, hs, hV, hm => by
    have hxl := he x (by simp)
    have he' : Exist h0 xs := fun y hy => he y (by simp [hy])
    have hi : h0.ts[x]? = some h0.ts[x] := List.getElem?_eq_getElem hxl
    have hx := hs.at_ x _ hi
    have hcount : ∀ y, y ≠ x → (x :: xs).count y = xs.count y := fun y hy => by
      rw [List.count_cons_of_ne (Ne.symm hy)]
    have hcount1 : (x :: xs).count x = xs.count x + 1 := by rw [List.count_cons_self]
    unfold countInputs
    rw [M.bind_ok (getT_ok hx)]
    have hv : (getVersion : M F Nat) h = .ok V h := by rw [← hV]; rfl
    rw [M.bind_ok hv]
    cases hg : h0.ts[x].gradFn with
    | none =>
      have hni : ¬ Interior h0 x := by unfold Interior; rw [opOf_some hi, hg]; simp
      obtain ⟨new, h', v', e, h1, h2, h3, h4, h5⟩ := countInputs_ok xs he' m n v h hs hV hm
      refine ⟨new, h', v', e, h1.congr (fun y hy => ?_) (fun _ _ => rfl), h2, h3,
        fun y hy => ⟨by simp [(h4 y hy).1], (h4 y hy).2⟩, fun y hy hyi => ?_⟩
      · rw [hcount y (by rintro rfl; exact hni hy)]
      · rcases List.mem_cons.1 hy with rfl | hy
        · exact absurd hyi hni
        · exact h5 y hy hyi
    | some g =>
      have hin : Interior h0 x := by unfold Interior; rw [opOf_some hi, hg]; rfl
      simp only [Option.map_some]
      have hsum : ∀ y, Function.update n x (n x + 1) y + xs.count y = n y + (x :: xs).count y := fun y => by
        by_cases hy : y = x
        · subst hy; rw [Function.update_self, hcount1]; omega
        · rw [Function.update_of_ne hy, hcount y hy]
      by_cases hlt : v x < V
      · rw [if_pos hlt]
        have hxm : x ∉ m := fun hc => by have := (hm.iff x hin).2 hc; omega
        obtain ⟨h1, e1, hs1, hV1⟩ := hs.setGF hi hg (n x + 1) V
        rw [M.bind_ok e1]
        obtain ⟨new, h', v', e, h2, h3, h4, h5, h6⟩ := countInputs_ok xs he' (m ++ [x]) _ _ h1 hs1
          (by rw [hV1, hV]) (hm.push hxm)
        rw [M.bind_ok e]
        refine ⟨x :: new, h', v', rfl, h2.congr (fun y _ => (hsum y).symm) (fun _ _ => rfl), h3, by simpa using h4, fun y hy => ?_, fun y hy hyi => ?_⟩
        · rcases List.mem_cons.1 hy with rfl | hy
          · exact ⟨by simp, hin⟩
          · exact ⟨by simp [(h5 y hy).1], (h5 y hy).2⟩
        · rcases List.mem_cons.1 hy with rfl | hy
          · simp
          · have := h6 y hy hyi
            simpa [List.append_assoc] using this
      · rw [if_neg hlt]
        have hvx : v x = V := by have := hm.le x hin; omega
        have hxm : x ∈ m := (hm.iff x hin).1 hvx
        obtain ⟨h1, e1, hs1, hV1⟩ := hs.setGF hi hg (n x + 1) (v x)
        rw [M.bind_ok e1, Function.update_eq_self] at *
        obtain ⟨new, h', v', e, h2, h3, h4, h5, h6⟩ := countInputs_ok xs he' m _ _ h1 hs1 (by rw [hV1, hV]) hm
        refine ⟨new, h', v', e, h2.congr (fun y _ => (hsum y).symm) (fun _ _ => rfl), h3, h4,
          fun y hy => ⟨by simp [(h5 y hy).1], (h5 y hy).2⟩, fun y hy hyi => ?_⟩
        rcases List.mem_cons.1 hy with rfl | hy
        · simp [hxm]
        · exact h6 y hy hyi

/-! ### The two counting passes -/

theorem Spec.Interior.lt {h : Heap F} {x : Nat} (hx : Interior h x) : x < h.ts.length := by
  unfold Interior opOf at hx
  cases hi : h.ts[x]? with
  | none => rw [hi] at hx; simp at hx
  | some i => exact getElem?_lt hi

theorem Spec.Interior.obj {h : Heap F} {x : Nat} (hx : Interior h x) : ∃ i g, h.ts[x]? = some i ∧ i.gradFn = some g := by
  unfold Interior at hx
  cases hi : h.ts[x]? with
  | none => have := hx; unfold Spec.opOf at this; rw [hi] at this; simp at this
  | some i =>
    rw [opOf_some hi] at hx
    cases hg : i.gradFn with
    | none => rw [hg] at hx; simp at hx
    | some g => exact ⟨i, g, rfl, hg⟩

theorem Spec.Uses.interior {h : Heap F} {x y : Nat} (hu : Uses h x y) : Interior h x := by
  unfold Uses operands at hu
  unfold Interior
  cases ho : opOf h x with
  | none => rw [ho] at hu; simp at hu
  | some g => rfl

theorem nodup_length_le {l : List Nat} {n : Nat} (hn : l.Nodup) (hl : ∀ x ∈ l, x < n) : l.length ≤ n := by
  have : List.Subperm l (List.range n) := hn.subperm fun x hx => List.mem_range.2 (hl x hx)
  simpa using this.length_le

/-- State of a breadth-first pass over the graph of `t`: `P` is done, `Q` is the queue. -/
structure Bfs (h0 : Heap F) (t V : Nat) (K : List Nat → List Nat → (Nat → Nat) → Prop) (P Q : List Nat) (h : Heap F) : Prop where
  ex : ∃ n v, Stamped h0 h n v ∧ Marks h0 V (P ++ Q) v ∧ K P (P ++ Q) n
  gver : h.gver = V
  mem : ∀ x ∈ P ++ Q, From h0 t x ∧ Interior h0 x
  root : t ∈ P ++ Q
  closed : ∀ p ∈ P, ∀ y, Uses h0 p y → Interior h0 y → y ∈ P ++ Q

theorem bfs_all {h0 : Heap F} {t V : Nat} {K : List Nat → List Nat → (Nat → Nat) → Prop} {P : List Nat} {h : Heap F}
    (hb : Bfs h0 t V K P [] h) : ∀ x, x ∈ P ↔ From h0 t x ∧ Interior h0 x := by
  intro x
  have hroot := hb.root
  have hmem := hb.mem
  have hcl := hb.closed
  rw [List.append_nil] at hroot hmem hcl
  refine ⟨hmem x, fun hx => ?_⟩
  obtain ⟨hf, hi⟩ := hx
  induction hf with
  | root => exact hroot
  | step hf hu ih => exact hcl _ (ih (Spec.Uses.interior hu)) _ hu hi

theorem bfs_run {h0 : Heap F} {t V : Nat} {K : List Nat → List Nat → (Nat → Nat) → Prop} {visit : Nat → M F (List Nat)}
    (hvisit : ∀ (x : Nat) (P Q : List Nat) (n v : Nat → Nat) (h : Heap F), Interior h0 x → Stamped h0 h n v → h.gver = V →
      Marks h0 V (P ++ x :: Q) v → K P (P ++ x :: Q) n →
      ∃ new h' n' v', visit x h = .ok new h' ∧ Stamped h0 h' n' v' ∧ h'.gver = V ∧ Marks h0 V (P ++ x :: Q ++ new) v' ∧
        K (P ++ [x]) (P ++ x :: Q ++ new) n' ∧ (∀ y ∈ new, Uses h0 x y ∧ Interior h0 y) ∧
        (∀ y, Uses h0 x y → Interior h0 y → y ∈ P ++ x :: Q ++ new))
    {h : Heap F} (hb : Bfs h0 t V K [] [t] h) {k : Nat} (hk : h0.ts.length < k) :
    ∃ P h', queueLoop visit k [t] h = .ok () h' ∧ Bfs h0 t V K P [] h' := by
  have hlen : ∀ P Q h, Bfs h0 t V K P Q h → P.length + Q.length ≤ h0.ts.length := fun P Q h hb => by
    obtain ⟨n, v, _, hm, _⟩ := hb.ex
    have := nodup_length_le hm.nodup fun x hx => (hb.mem x hx).2.lt
    simpa using this
  have one : ∀ P x Q h, Bfs h0 t V K P (x :: Q) h → ∃ new h', visit x h = .ok new h' ∧ Bfs h0 t V K (P ++ [x]) (Q ++ new) h' := by
    intro P x Q h hb
    obtain ⟨n, v, hs, hm, hK⟩ := hb.ex
    have hxm := hb.mem x (by simp)
    obtain ⟨new, h', n', v', e, h1, h2, h3, h4, h5, h6⟩ := hvisit x P Q n v h hxm.2 hs hb.gver hm hK
    have eq : P ++ [x] ++ (Q ++ new) = P ++ x :: Q ++ new := by simp
    refine ⟨new, h', e, ⟨⟨n', v', h1, by rw [eq]; exact h3, by rw [eq]; exact h4⟩, h2, ?_, ?_, ?_⟩⟩
    · rw [eq]
      intro y hy
      rcases List.mem_append.1 hy with hy | hy
      · exact hb.mem y hy
      · exact ⟨.step hxm.1 (h5 y hy).1, (h5 y hy).2⟩
    · rw [eq]; exact List.mem_append_left _ hb.root
    · rw [eq]
      intro p hp y hu hyi
      rcases List.mem_append.1 hp with hp | hp
      · exact List.mem_append_left _ (hb.closed p hp y hu hyi)
      · rw [List.mem_singleton] at hp
        subst hp
        exact h6 y hu hyi
  rcases queueLoop_visits (visit := visit) (Inv := Bfs h0 t V K) hlen
    (fun P x Q h new h' hi hv => by
      obtain ⟨new', h'', e, hb'⟩ := one P x Q h hi
      rw [hv] at e
      injection e with e1 e2
      subst e1; subst e2
      exact hb') k [] [t] h hb (by simpa using hk) with ⟨l, h', _, e, hi⟩ | ⟨l, x, Q', h', _, hi, hno, _⟩
  · exact ⟨l, h', e, by simpa using hi⟩
  · obtain ⟨new, h'', e, _⟩ := one _ _ _ _ hi
    exact absurd e (hno new h'')

/-- Number of times `y` is an operand of tensors of the list. -/
def indeg (h : Heap F) (P : List Nat) (y : Nat) : Nat := (P.map fun p => (operands h p).count y).sum

theorem indeg_append (h : Heap F) (P Q : List Nat) (y : Nat) : indeg h (P ++ Q) y = indeg h P y + indeg h Q y := by
  unfold indeg; simp
theorem indeg_singleton (h : Heap F) (p y : Nat) : indeg h [p] y = (operands h p).count y := by
  unfold indeg; simp
theorem indeg_perm (h : Heap F) {P Q : List Nat} (hp : P.Perm Q) (y : Nat) : indeg h P y = indeg h Q y :=
  (hp.map _).sum_eq

theorem getGradFn_stamped {h0 h : Heap F} {n v : Nat → Nat} (hs : Stamped h0 h n v) {x : Nat} (hx : Interior h0 x) :
    ∃ i g, h0.ts[x]? = some i ∧ i.gradFn = some g ∧ operands h0 x = g.inputs ∧
      getGradFn x h = .ok { g with nOutway := n x, backVersion := v x } h := by
  obtain ⟨i, g, hi, hg⟩ := hx.obj
  refine ⟨i, g, hi, hg, by unfold operands; rw [opOf_some hi, hg], ?_⟩
  unfold getGradFn
  rw [M.bind_ok (getT_ok (hs.at_ x i hi))]
  simp only [hg, Option.map_some]
  rfl

theorem exist_operands {h : Heap F} (hg : Graph h) {x : Nat} (hx : Interior h x) : Exist h (operands h x) :=
  fun y hy => Nat.lt_trans (hg.older x y hy) hx.lt

theorem refresh_ok {h : Heap F} {t : Nat} (hg : Graph h) (ht : Interior h t) :
    ∃ h1 R n v, refreshNOutway t h = .ok () h1 ∧ Stamped h h1 n v ∧ h1.gver = h.gver + 2 ∧
      (∀ x, Interior h x → v x ≤ h.gver + 2) ∧ R.Nodup ∧ (∀ x, x ∈ R ↔ From h t x ∧ Interior h x) ∧
      (∀ y ∈ R, n y = indeg h R y) := by
  have h0s := (stamped_refl h).gver (h.gver + 1)
  have hv0 : ∀ x, Interior h x → vOf h x ≤ h.gver := fun x hx => by
    obtain ⟨i, g, hi, hgi⟩ := hx.obj
    have : opOf h x = some g := by rw [opOf_some hi, hgi]
    unfold vOf; rw [this]; exact hg.version x g this
  -- first pass
  obtain ⟨i, g, hi, hgi, _, e1⟩ := getGradFn_stamped h0s ht
  obtain ⟨h1, e2, hs1, hV1⟩ := h0s.setGF hi hgi 0 (h.gver + 1)
  have marks1 : ∀ {v : Nat → Nat} {V : Nat}, (∀ x, Interior h x → v x < V) → Marks h V [t] (Function.update v t V) := by
    intro v V hv
    refine ⟨by simp, fun x hx => ?_, fun x hx => ?_⟩
    · by_cases hxt : x = t
      · subst hxt; simp
      · rw [Function.update_of_ne hxt]; simp only [List.mem_singleton, hxt, iff_false]
        exact Nat.ne_of_lt (hv x hx)
    · by_cases hxt : x = t
      · subst hxt; simp
      · rw [Function.update_of_ne hxt]; exact Nat.le_of_lt (hv x hx)
  obtain ⟨P1, h2, e3, hb1⟩ := bfs_run (K := fun _ m n => ∀ y ∈ m, n y = 0) (h0 := h) (t := t) (V := h.gver + 1) (h := h1)
    (visit := fun x => do resetInputs (← getGradFn x).inputs) (k := h.ts.length + 1)
    (fun x P Q n v hh hxi hs hV hm hK => by
      obtain ⟨j, gj, hj, hgj, hop, e⟩ := getGradFn_stamped hs hxi
      obtain ⟨new, h', n', v', e', a1, a2, a3, a4, a5, a6, a7⟩ := resetInputs_ok gj.inputs
        (by rw [← hop]; exact exist_operands hg hxi) _ n v hh hs hV hm
      refine ⟨new, h', n', v', by rw [M.bind_ok e]; exact e', a1, a2, a3, fun y hy => ?_, fun y hy => ?_, fun y hy hyi => ?_⟩
      · by_cases hyn : y ∈ new
        · exact a6 y hyn
        · rw [a7 y hyn]
          refine hK y ?_
          rcases List.mem_append.1 hy with hy | hy
          · exact hy
          · exact absurd hy hyn
      · exact ⟨by unfold Uses; rw [hop]; exact (a4 y hy).1, (a4 y hy).2⟩
      · unfold Uses at hy; rw [hop] at hy; exact a5 y hy hyi)
    ⟨⟨_, _, hs1, marks1 (fun x hx => Nat.lt_succ_of_le (hv0 x hx)), fun y hy => by
        rw [List.nil_append, List.mem_singleton] at hy
        subst hy; simp⟩, hV1, fun x hx => by
        rw [List.nil_append, List.mem_singleton] at hx
        subst hx; exact ⟨.root, ht⟩, by simp, by simp⟩ (Nat.lt_succ_self _)
  obtain ⟨n2, v2, hs2, hm2, hK2⟩ := hb1.ex
  have hall1 := bfs_all hb1
  -- second pass
  have hs2' := hs2.gver (h.gver + 2)
  obtain ⟨i', g', hi', hgi', _, e4⟩ := getGradFn_stamped hs2' ht
  rw [hi] at hi'
  obtain rfl := Option.some.inj hi'
  rw [hgi] at hgi'
  obtain rfl := Option.some.inj hgi'
  obtain ⟨h3, e5, hs3, hV3⟩ := hs2'.setGF hi hgi (n2 t) (h.gver + 2)
  rw [Function.update_eq_self] at hs3
  obtain ⟨P2, h4, e6, hb2⟩ := bfs_run (K := fun P _ n => ∀ y, Interior h y → n y = n2 y + indeg h P y) (h0 := h) (t := t)
    (V := h.gver + 2) (h := h3) (visit := fun x => do countInputs (← getGradFn x).inputs) (k := h.ts.length + 1)
    (fun x P Q n v hh hxi hs hV hm hK => by
      obtain ⟨j, gj, hj, hgj, hop, e⟩ := getGradFn_stamped hs hxi
      obtain ⟨new, h', v', e', a1, a2, a3, a4, a5⟩ := countInputs_ok gj.inputs
        (by rw [← hop]; exact exist_operands hg hxi) _ n v hh hs hV hm
      refine ⟨new, h', _, v', by rw [M.bind_ok e]; exact e', a1, a2, a3, fun y hy => ?_, fun y hy => ?_, fun y hy hyi => ?_⟩
      · show _ = _
        rw [hK y hy, indeg_append, indeg_singleton, hop]; omega
      · exact ⟨by unfold Uses; rw [hop]; exact (a4 y hy).1, (a4 y hy).2⟩
      · unfold Uses at hy; rw [hop] at hy; exact a5 y hy hyi)
    ⟨⟨_, _, hs3, marks1 (fun x hx => Nat.lt_succ_of_le (hm2.le x hx)), fun y hy => by simp [indeg]⟩, hV3, fun x hx => by
        rw [List.nil_append, List.mem_singleton] at hx
        subst hx; exact ⟨.root, ht⟩, by simp, by simp⟩ (Nat.lt_succ_self _)
  obtain ⟨n4, v4, hs4, hm4, hK4⟩ := hb2.ex
  have hall2 := bfs_all hb2
  rw [List.append_nil] at hm4 hK2
  refine ⟨h4, P2, n4, v4, ?_, hs4, hb2.gver, hm4.le, hm4.nodup, hall2, fun y hy => ?_⟩
  · unfold refreshNOutway
    have a1 : (heapSize : M F Nat) h = .ok h.ts.length h := rfl
    have a2 : (bumpVersion : M F Nat) h = .ok (h.gver + 1) { h with gver := h.gver + 1 } := rfl
    have a3 : (bumpVersion : M F Nat) h2 = .ok (h.gver + 2) { h2 with gver := h.gver + 2 } := by
      have := hb1.gver
      unfold bumpVersion; rw [this]
    rw [M.bind_ok a1, M.bind_ok a2, M.bind_ok e1, M.bind_ok e2, M.bind_ok e3, M.bind_ok a3, M.bind_ok e4, M.bind_ok e5]
    exact e6
  · rw [hK4 y ((hall2 y).1 hy).2, hK2 y ((hall1 y).2 ((hall2 y).1 hy)), Nat.zero_add]

end INNC
