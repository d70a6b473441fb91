import Verif.Lemmas.DerivKinds
import Verif.Lemmas.Cat
/-
`step_back` of `cat` passes the segments of the gradient on to the operands.
-/
namespace INNC
open Spec Tensor
variable {F : Type} [Field F] [FOps F]

theorem inBox_modify : ∀ {s idx : List Nat} {d n k K : Nat}, InBox (s.set d n) idx → s[d]? = some K → k + n ≤ K →
    InBox s (idx.modify d (· + k))
  | [], _, _, _, _, _, _, h, _ => by simp at h
  | a :: s, i :: is, 0, n, k, K, h, hK, hle => by
    simp only [List.set_cons_zero, InBox] at h
    simp at hK; subst hK
    simp only [List.modify_zero_cons, InBox]
    exact ⟨by omega, h.2⟩
  | a :: s, i :: is, d + 1, n, k, K, h, hK, hle => by
    simp only [List.set_cons_succ, InBox] at h
    simp only [List.modify_succ_cons, InBox]
    exact ⟨h.1, inBox_modify h.2 (by simpa using hK) hle⟩
  | a :: s, [], 0, _, _, _, h, _, _ => by simp [InBox] at h
  | a :: s, [], d + 1, _, _, _, h, _, _ => by simp [InBox] at h

theorem dot_modify : ∀ {str : List Int} {idx : List Nat} {d k : Nat} {st : Int}, str[d]? = some st → d < idx.length →
    dot str (idx.modify d (· + k)) = dot str idx + st * k
  | [], _, _, _, _, h, _ => by simp at h
  | a :: s, [], _, _, _, _, h => by simp at h
  | a :: s, i :: is, 0, k, st, h, _ => by
    simp at h; subst h
    simp only [List.modify_zero_cons, dot]
    push_cast; ring
  | a :: s, i :: is, d + 1, k, st, h, hl => by
    simp only [List.modify_succ_cons, dot]
    rw [dot_modify (d := d) (k := k) (st := st) (by simpa using h) (by simpa using hl)]
    ring

theorem dot_rm_nonneg : ∀ (s idx : List Nat), 0 ≤ dot (rmStrides s) idx
  | [], _ => by simp [rmStrides, dot]
  | a :: s, [] => by simp [rmStrides, dot]
  | a :: s, i :: is => by
    simp only [rmStrides, dot]
    have := dot_rm_nonneg s is
    positivity

theorem vol_cons (a : Nat) (s : List Nat) : vol (a :: s) = a * vol s := rfl

theorem zero_notMem_of_vol : ∀ {s : List Nat}, 0 < vol s → 0 ∉ s
  | [], _ => by simp
  | a :: s, h => by
    rw [vol_cons] at h
    have h1 := Nat.pos_of_mul_pos_right h
    have h2 := zero_notMem_of_vol (Nat.pos_of_mul_pos_left h)
    simp only [List.mem_cons, not_or]
    exact ⟨by omega, h2⟩

theorem axis_le_vol : ∀ {s : List Nat} {d K : Nat}, 0 < vol s → s[d]? = some K → K ≤ vol s
  | [], _, _, _, h => by simp at h
  | a :: s, 0, K, hv, h => by
    simp at h; subst h
    rw [vol_cons] at hv ⊢
    exact Nat.le_mul_of_pos_right _ (Nat.pos_of_mul_pos_left hv)
  | a :: s, d + 1, K, hv, h => by
    rw [vol_cons] at hv ⊢
    have h1 := axis_le_vol (s := s) (d := d) (Nat.pos_of_mul_pos_left hv) (by simpa using h)
    exact le_trans h1 (Nat.le_mul_of_pos_left _ (Nat.pos_of_mul_pos_right hv))

theorem modify_modify_add (idx : List Nat) (d m k : Nat) : (idx.modify d (· + m)).modify d (· + k) = idx.modify d (· + (k + m)) := by
  rw [List.modify_modify_eq]
  congr 1
  funext i
  simp only [Function.comp]
  omega

section
variable {h : Heap F} {t : Nat} {P : List Nat} {D : Nat → Option Nat} {A : Nat → List Nat → F} {H : Heap F} {x : Nat}
  {ins : List Nat} {i0 : Impl} {u : Nat → List Nat → DualNumber F} {d K : Nat}

theorem Segments.le {R : Type} {u : Nat → List Nat → R} : ∀ {rest : List Nat} {k : Nat}, Segments h u x d k rest → (shapeOf h x)[d]? = some K → k ≤ K
  | [], k, hs, hK => by
    rw [show (shapeOf h x)[d]? = some k from hs] at hK
    injection hK with hK; omega
  | a :: rest, k, ⟨n, _, _, hs⟩, hK => by
    have := Segments.le hs hK
    omega

variable [Exact F]

theorem cat_go (hst : i0.view.strides = contigStrides i0.view.sizes) (hoff : i0.view.offset = 0) (hl : Tangent h t u)
    (hK : i0.view.sizes[d]? = some K) :
    ∀ (rest : List Nat) (s k : Nat) (D : Nat → Option Nat) (A : Nat → List Nat → F) (H : Heap F), (∀ a ∈ rest, a ∈ ins) →
      Visit h t P D A H x (.cat d) ins i0 → (∀ u, Tangent h t u → Segments h (fun y k => (u y k).snd) x d k rest) →
      ((∃ idx, InBox i0.view.sizes idx) → s = k) →
      ∃ D' A' H', catBackGo x d s rest H = .ok () H' ∧
        Moved h t P x D A H (fun u => boxSum (i0.view.sizes.set d (K - k)) fun idx =>
          A x (idx.modify d (· + k)) * (u x (idx.modify d (· + k))).snd) D' A' H' ∧
        ∀ a ∈ rest, Needs h t a → Alloc D' H' (owner h a)
  | [], s, k, D, A, H, _, hv, hseg, _ => by
    refine ⟨D, A, H, rfl, Moved.refl hv.inv fun u hu => ?_, fun a ha => by simp at ha⟩
    have hk : K = k := by
      have h1 : (shapeOf h x)[d]? = some k := hseg u hu
      rw [hv.shape, hK] at h1
      injection h1
    refine boxSum_zero fun idx hi => ?_
    rw [hk, Nat.sub_self] at hi
    obtain ⟨q, _, hq⟩ := inBox_set_lt (getElem?_lt hK) hi
    omega
  | a :: rest, s, k, D, A, H, hsub, hv, hseg, hsk => by
    obtain ⟨n, hsa, _, hrest⟩ := hseg u hl
    obtain ⟨ia, hia, sa⟩ := hv.operand (hsub a (by simp))
    rw [sa, hv.shape] at hsa
    have hle := Segments.le hrest (by rw [hv.shape]; exact hK)
    obtain ⟨f1, f2, f3⟩ := hv.ins a (hsub a (by simp))
    obtain ⟨og, jo, fo, e1, e2, e3, e4, e5, e6, e7, e8, _⟩ := hv.outGrad hl (by simp)
    obtain ⟨ix, hix, x1, x2, x3, _⟩ := hv.inv.obj hv.obj
    obtain ⟨iaH, hiaH, a1, a2, _⟩ := hv.inv.obj hia
    have hdl : d < i0.view.sizes.length := getElem?_lt hK
    obtain ⟨st, hstd⟩ : ∃ st, (contigStrides i0.view.sizes)[d]? = some st :=
      ⟨_, List.getElem?_eq_getElem (by rw [length_contigStrides]; exact hdl)⟩
    let r : Impl := ⟨i0.dtype, ⟨ia.view.sizes, i0.view.strides, wrapU (s * st)⟩, jo.data, none, false, false, none⟩
    let H1 : Heap F := { H with ts := H.ts ++ [r] }
    have hext : Extends H H1 := ⟨fun y i hi => (List.getElem?_append_left (getElem?_lt hi)).trans hi, fun _ _ h => h⟩
    have hr : Reads H1 r (fun idx => fo (idx.modify d (· + k))) := by
      obtain ⟨so, co, c1, c2, c3, c4, c5⟩ := e5.cells
      have hmod : ∀ idx, InBox ia.view.sizes idx → InBox i0.view.sizes (idx.modify d (· + k)) := fun idx hi =>
        inBox_modify (by rw [← hsa]; exact hi) hK hle
      refine ⟨?_, wrapU_lt _, ⟨so, co, c1, c2.trans e3, c3, c4, fun idx hi => ?_⟩, fun idx hi => ?_⟩
      · show i0.view.strides.length = ia.view.sizes.length
        rw [hst, length_contigStrides, hsa, List.length_set]
      · have hb := hmod idx hi
        obtain ⟨p, hp, hcp⟩ := c5 _ (by rw [e2]; exact hb)
        refine ⟨p, ?_, hcp⟩
        rw [e8 _ hb] at hp
        unfold position at hp ⊢
        have hrm := contigStrides_eq_rm (zero_notMem_of_vol (vol_pos_of_inBox hb))
          (vol_lt_of_bytes (hv.prep.bytes x i0 hv.needs.1 hv.obj))
        rw [hoff, hst, dot_modify hstd (by
          have := hb.length
          rw [List.length_modify] at this
          omega)] at hp
        have hs := hsk ⟨_, hb⟩
        show ((wrapU (s * st) : Nat) : Int) + dot i0.view.strides idx = p
        obtain ⟨m, rfl⟩ := rmStrides_nonneg (by rw [← hrm]; exact hstd)
        have h0 := dot_rm_nonneg i0.view.sizes idx
        have hplt := getElem?_lt hcp
        rw [hs, hst, hrm]
        rw [hrm] at hp
        have hmk : (m : Int) * (k : Int) = ((m * k : Nat) : Int) := by push_cast; rfl
        rw [hmk] at hp
        rw [mul_comm (k : Int) (m : Int), hmk, wrapU_natCast (by simp only [Nat.cast_zero, zero_add] at hp; omega)]
        simp only [Nat.cast_zero, zero_add] at hp
        omega
      · have := e5.typed _ (by rw [e2]; exact hmod idx hi)
        rwa [e3] at this
    have hasd : Aside h t D H1 a H.ts.length r (fun idx => fo (idx.modify d (· + k))) :=
      ⟨List.getElem?_concat_length, hr, hv.apart (by simp) (hsub a (by simp)) e6⟩
    obtain ⟨D1, A1, H2, r1, m1, o1⟩ := (hv.soft hext).inv.addTo hv.graph hv.prep hl f1 f2 f3 hv.le hia hasd (rg := ia.view.sizes)
      (broadcasts_self _)
    have m1 := m1.extends hext
    have hv2 := hv.next m1
    obtain ⟨iaH2, hiaH2, _, b2, _⟩ := hv2.inv.obj hia
    obtain ⟨D2, A2, H3, r2, m2, o2⟩ := cat_go hst hoff hl hK rest (wrapU (s + n)) (k + n) D1 A1 H2 (fun b hb => hsub b (by simp [hb])) hv2
      (fun u hu => by obtain ⟨n', q1, _, q3⟩ := hseg u hu
                      rw [sa, hv.shape, hsa] at q1
                      have : n = n' := by
                        have := congrArg (fun l => l[d]?) q1
                        simpa [List.getElem?_set_self hdl] using this
                      rw [this]; exact q3)
      (fun hne => by
        rw [hsk hne]
        obtain ⟨idx, hi⟩ := hne
        have h1 := axis_le_vol (vol_pos_of_inBox hi) hK
        have h2 := vol_lt_of_bytes (hv.prep.bytes x i0 hv.needs.1 hv.obj)
        have : ((k : Int) + (n : Int)) = ((k + n : Nat) : Int) := by push_cast; rfl
        rw [this, wrapU_natCast (by omega)])
    refine ⟨D2, A2, H3, ?_, (m1.trans m2).congr fun u hu => ?_, fun b hb hn => ?_⟩
    · unfold catBackGo
      rw [M.bind_ok (getT_ok' hix), M.bind_ok (getT_ok' hiaH)]
      rw [M.bind_ok (x := M.lift (vecAt ix.view.strides d)) (a := st) (h' := H) (by
        unfold vecAt; rw [x2, hst, hstd]; rfl)]
      rw [M.bind_ok e1, M.bind_ok (getT_ok' e4)]
      rw [M.bind_ok (x := createOn ix.dtype ⟨iaH.view.sizes, ix.view.strides, wrapU (s * st)⟩ jo.data) (a := H.ts.length) (h' := H1) (by
        unfold createOn newT; rw [x1, x2, a2])]
      rw [M.bind_ok r1, M.bind_ok (getT_ok' hiaH2)]
      rw [M.bind_ok (x := M.lift (vecAt iaH2.view.sizes d)) (a := n) (h' := H2) (by
        unfold vecAt; rw [b2, hsa, List.getElem?_set_self hdl]; rfl)]
      exact r2
    · obtain ⟨n', q1, q2, q3⟩ := hseg u hu
      have hsplit := boxSum_split i0.view.sizes d n (K - (k + n)) (fun idx =>
        A x (idx.modify d (· + k)) * (u x (idx.modify d (· + k))).snd) hdl
      rw [show n + (K - (k + n)) = K - k by omega] at hsplit
      rw [hsplit]
      congr 1
      · rw [← hsa]
        refine boxSum_congr fun idx hi => ?_
        rw [show project r.view.sizes idx = idx from project_self hi, show (u x (idx.modify d (· + k))).snd = (u a idx).snd from q2 idx (by rw [sa]; exact hi),
          e7 _ (inBox_modify (by rw [← hsa]; exact hi) hK hle)]
      · refine boxSum_congr fun idx _ => ?_
        rw [modify_modify_add, (m1.big x (le_refl _)).1]
    · rcases List.mem_cons.1 hb with rfl | hb
      · exact m2.alloc _ (o1 hn)
      · exact o2 b hb hn

theorem step_cat (hv : Visit h t P D A H x (.cat d) ins i0) (hl : Tangent h t u) {g : GradFn} (hgi : g.inputs = ins)
    (hgk : g.kind = .cat d) : Steps h t P D A H x ins (stepBack x g) := by
  obtain ⟨⟨i, hi, hcon⟩, hseg⟩ := hv.computed hl
  rw [hv.obj] at hi; injection hi with hi; subst hi
  have hst : i0.view.strides = contigStrides i0.view.sizes := by rw [hcon]; rfl
  have hoff : i0.view.offset = 0 := by rw [hcon]; rfl
  obtain ⟨K, hK⟩ : ∃ K, i0.view.sizes[d]? = some K := by
    have key : ∀ (l : List Nat) (k : Nat), Segments h (fun y k => (u y k).snd) x d k l → ∃ K, i0.view.sizes[d]? = some K := by
      intro l
      induction l with
      | nil => intro k hs; exact ⟨k, by rw [← hv.shape]; exact hs⟩
      | cons a l ih => rintro k ⟨n, _, _, hs⟩; exact ih _ hs
    exact key _ _ hseg
  obtain ⟨D', A', H', r, m, o⟩ := cat_go hst hoff hl hK ins 0 0 D A H (fun _ h => h) hv (fun u hu => (hv.computed hu).2) (fun _ => rfl)
  refine ⟨D', A', H', ?_, m.congr fun u _ => ?_, o⟩
  · unfold stepBack
    rw [hgk, hgi]
    exact r
  · rw [hv.shape, Nat.sub_zero, show i0.view.sizes.set d K = i0.view.sizes by
      obtain ⟨hd, e⟩ := List.getElem?_eq_some_iff.1 hK
      rw [← e, List.set_getElem_self]]
    refine boxSum_congr fun idx _ => ?_
    have : idx.modify d (· + 0) = idx := by
      have : (fun i : Nat => i + 0) = id := rfl
      rw [this, List.modify_id]
    rw [this]

/-- `step_back` passes the gradient on to the operands. -/
theorem step_all {kind : BackKind} (hv : Visit h t P D A H x kind ins i0) (hl : Tangent h t u) {g : GradFn} (hgi : g.inputs = ins)
    (hgk : g.kind = kind) : StepsM h t P D A H x ins (stepBack x g) := by
  cases kind with
  | add => exact hv.stepsM (by simp) (step_add hv hl hgi hgk)
  | sub => exact hv.stepsM (by simp) (step_sub hv hl hgi hgk)
  | mul => exact hv.stepsM (by simp) (step_mul hv hl hgi hgk)
  | div => exact hv.stepsM (by simp) (step_div hv hl hgi hgk)
  | sum => exact hv.stepsM (by simp) (step_sum hv hl hgi hgk)
  | mean => exact step_mean hv hl hgi hgk
  | noBack => exact hv.stepsM (by simp) (step_noBack hv hl hgi hgk)
  | clone => exact hv.stepsM (by simp) (step_clone hv hl hgi hgk)
  | cat d => exact hv.stepsM (by simp) (step_cat hv hl hgi hgk)
  | knownGrad k => exact hv.stepsM (by simp) (step_known hv hl hgi hgk)
end
end INNC
