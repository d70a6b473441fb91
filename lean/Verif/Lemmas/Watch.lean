import Verif.Lemmas.Interleave
import Verif.Lemmas.Calls
import Verif.Props.Frame
import Verif.Spec.Watch
/-
A program beside an observer.
-/
namespace INNC
open Spec Tensor
section
variable {F : Type}

/-- Objects of `k` other than those of `m` are the same in `k'`. -/
structure Spares (m : Created) (k k' : Heap F) : Prop where
  tlen : k.ts.length ≤ k'.ts.length
  slen : k.st.length ≤ k'.st.length
  ts : ∀ t, t < k.ts.length → ¬ m.ts t → k'.ts[t]? = k.ts[t]?
  st : ∀ d, d < k.st.length → ¬ m.st d → k'.st[d]? = k.st[d]?

theorem Spares.refl (m : Created) (k : Heap F) : Spares m k k := ⟨le_rfl, le_rfl, fun _ _ _ => rfl, fun _ _ _ => rfl⟩

theorem Spares.same {m : Created} {k h h' : Heap F} (H : Spares m k h) (H' : Spares m k h') (t : Nat) :
    h'.ts[t]? = h.ts[t]? ∨ m.ts t ∨ k.ts.length ≤ t := by
  by_cases h1 : m.ts t
  · exact .inr (.inl h1)
  · by_cases h2 : k.ts.length ≤ t
    · exact .inr (.inr h2)
    · exact .inl ((H'.ts t (by omega) h1).trans (H.ts t (by omega) h1).symm)

theorem frameInv_spares (m : Created) (k : Heap F) : FrameInv k (Spares m k) where
  st_len h := h.slen
  ts_len h := h.tlen
  mono {h h'} H h1 h2 := by
    refine ⟨?_, ?_, fun t ht hm => (h1 t ht).trans (H.ts t ht hm), fun d hd hm => (h2 d hd).trans (H.st d hd hm)⟩
    · by_contra hc
      have hlt : h'.ts.length < k.ts.length := by omega
      have := h1 _ hlt
      rw [List.getElem?_eq_none le_rfl, List.getElem?_eq_getElem (hlt.trans_le H.tlen)] at this
      cases this
    · by_contra hc
      have hlt : h'.st.length < k.st.length := by omega
      have := h2 _ hlt
      rw [List.getElem?_eq_none le_rfl, List.getElem?_eq_getElem (hlt.trans_le H.slen)] at this
      cases this

variable {m : Created} {k h : Heap F}

theorem Spares.setT (hh : Spares m k h) {t : Nat} (ht : m.ts t ∨ k.ts.length ≤ t) (i : Impl) :
    Post (Spares m k) (INNC.setT t i h) fun _ h' => h' = { h with ts := h.ts.set t i } := by
  refine ⟨⟨by simpa using hh.tlen, hh.slen, fun x hx hm => ?_, hh.st⟩, rfl⟩
  show (h.ts.set t i)[x]? = _
  rw [List.getElem?_set_ne (by rintro rfl; rcases ht with ht | ht; exacts [hm ht, by omega])]
  exact hh.ts x hx hm

variable [FOps F]

theorem Spares.shareGradStorage (hh : Spares m k h) {r frm : Nat} (hr : k.ts.length ≤ r) (hf : ∀ b, h.ts[frm]? = some b → b.grad ≠ none ∨ m.ts frm ∨ k.ts.length ≤ frm) :
    Post (Spares m k) (Tensor.shareGradStorage r frm h) fun _ _ => True := by
  have hI := frameInv_spares m k
  unfold Tensor.shareGradStorage
  refine post_bind (post_getT hh) fun f h1 hh1 hf1 => ?_
  obtain ⟨rfl, hf1⟩ := hf1
  have rest : ∀ (g : Nat) (H : Heap F), Spares m k H → Post (Spares m k) ((do
      let gi ← getT g
      let t ← getT r
      let g' ← createOn t.dtype t.view gi.data
      let t ← getT r
      INNC.setT r { t with grad := some g' } : M F Unit) H) fun _ _ => True := by
    intro g H hH
    refine post_bind (post_getT hH) fun gi h2 hh2 _ => post_bind (post_getT hh2) fun t h3 hh3 _ =>
      post_bind (hI.newT hh3 _) fun g' h4 hh4 _ => post_bind (post_getT hh4) fun t' h5 hh5 _ => ?_
    exact post_true (hh5.setT (.inr hr) _)
  have hf := hf f hf1
  cases hg : f.grad with
  | some g => exact rest g _ hh1
  | none =>
    have hf := hf.resolve_left fun hn => hn hg
    exact post_bind (hI.create hh1 _ _ _) fun g h2 hh2 _ => post_bind (post_getT hh2) fun f' h3 hh3 _ =>
      post_bind (hh3.setT hf _) fun _ h4 hh4 _ => rest _ _ hh4

theorem Spares.makeView (hh : Spares m k h) (dt : DType) (v : Layout) (d base : Nat)
    (hb : ∀ b, h.ts[base]? = some b → b.requiresGrad = false ∨ b.grad ≠ none ∨ m.ts base ∨ k.ts.length ≤ base) :
    Post (Spares m k) (Tensor.makeView dt v d base h) fun _ _ => True := by
  have hI := frameInv_spares m k
  unfold Tensor.makeView createOn
  refine post_bind (hI.newT hh _) fun r h1 hh1 hr => ?_
  refine post_bind (post_getT hh1) fun b h2 hh2 hb2 => ?_
  obtain ⟨rfl, hb2⟩ := hb2
  split
  · exact post_pure hh2 trivial
  · rename_i hq
    have hst : ∀ h' : Heap F, Spares m k h' → ∀ b', h'.ts[base]? = some b' → b'.grad ≠ none ∨ m.ts base ∨ k.ts.length ≤ base := by
      intro h' hh' b' hb'
      rcases hh2.same hh' base with e | e
      · cases hx : h.ts[base]? with
        | none => exact .inr (.inr (hh.tlen.trans (List.getElem?_eq_none_iff.1 hx)))
        | some b0 =>
          have := hr.2.2.2 base b0 hx
          rw [hb2] at this
          cases this
          rw [hb', hb2] at e
          cases e
          exact (hb b hx).resolve_left (by simpa using hq)
      · exact .inr e
    refine post_bind (Q := fun _ _ => True) ?_ fun _ h3 hh3 _ => post_bind (hh3.shareGradStorage hr.1 (hst _ hh3)) fun _ h4 hh4 _ => post_pure hh4 trivial
    unfold Tensor.setGradFn
    exact post_bind (post_getT hh2) fun i h3 hh3 _ => post_true (hh3.setT (.inr hr.1) _)

theorem Spares.reshapeSizes (hh : Spares m k h) (t : Nat) (s : List Nat)
    (hb : ∀ b, h.ts[t]? = some b → b.requiresGrad = false ∨ b.grad ≠ none ∨ m.ts t ∨ k.ts.length ≤ t) :
    Post (Spares m k) (Tensor.reshapeSizes t s h) fun _ _ => True := by
  have hI := frameInv_spares m k
  unfold Tensor.reshapeSizes
  dsimp only
  refine post_bind (post_getT hh) fun i h1 hh1 hi => ?_
  obtain ⟨rfl, hi⟩ := hi
  refine post_bind (post_reads (keeps_expect _) hh1) fun _ h2 hh2 e => ?_
  subst e
  have rest : ∀ H : Heap F, Spares m k H → (∀ b, H.ts[t]? = some b → b.requiresGrad = false ∨ b.grad ≠ none ∨ m.ts t ∨ k.ts.length ≤ t) →
      Post (Spares m k) ((if i.view.sizes.length < i.view.strides.length then M.undef .vecOob
    else do
    let iso ← M.lift (isometry i.view.sizes i.view.strides)
    if iso then
      let strides ← if s.length ≠ 0 then do
          let last ← M.lift (vecAt i.view.strides (i.view.strides.length - 1))
          pure (scaledStrides last s)
        else pure i.view.strides
      Tensor.makeView i.dtype ⟨s, strides, i.view.offset⟩ i.data t
    else do
      let m ← Tensor.clone t
      let mi ← getT m
      Tensor.makeView i.dtype (Layout.contig s) mi.data m : M F Nat) H) fun _ _ => True := by
    intro H hH hb
    split
    · trivial
    refine post_bind (post_reads (keeps_lift _) hH) fun iso h3 hh3 e => ?_
    subst e
    split
    · split
      · refine post_bind (post_reads (keeps_lift _) hh3) fun _ h4 hh4 e => ?_
        subst e
        exact hh4.makeView _ _ _ _ hb
      · exact hh3.makeView _ _ _ _ hb
    · exact post_bind (hI.clone hh3 t) fun r h4 hh4 hm => post_bind (post_getT hh4) fun mi h5 hh5 _ =>
        hh5.makeView _ _ _ _ fun _ _ => .inr (.inr (.inr hm.1))
  split
  · refine post_bind (hh2.makeView _ _ _ _ hb) fun r h3 hh3 _ => ?_
    rw [M.bind_ok (M.pure_run _ _)]
    cases hq : i.requiresGrad with
    | false => exact post_pure hh3 trivial
    | true =>
      refine rest _ hh3 fun b' hb' => .inr ?_
      rcases hh2.same hh3 t with e | e
      · rw [hb', hi] at e
        cases e
        exact (hb i hi).resolve_left (by simp [hq])
      · exact .inr e
  · rw [M.bind_ok (M.pure_run _ _)]
    exact rest _ hh2 hb

/-- A call of the observer. -/
theorem spares_call {us : List (Option Nat)} {c : Call F} (hl : Looks k m us c) : Post (Spares m k) (callOn us c k) fun _ _ => True := by
  have hI := frameInv_spares m k
  have hh := Spares.refl m k
  have Q : ∀ {c : Call F}, Queries c = true → Post (Spares m k) (c.run k) fun _ _ => True := fun {c} hq => by
    have := queries_keeps (R := fun a b : Heap F => b = a) hq k
    revert this
    cases c.run k with
    | ok a h' => intro e; rw [show h' = k from e]; exact ⟨hh, trivial⟩
    | throw x h' => intro e; rw [show h' = k from e]; exact hh
    | ub u => exact fun _ => trivial
  unfold callOn
  split
  · trivial
  have hat : ∀ {u i}, k.ts[(ptr us u).getD k.ts.length]? = some i → ptr us u = some ((ptr us u).getD k.ts.length) := fun {u i} e => by
    cases hp : ptr us u with
    | none => rw [hp] at e; simp at e
    | some t => rfl
  have hv : ∀ {u : Nat}, (∀ t i, ptr us u = some t → k.ts[t]? = some i → i.requiresGrad = false ∨ i.grad ≠ none ∨ m.ts t) →
      ∀ b, k.ts[(ptr us u).getD k.ts.length]? = some b →
        b.requiresGrad = false ∨ b.grad ≠ none ∨ m.ts ((ptr us u).getD k.ts.length) ∨ k.ts.length ≤ (ptr us u).getD k.ts.length :=
    fun H b hb => (H _ b (hat hb) hb).imp_right (·.imp_right .inl)
  split
  · rename_i v _
    cases ptr us v with
    | none => exact ⟨hh, trivial⟩
    | some t => exact Q (c := .toString t) rfl
  · by_cases hc : Computes c = true
    · have hc' : ∀ σ, Computes (c.on σ) = true := fun σ => by cases c <;> first | rfl | (simp [Computes] at hc; done)
      exact post_true (computes_post hI (hc' _) hh)
    by_cases hq : Queries c = true
    · have hc' : ∀ σ, Queries (c.on σ) = true := fun σ => by cases c <;> first | rfl | (simp [Queries] at hq; done)
      exact Q (hc' _)
    cases c <;> first | (exact absurd rfl hc) | (exact absurd rfl hq) | exact hl.elim | skip
    case slice u s =>
      refine post_true (post_some' (Q := fun _ _ => True) ?_)
      unfold Tensor.slice
      refine post_bind (post_getT hh) fun i h1 hh1 hi => ?_
      obtain ⟨rfl, hi⟩ := hi
      refine post_bind (post_reads (keeps_lift _) hh1) fun v h2 hh2 e => ?_
      subst e
      exact hh2.makeView _ _ _ _ (hv hl)
    case transpose u a b =>
      refine post_true (post_some' (Q := fun _ _ => True) ?_)
      unfold Tensor.transpose
      refine post_bind (post_getT hh) fun i h1 hh1 hi => ?_
      obtain ⟨rfl, hi⟩ := hi
      refine post_bind (post_reads (keeps_lift _) hh1) fun v h2 hh2 e => ?_
      subst e
      exact hh2.makeView _ _ _ _ (hv hl)
    case reshape u s =>
      refine post_true (post_some' (Q := fun _ _ => True) ?_)
      unfold Tensor.reshape
      refine post_bind (post_getT hh) fun i h1 hh1 hi => ?_
      obtain ⟨rfl, hi⟩ := hi
      refine post_bind (post_reads (keeps_lift _) hh1) fun v h2 hh2 e => ?_
      subst e
      exact hh2.reshapeSizes _ _ (hv hl)
    case reshapeAs u w =>
      refine post_true (post_some' (Q := fun _ _ => True) ?_)
      unfold Tensor.reshapeAs
      refine post_bind (post_getT hh) fun i h1 hh1 hi => ?_
      obtain ⟨rfl, hi⟩ := hi
      exact hh1.reshapeSizes _ _ (hv hl)
    case detach u => exact post_true (post_some' (hI.detach hh _))
    case toType u dt => exact post_true (post_some' (hI.toType hh _ _))
    case addAssign u r =>
      refine post_true (post_none' (Q := fun _ _ => True) ?_)
      unfold Tensor.addAssign
      refine post_bind (post_getT hh) fun i h1 hh1 hi => ?_
      obtain ⟨rfl, hi⟩ := hi
      refine post_bind (post_reads (keeps_expect _) hh1) fun _ h2 hh2 e => ?_
      subst e
      refine post_bind (post_getT hh2) fun j h3 hh3 hj => ?_
      obtain ⟨rfl, hj⟩ := hj
      have hD := hl _ i (hat hi) hi
      refine post_true (post_keeps (keeps_tensorAdd (D := m.st) hD _ _ _ _) hh3 fun h' hw => ?_)
      exact ⟨hw.ts ▸ hh3.tlen, hw.len ▸ hh3.slen, fun t ht hm => by rw [hw.ts], fun d hd hm => hw.other d hm⟩
    case setRequiresGrad u b =>
      refine post_true (post_none' (Q := fun _ _ => True) ?_)
      unfold Tensor.setRequiresGrad
      refine post_bind (post_getT hh) fun i h1 hh1 hi => ?_
      obtain ⟨rfl, hi⟩ := hi
      have hm := hl _ (hat hi)
      split
      · refine post_bind (post_reads (keeps_expect _) hh1) fun _ h2 hh2 e => ?_
        subst e
        exact post_bind (post_getT hh2) fun i h3 hh3 _ => post_true (hh3.setT (.inl hm) _)
      · exact post_bind (post_getT hh1) fun i h3 hh3 _ => post_true (hh3.setT (.inl hm) _)
    case setRetainGrad u b =>
      refine post_true (post_none' (Q := fun _ _ => True) ?_)
      unfold Tensor.setRetainGrad
      refine post_bind (post_getT hh) fun i h1 hh1 hi => ?_
      obtain ⟨rfl, hi⟩ := hi
      exact post_true (hh1.setT (.inl (hl _ (hat hi))) _)

theorem inside_self {k : Heap F} (hk : History k) : Inside (Naming.any k) k k := by
  refine ⟨fun x i hi => ⟨i, hi, i.gradFn, ?_, ?_⟩, fun d _ => rfl⟩
  · cases hf : i.gradFn with
    | none => exact .none
    | some g =>
      have hv := (graph_history hk).version x g (by unfold opOf; rw [hi]; exact hf)
      refine .some ⟨?_, (List.map_id _).symm, rfl, rfl, hv, hv, False.elim⟩
      cases g.kind <;> rfl
  · show i = Impl.mk i.dtype i.view i.data (i.grad.map id) i.requiresGrad i.retainGrad i.gradFn
    rw [Option.map_id]; rfl

/-- Statements keep histories. -/
theorem exec_history {k k' : Heap F} (hk : History k) {us us' : List (Option Nat)} (hu : Held k us) (s : HStmt F)
    (e : s.exec us k = .ok us' k') : History k' ∧ Held k' us' ∧ k.ts.length ≤ k'.ts.length ∧ k.st.length ≤ k'.st.length := by
  obtain ⟨W, _, _, M, h1, h2⟩ := exec_moved (inside_self hk) hk hu s e
  exact ⟨h1, h2, M.tlen, M.slen⟩

/-- A statement of the observer. -/
theorem spares_exec {us us' : List (Option Nat)} {s : HStmt F} {k' : Heap F} (hl : LooksOnly k m us s) (e : s.exec us k = .ok us' k') :
    Spares m k k' := by
  cases s with
  | call c =>
    have := spares_call hl
    simp only [HStmt.exec, INNC.M.bind_def] at e
    cases ho : callOn us c k with
    | throw x h1 => rw [ho] at e; cases e
    | ub u => rw [ho] at e; cases e
    | ok o h1 =>
      rw [ho] at e this
      cases e
      exact this.1
  | attempt c =>
    have := spares_call hl
    simp only [HStmt.exec] at e
    cases ho : callOn us c k with
    | throw x h1 =>
      rw [ho] at e this
      cases e
      exact this
    | ub u => rw [ho] at e; cases e
    | ok o h1 =>
      rw [ho] at e this
      cases e
      exact this.1
  | _ => cases e; exact .refl _ _

/-- The state of a watched program is that of the program alone, under other names. -/
structure Beside (p : List (HStmt F)) (k : Heap F) (vs us : List (Option Nat)) (m : Created) (W : Naming F) (h : Heap F)
    (vs0 : List (Option Nat)) : Prop where
  alone : execAll p [] Heap.empty = .ok vs0 h
  names : vs = vs0.map (Option.map W.t)
  inside : Inside W h k
  past : History h
  held : Held h vs0
  joint : History k
  own : Held k us
  ts : ∀ t, m.ts t → t < k.ts.length ∧ ∀ x, x < h.ts.length → W.t x ≠ t
  st : ∀ d, m.st d → d < k.st.length ∧ ∀ x, x < h.st.length → W.s x ≠ d

theorem Beside.vars {p : List (HStmt F)} {k : Heap F} {vs us : List (Option Nat)} {W : Naming F} {h : Heap F} {vs0 : List (Option Nat)}
    (B : Beside p k vs us m W h vs0) : Held k vs := by
  intro t ht
  rw [B.names] at ht
  obtain ⟨o, ho, e⟩ := List.mem_map.1 ht
  cases o with
  | none => cases e
  | some x => cases e; exact B.inside.lt (B.held x ho)

theorem execAll_snoc (p : List (HStmt F)) (s : HStmt F) (vs : List (Option Nat)) :
    execAll (p ++ [s]) vs = execAll p vs >>= fun r => s.exec r := by
  funext h
  induction p generalizing vs h with
  | nil =>
    show (s.exec vs >>= fun r => execAll [] r) h = s.exec vs h
    rw [INNC.M.bind_def]
    cases s.exec vs h <;> rfl
  | cons a p ih =>
    show (a.exec vs >>= fun r => execAll (p ++ [s]) r) h = ((a.exec vs >>= fun r => execAll p r) >>= fun r => s.exec r) h
    simp only [INNC.M.bind_def]
    cases a.exec vs h with
    | ok r h1 => exact (ih r h1).trans (INNC.M.bind_def _ _ _)
    | throw x h1 => rfl
    | ub u => rfl

theorem Beside.main {p : List (HStmt F)} {k : Heap F} {vs us : List (Option Nat)} {W : Naming F} {h : Heap F} {vs0 : List (Option Nat)}
    (B : Beside p k vs us m W h vs0) (s : HStmt F) {vs' : List (Option Nat)} {k' : Heap F} (e : s.exec vs k = .ok vs' k') :
    ∃ W' h' vs0', Beside (p ++ [s]) k' vs' us m W' h' vs0' := by
  obtain ⟨hk', _, ht, hs⟩ := exec_history B.joint B.vars s e
  rw [B.names] at e
  cases hs0 : s.exec vs0 h with
  | throw x h1 =>
    obtain ⟨_, he⟩ := exec_throws B.inside B.past B.held s hs0
    rw [he] at e; cases e
  | ub u => rw [exec_ub B.inside B.past B.held s hs0] at e; cases e
  | ok vs1 h1 =>
    obtain ⟨W1, k1, he, M, hh1, hv1⟩ := exec_moved B.inside B.past B.held s hs0
    rw [he] at e
    cases e
    refine ⟨W1, h1, vs1, ?_, rfl, M.inside, hh1, hv1, hk', held_mono B.own ht, fun t hm => ?_, fun d hm => ?_⟩
    · rw [execAll_snoc, INNC.M.bind_def, B.alone]; exact hs0
    · obtain ⟨hlt, hne⟩ := B.ts t hm
      refine ⟨hlt.trans_le ht, fun x _ => ?_⟩
      by_cases hx : x < h.ts.length
      · rw [M.old x hx]; exact hne x hx
      · have := M.new x (Nat.not_lt.1 hx); omega
    · obtain ⟨hlt, hne⟩ := B.st d hm
      refine ⟨hlt.trans_le hs, fun x _ => ?_⟩
      by_cases hx : x < h.st.length
      · rw [M.oldS x hx]; exact hne x hx
      · have := M.newS x (Nat.not_lt.1 hx); omega

theorem Beside.side {p : List (HStmt F)} {k : Heap F} {vs us : List (Option Nat)} {W : Naming F} {h : Heap F} {vs0 : List (Option Nat)}
    (B : Beside p k vs us m W h vs0) {s : HStmt F} (hl : LooksOnly k m us s) {us' : List (Option Nat)} {k' : Heap F}
    (e : s.exec us k = .ok us' k') : Beside p k' vs us' (m.during k k') W h vs0 := by
  obtain ⟨hk', hu', ht, hs⟩ := exec_history B.joint B.own s e
  have S := spares_exec hl e
  refine ⟨B.alone, B.names, ⟨fun x i hi => ?_, fun d hd => ?_⟩, B.past, B.held, hk', hu', fun t hm => ?_, fun d hm => ?_⟩
  · obtain ⟨i', hi', f, hf, rfl⟩ := B.inside.ts x i hi
    have hx := lt_of_get hi
    have hi2 := (S.ts _ (B.inside.lt hx) fun hm => (B.ts _ hm).2 x hx rfl).trans hi'
    refine ⟨_, hi2, f, ?_, rfl⟩
    revert hf
    cases hg : i.gradFn with
    | none => intro hf; cases hf; exact .none
    | some g =>
      intro hf
      cases hf with
      | some hf =>
        refine .some ⟨hf.kind, hf.inputs, hf.nOutway, hf.accOutway, hf.hv, ?_, False.elim⟩
        exact (graph_history hk').version (W.t x) _ (by unfold opOf; rw [hi2]; rfl)
  · exact (S.st _ (B.inside.ltS hd) fun hm => (B.st _ hm).2 d hd rfl).trans (B.inside.st d hd)
  · rcases hm with hm | hm
    · exact ⟨(B.ts t hm).1.trans_le ht, (B.ts t hm).2⟩
    · exact ⟨hm.2, fun x hx => by have := B.inside.lt hx; omega⟩
  · rcases hm with hm | hm
    · exact ⟨(B.st d hm).1.trans_le hs, (B.st d hm).2⟩
    · exact ⟨hm.2, fun x hx => by have := B.inside.ltS hx; omega⟩

theorem watched_beside {p : List (HStmt F)} {k : Heap F} {vs us : List (Option Nat)} {m : Created} (H : Watched p k vs us m) :
    ∃ W h vs0, Beside p k vs us m W h vs0 := by
  induction H with
  | start =>
    exact ⟨Naming.any Heap.empty, Heap.empty, [], rfl, rfl, inside_empty _ _, .start, (fun t ht => by cases ht), .start, (fun t ht => by cases ht),
      fun _ h => h.elim, fun _ h => h.elim⟩
  | main s _ e ih =>
    obtain ⟨W, h, vs0, B⟩ := ih
    exact B.main s e
  | look a _ ih =>
    obtain ⟨W, h, vs0, B⟩ := ih
    exact ⟨W, h, vs0, B.alone, B.names, B.inside, B.past, B.held, B.joint, held_append B.own fun t ht => held_ptr B.vars ht, B.ts, B.st⟩
  | side s _ hl e ih =>
    obtain ⟨W, h, vs0, B⟩ := ih
    exact ⟨W, h, vs0, B.side hl e⟩

end
end INNC
