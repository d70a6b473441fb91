import Verif.Lemmas.MemKernels
import Verif.Lemmas.Cat
import Verif.Lemmas.Init
import Verif.Lemmas.Print
import Verif.Lemmas.Valid
/-
Memory safety of the calls that build tensors.
-/
namespace INNC
open Spec Tensor
variable {F : Type}

/-! ### Variables -/

/-- What a variable of a careful program is: a tensor in good order whose address computations do not overflow. -/
def Var (h : Heap F) (t : Nat) : Prop :=
  ∃ i, h.ts[t]? = some i ∧ Sits h i ∧ (vol i.view.sizes ≠ 0 → Tame i.view.sizes i.view.strides)

theorem Var.retains {h h' : Heap F} {t : Nat} (hv : Var h t) (hk : Retains h h') : Var h' t := by
  obtain ⟨i, hi, hs, ht⟩ := hv
  obtain ⟨i', hi', e1, e2, e3⟩ := hk.ts t i hi
  exact ⟨i', hi', (hs.retains hk).flags e1 e2 e3, by rw [e2]; exact ht⟩

/-! ### New tensors -/

/-- A tensor whose elements fill an allocated storage. -/
structure Room (h : Heap F) (i : Impl) : Prop extends Sites h i where
  onto : ∀ p, Spot h i p → ∃ idx, InBox i.view.sizes idx ∧ position i.view idx = p

theorem Room.retains {h h' : Heap F} {i : Impl} (hr : Room h i) (hk : Retains h h') : Room h' i where
  toSites := hr.toSites.retains hk
  onto := fun p hp => by
    refine hr.onto p ?_
    obtain ⟨s, c, h1, h2, h3, _⟩ := hr.cells
    obtain ⟨s', g1, g2, g3⟩ := hk.st _ s h1
    obtain ⟨c', k1, k2, _⟩ := g3 c h3
    obtain ⟨s2, c2, q1, q2, q3, q4⟩ := hp
    rw [g1] at q1
    obtain rfl := Option.some.inj q1
    rw [k1] at q3
    obtain rfl := Option.some.inj q3
    exact ⟨s, c, h1, h2, h3, by omega⟩

theorem Room.flags {h : Heap F} {i j : Impl} (hr : Room h i) (h1 : j.dtype = i.dtype) (h2 : j.view = i.view) (h3 : j.data = i.data) :
    Room h j := by
  refine ⟨⟨by rw [h2]; exact hr.strides, by rw [h2]; exact hr.offset, by rw [h1, h2, h3]; exact hr.cells⟩, fun p hp => ?_⟩
  unfold Spot at hp
  rw [h1, h3] at hp
  rw [h2]; exact hr.onto p hp

theorem Room.wrote [FOps F] {h : Heap F} {i : Impl} (hr : Room h i) (hw : ∀ sv, InBox i.view.sizes sv → Wrote i sv h) : Sits h i :=
  .of_wrote hr.toSites hr.onto hw

/-- The elements of a dense layout fill their storage. -/
theorem dense_onto {v : Layout} (hd : Dense v) {p : Nat} (hp : p < vol v.sizes) : ∃ idx, InBox v.sizes idx ∧ position v idx = p := by
  have hn : ((rowMajor v.sizes).map fun idx => (position v idx).toNat).Nodup := by
    refine List.Nodup.map_on (fun a ha b hb he => ?_) (nodup_rowMajor _)
    have h1 := hd.inside a (mem_rowMajor.1 ha)
    have h2 := hd.inside b (mem_rowMajor.1 hb)
    exact hd.inj a b (mem_rowMajor.1 ha) (mem_rowMajor.1 hb) (by omega)
  have hsub : ((rowMajor v.sizes).map fun idx => (position v idx).toNat) ⊆ List.range (vol v.sizes) := by
    intro q hq
    obtain ⟨idx, hi, rfl⟩ := List.mem_map.1 hq
    have := hd.inside idx (mem_rowMajor.1 hi)
    exact List.mem_range.2 (by omega)
  have hperm := (List.subperm_of_subset hn hsub).perm_of_length_le (by simp [length_rowMajor])
  obtain ⟨idx, hi, he⟩ := List.mem_map.1 (hperm.mem_iff.2 (List.mem_range.2 hp))
  have := hd.inside idx (mem_rowMajor.1 hi)
  exact ⟨idx, mem_rowMajor.1 hi, by omega⟩

theorem room_of_dense {h : Heap F} {i : Impl} (hd : Dense i.view) {s : Storage F} {c : List (Option (Val F))} (hs : h.st[i.data]? = some s)
    (hdt : s.dt = i.dtype) (hb : s.blob = some c) (hl : c.length = vol i.view.sizes) (hm : Modest i.view.sizes i.dtype) : Room h i where
  strides := hd.strides
  offset := hd.offset
  cells := ⟨s, c, hs, hdt, hb, by rw [hl]; exact hm, fun idx hi => by
    have := hd.inside idx hi
    exact ⟨(position i.view idx).toNat, by omega, by omega⟩⟩
  onto := fun p hp => by
    obtain ⟨s', c', h1, _, h3, h4⟩ := hp
    rw [hs] at h1
    obtain rfl := Option.some.inj h1
    rw [hb] at h3
    obtain rfl := Option.some.inj h3
    exact dense_onto hd (by omega)

theorem Spec.Modest.bytes {s : List Nat} {dt : DType} (hm : Modest s dt) : vol s * dt.size < 9223372036854775808 := by
  unfold Modest at hm; omega

theorem Spec.Modest.vol {s : List Nat} {dt : DType} (hm : Modest s dt) : Spec.vol s < 4611686018427387904 := by
  unfold Modest at hm
  have := Nat.le_mul_of_pos_right (Spec.vol s) dt.size_pos
  omega

theorem modest_of_f64 {s : List Nat} (hm : Modest s .f64) (dt : DType) : Modest s dt := by
  unfold Modest at *
  have := Nat.mul_le_mul_left (Spec.vol s) dt.size_le
  have h8 : DType.f64.size = 8 := rfl
  rw [h8] at hm
  omega

theorem le_vol {s : List Nat} (h0 : vol s ≠ 0) {n : Nat} (hn : n ∈ s) : n ≤ vol s := by
  induction s with
  | nil => simp at hn
  | cons a s ih =>
    have e : vol (a :: s) = a * vol s := rfl
    rw [e] at h0 ⊢
    have ha : 0 < a := Nat.pos_of_ne_zero fun hc => h0 (by rw [hc, Nat.zero_mul])
    have hs : 0 < vol s := Nat.pos_of_ne_zero fun hc => h0 (by rw [hc, Nat.mul_zero])
    rcases List.mem_cons.1 hn with rfl | hn
    · exact Nat.le_mul_of_pos_right _ hs
    · exact Nat.le_trans (ih (by omega) hn) (Nat.le_mul_of_pos_left _ ha)

theorem tame_rm : ∀ {s : List Nat}, vol s ≠ 0 → vol s < 4611686018427387904 → Tame s (rmStrides s)
  | [], _, _ => trivial
  | n :: s, h0, hv => by
    have e : vol (n :: s) = n * vol s := rfl
    have hle := le_vol h0 (n := n) (by simp)
    rw [e] at h0 hv
    have hn : 0 < n := Nat.pos_of_ne_zero fun hc => h0 (by rw [hc, Nat.zero_mul])
    have hs : vol s ≠ 0 := fun hc => h0 (by rw [hc, Nat.mul_zero])
    have hs' := Nat.le_mul_of_pos_left (vol s) hn
    refine ⟨by omega, ⟨by omega, by omega⟩, ?_, tame_rm hs (by omega)⟩
    rw [Int.natAbs_natCast, Nat.mul_comm]
    exact Nat.lt_of_le_of_lt (Nat.mul_le_mul_right _ (by omega : n - 1 ≤ n)) hv

theorem tame_contig {s : List Nat} (hv : vol s < 4611686018427387904) (h0 : vol s ≠ 0) :
    Tame (Layout.contig s).sizes (Layout.contig s).strides := by
  show Tame s (contigStrides s)
  rw [contigStrides_eq_rm (fun hc => h0 (vol_eq_zero.2 hc)) (by omega)]
  exact tame_rm h0 hv

theorem var_of {h : Heap F} {t : Nat} {i : Impl} (hi : h.ts[t]? = some i) (hs : Sits h i)
    (ht : vol i.view.sizes ≠ 0 → Tame i.view.sizes i.view.strides) : Var h t := ⟨i, hi, hs, ht⟩

section
variable [FOps F] {h : Heap F}

theorem mem_create {dt : DType} {v : Layout} (hd : Dense v) (hm : Modest v.sizes dt) :
    Mem h ((create dt v true : M F Nat) h) fun t h' => ∃ i, h'.ts[t]? = some i ∧ i.dtype = dt ∧ i.view = v ∧ Room h' i := by
  rw [create_view hm.bytes]
  exact ⟨(extends_allocView h dt v).retains, _, allocView_getT h dt v, rfl, rfl,
    room_of_dense (i := ⟨dt, v, h.st.length, none, false, false, none⟩) hd (allocView_getS h dt v) rfl rfl (by simp) hm⟩

theorem mem_contig {dt : DType} {s : List Nat} (hm : Modest s dt) :
    Mem h ((create dt (Layout.contig s) true : M F Nat) h) fun t h' => ∃ i, h'.ts[t]? = some i ∧ i.dtype = dt ∧ i.view = Layout.contig s ∧ Room h' i :=
  mem_create (dense_contig (by have := hm.vol; omega)) hm

theorem retains_setT {t : Nat} {i j : Impl} (hi : h.ts[t]? = some i) (h1 : j.dtype = i.dtype) (h2 : j.view = i.view) (h3 : j.data = i.data) :
    Retains h { h with ts := h.ts.set t j } where
  ts := fun u k hk => by
    by_cases hu : t = u
    · subst hu
      rw [hi] at hk
      obtain rfl := Option.some.inj hk
      exact ⟨j, List.getElem?_set_self (getElem?_lt hi), h1, h2, h3⟩
    · exact ⟨k, by simp only; rw [List.getElem?_set_ne hu]; exact hk, rfl, rfl, rfl⟩
  st := (Retains.refl h).st

theorem mem_setGradFn {t : Nat} {i : Impl} (hi : h.ts[t]? = some i) (k : BackKind) (ins : List Nat) :
    Mem h (Tensor.setGradFn t k ins h) fun _ _ => True := by
  rw [setGradFn_ok hi]
  exact ⟨retains_setT hi rfl rfl rfl, trivial⟩

theorem mem_zeroS {d : Nat} {s : Storage F} (hs : h.st[d]? = some s) :
    Mem h (zeroS d h) fun _ h' => ∀ (i : Impl) (p : Nat), i.data = d → Spot h' i p → Ready h' i p := by
  unfold zeroS
  rw [M.bind_ok (getS_ok hs)]
  cases hb : s.blob with
  | none =>
    refine mem_pure fun i p hd hp => ?_
    obtain ⟨s', c, h1, _, h3, _⟩ := hp
    rw [hd, hs] at h1
    obtain rfl := Option.some.inj h1
    rw [hb] at h3; cases h3
  | some cells =>
    have hlt := getElem?_lt hs
    refine ⟨⟨fun t i hi => ⟨i, hi, rfl, rfl, rfl⟩, fun e s' hs' => ?_⟩, fun i p hd hp => ?_⟩
    · by_cases he : d = e
      · subst he
        rw [hs] at hs'
        obtain rfl := Option.some.inj hs'
        refine ⟨_, List.getElem?_set_self hlt, rfl, fun c hc => ⟨_, rfl, ?_, fun q w hq hw => ?_⟩⟩
        · rw [hb] at hc
          obtain rfl := Option.some.inj hc
          simp
        · rw [hb] at hc
          obtain rfl := Option.some.inj hc
          exact ⟨zeroVal s.dt, by rw [List.getElem?_map, hq]; rfl, zeroVal_hasType _⟩
      · exact ⟨s', by simp only; rw [List.getElem?_set_ne he]; exact hs', rfl, fun c hc => ⟨c, hc, rfl, fun q w hq hw => ⟨w, hq, hw⟩⟩⟩
    · obtain ⟨s', c, h1, h2, h3, h4⟩ := hp
      subst hd
      simp only [List.getElem?_set_self hlt, Option.some.injEq] at h1
      subst h1
      simp only [Option.some.injEq] at h3
      subst h3
      refine ⟨_, _, zeroVal s.dt, List.getElem?_set_self hlt, h2, rfl, ?_, by rw [← h2]; exact zeroVal_hasType _⟩
      rw [List.length_map] at h4
      rw [List.getElem?_map, List.getElem?_eq_getElem h4]; rfl

/-- A new contiguous tensor in good order. -/
def Fine (dt : DType) (s : List Nat) (t : Nat) (h : Heap F) : Prop :=
  ∃ i, h.ts[t]? = some i ∧ i.dtype = dt ∧ i.view = Layout.contig s ∧ Sits h i

theorem Fine.var {dt : DType} {s : List Nat} {t : Nat} (hm : Fine dt s t h) (hs : Modest s dt) : Var h t := by
  obtain ⟨i, hi, _, e, hsit⟩ := hm
  exact ⟨i, hi, hsit, by rw [e]; exact tame_contig hs.vol⟩

theorem Fine.retains {dt : DType} {s : List Nat} {t : Nat} {h' : Heap F} (hm : Fine dt s t h) (hk : Retains h h') : Fine dt s t h' := by
  obtain ⟨i, hi, e1, e2, hs⟩ := hm
  obtain ⟨i', hi', f1, f2, f3⟩ := hk.ts t i hi
  exact ⟨i', hi', f1.trans e1, f2.trans e2, (hs.retains hk).flags f1 f2 f3⟩

theorem inBox_nil {idx : List Nat} (h : InBox [] idx) : idx = [] := by
  cases idx with
  | nil => rfl
  | cons => exact absurd h (by simp [InBox])

theorem position_scalar (idx : List Nat) : position (Layout.contig []) idx = 0 := by
  cases idx <;> rfl

/-- The element of a scalar. -/
theorem scalar_ready {i : Impl} (hs : Sits h i) (hv : i.view = Layout.contig []) : Ready h i 0 := by
  obtain ⟨p, _, e, hp⟩ := hs.index (idx := []) (by rw [hv]; trivial)
  rw [hv, position_scalar] at e
  have : p = 0 := by omega
  subst this
  exact hs.full 0 hp

theorem mem_zeros {dt : DType} {s : List Nat} (hm : Modest s dt) : Mem h (Tensor.zeros s dt h) fun t h' => Fine dt s t h' := by
  unfold Tensor.zeros
  refine mem_bind (mem_contig hm) fun t h1 k1 ⟨i, hi, e1, e2, hr⟩ => ?_
  refine mem_bind (mem_getT hi) fun j h2 k2 ⟨hj, e⟩ => ?_
  subst hj e
  obtain ⟨st, c, hs, _⟩ := hr.cells
  refine mem_bind (mem_zeroS hs) fun _ h3 k3 hz => ?_
  obtain ⟨i', hi', f1, f2, f3⟩ := k3.ts t j hi
  exact mem_pure ⟨i', hi', f1.trans e1, f2.trans e2, Sits.flags ⟨(hr.retains k3).toSites, fun p hp => hz j p rfl hp⟩ f1 f2 f3⟩

theorem mem_createScalar {dt : DType} {v : Val F} (hv : v.HasType dt) : Mem h (createScalar dt v h) fun t h' => Fine dt [] t h' := by
  unfold createScalar
  have hm : Modest [] dt := by unfold Modest; cases dt <;> decide
  refine mem_bind (mem_contig hm) fun t h1 k1 ⟨i, hi, e1, e2, hr⟩ => ?_
  refine mem_bind (mem_getT hi) fun j h2 k2 ⟨hj, e⟩ => ?_
  subst hj e
  obtain ⟨p, _, e, hp⟩ := hr.index (idx := []) (by rw [e2]; trivial)
  rw [e2, position_scalar] at e
  have : p = 0 := by omega
  subst this
  refine mem_bind (mem_store hp e1.symm hv) fun _ h3 k3 hz => ?_
  obtain ⟨i', hi', f1, f2, f3⟩ := k3.ts t j hi
  refine mem_pure ⟨i', hi', f1.trans e1, f2.trans e2, Sits.flags (Room.wrote (hr.retains k3) fun sv hb => ?_) f1 f2 f3⟩
  exact ⟨0, by rw [e2, position_scalar]; rfl, hz⟩

/-- The end of an operation that has built a tensor. -/
theorem made_of {dt : DType} {s : List Nat} {t : Nat} {i : Impl} {h1 : Heap F} (hi : h1.ts[t]? = some i) (e1 : i.dtype = dt) (e2 : i.view = Layout.contig s)
    (hr : Room h1 i) (hk : Retains h1 h) (hw : ∀ sv, InBox s sv → Wrote i sv h) : Fine dt s t h := by
  obtain ⟨i', hi', f1, f2, f3⟩ := hk.ts t i hi
  exact ⟨i', hi', f1.trans e1, f2.trans e2, Sits.flags (Room.wrote (hr.retains hk) fun sv hb => hw sv (by rw [e2] at hb; exact hb)) f1 f2 f3⟩

/-- `ones` and `full`. -/
theorem mem_fillNew {nt dt : DType} {v : Val F} {s : List Nat} (hv : v.HasType nt) (hm : Modest s dt) : Mem h ((do
      let one ← createScalar nt v
      let ret ← create dt (Layout.contig s) true
      tensorFill dt nt (← getT ret) (← getT one)
      return ret : M F Nat) h) fun t h' => Fine dt s t h' := by
  refine mem_bind (mem_createScalar hv) fun o h1 k1 ho => ?_
  refine mem_bind (mem_contig hm) fun t h2 k2 ⟨i, hi, e1, e2, hr⟩ => ?_
  obtain ⟨j, hj, g1, g2, hs⟩ := ho.retains k2
  rw [M.bind_ok (getT_ok hi), M.bind_ok (getT_ok hj)]
  refine mem_bind (mem_tensorFill hr.toSites (scalar_ready hs g2) e1.symm g1.symm) fun _ h3 k3 hw => ?_
  exact mem_pure (made_of hi e1 e2 hr k3 fun sv hb => hw sv (by rw [e2]; exact hb))

theorem mem_blobGo {dt : DType} {i : Impl} (hdt : dt = i.dtype) : ∀ (l : List (Val F)) (k : Nat) (h : Heap F), (∀ v ∈ l, v.HasType dt) →
    (∀ p, p < k + l.length → Spot h i p) → (∀ p, p < k → Ready h i p) →
    Mem h (blobGo dt i k l h) fun _ h' => ∀ p, p < k + l.length → Ready h' i p
  | [], k, h, _, _, hr => mem_pure hr
  | v :: l, k, h, hv, hs, hr => by
    unfold blobGo
    refine mem_bind (mem_store (hs k (by simp)) hdt (hv v (by simp))) fun _ h1 k1 hz => ?_
    refine mem_mono (mem_blobGo hdt l (k + 1) h1 (fun w hw => hv w (by simp [hw])) (fun p hp => (hs p (by simp; omega)).retains k1) fun p hp => ?_)
      fun _ h2 k2 hq p hp => hq p (by simp at hp; omega)
    by_cases he : p = k
    · rw [he]; exact hz
    · exact (hr p (by omega)).retains k1

theorem rank_unrank_position {s : List Nat} (hv : vol s < 4611686018427387904) {p : Nat} (hp : p < vol s) :
    position (Layout.contig s) (unrank s p) = p := by
  rw [contig_position (by omega) (unrank_inBox hp), rank_unrank hp]

theorem mem_fromBlob {data : List (Val F)} {dt : DType} {s : List Nat} (hm : Modest s dt) (hl : vol s ≤ data.length)
    (hd : ∀ v ∈ data, v.HasType dt) : Mem h (fromBlob data s dt h) fun t h' => Fine dt s t h' := by
  have hv := hm.vol
  have hb := hm.bytes
  have hn : wrapU ((numel s : Int) * dt.size) / dt.size = vol s := by
    rw [numel_eq_vol (by omega), ← Int.natCast_mul, wrapU_natCast (by omega)]
    exact Nat.mul_div_cancel _ dt.size_pos
  unfold fromBlob
  refine mem_bind (mem_contig hm) fun t h1 k1 ⟨i, hi, e1, e2, hr⟩ => ?_
  refine mem_bind (mem_getT hi) fun j h2 k2 ⟨hj, e⟩ => ?_
  subst hj e
  simp only [hn]
  rw [if_neg (by omega)]
  have hlen : (data.take (vol s)).length = vol s := by simp; omega
  refine mem_bind (mem_blobGo e1.symm (data.take (vol s)) 0 h2 (fun v hv => hd v (List.mem_of_mem_take hv)) (fun p hp => ?_) (by simp))
    fun _ h3 k3 hq => ?_
  · rw [hlen, Nat.zero_add] at hp
    obtain ⟨q, _, e, hq⟩ := hr.index (idx := unrank s p) (by rw [e2]; exact unrank_inBox hp)
    rw [e2, rank_unrank_position hv hp] at e
    have : p = q := by omega
    rw [this]; exact hq
  · refine mem_pure (made_of hi e1 e2 hr k3 fun sv hb => ⟨rank s sv, by rw [e2]; exact contig_position (by omega) hb, hq _ ?_⟩)
    rw [hlen, Nat.zero_add]; exact rank_lt hb

theorem mem_randn {rnd : Nat → F} {dt : DType} {s : List Nat} (ha : dt.isFloat = true → dt = .f32 ∧ Modest s .f32) :
    Mem h (randn rnd s dt h) fun t h' => Modest s .f32 ∧ Fine .f32 s t h' := by
  unfold randn
  refine mem_bind mem_expect fun _ h0 k0 hfl => ?_
  obtain ⟨rfl, hm⟩ := ha hfl
  have hv := hm.vol
  rw [M.bind_ok (create_view (v := Layout.contig s) hm.bytes h0), M.bind_ok (getT_ok (allocView_getT h0 _ _)),
    M.bind_ok (getS_ok (allocView_getS h0 _ _))]
  have hk := (extends_allocView h0 .f32 (Layout.contig s)).retains
  have hr := room_of_dense (i := ⟨.f32, Layout.contig s, h0.st.length, none, false, false, none⟩) (dense_contig (by omega))
    (allocView_getS h0 .f32 (Layout.contig s)) rfl rfl (by simp) hm
  have hn : numel s = vol s := numel_eq_vol (by omega)
  have hlen : ((List.range (numel s)).map rnd).length = vol s := by simp [hn]
  have h4 : DType.f32.size = 4 := rfl
  rw [if_pos rfl, randGo_eq rfl _ _ _ (by rw [hlen, h4]; show 4 * (0 + vol s) ≤ 4 * vol s; omega)]
  have hmem := mem_blobGo (F := F) (dt := .f32) (i := ⟨.f32, Layout.contig s, h0.st.length, none, false, false, none⟩) rfl
    (((List.range (numel s)).map rnd).map .f) 0 _ (fun v hv => by
      obtain ⟨x, _, rfl⟩ := List.mem_map.1 hv; exact hasType_f.2 rfl) (fun p hp => by
    rw [List.length_map, hlen, Nat.zero_add] at hp
    obtain ⟨q, _, e, hq⟩ := hr.index (idx := unrank s p) (unrank_inBox hp)
    rw [rank_unrank_position hv hp] at e
    have : p = q := by omega
    rw [this]; exact hq) (by simp)
  have := mem_bind (f := fun _ => (pure h0.ts.length : M F Nat)) (R := fun t h' => Modest s .f32 ∧ Fine .f32 s t h') hmem fun _ h3 k3 hq => by
    refine mem_pure ⟨hm, made_of (allocView_getT h0 _ _) rfl rfl hr k3 fun sv hb => ⟨rank s sv, contig_position (by omega) hb, hq _ ?_⟩⟩
    rw [List.length_map, hlen, Nat.zero_add]; exact rank_lt hb
  exact mem_mono (mem_bind (x := fun _ => .ok () (h0.allocView .f32 (Layout.contig s))) (Q := fun _ h' => h' = h0.allocView .f32 (Layout.contig s))
    ⟨hk, rfl⟩ fun _ h' _ e => by subst e; exact this) fun _ _ _ h => h

theorem mem_eye {n m : Nat} {dt : DType} (hm : Modest [n, m] dt) : Mem h (Tensor.eye n m dt h) fun t h' => Fine dt [n, m] t h' := by
  unfold Tensor.eye
  refine mem_bind (mem_contig hm) fun t h1 k1 ⟨i, hi, e1, e2, hr⟩ => ?_
  refine mem_bind (mem_getT hi) fun j h2 k2 ⟨hj, e⟩ => ?_
  subst hj e
  obtain ⟨st, c, hs, _⟩ := hr.cells
  refine mem_bind (mem_zeroS hs) fun _ h3 k3 hz => ?_
  have hsit : Sits h3 j := ⟨(hr.retains k3).toSites, fun p hp => hz j p rfl hp⟩
  have hsz : j.view.sizes = [n, m] := by rw [e2]; rfl
  refine mem_bind (Q := fun _ _ => True) ?_ fun _ h4 k4 _ => ?_
  · unfold tensorEye
    rw [hsz]
    refine mem_eyeGo e1.symm _ h3 hsit.toSites fun k hk => ?_
    have := List.mem_range.1 hk
    rw [hsz]
    exact ⟨by omega, by omega, trivial⟩
  · obtain ⟨i', hi', f1, f2, f3⟩ := (k3.trans k4).ts t j hi
    exact mem_pure ⟨i', hi', f1.trans e1, f2.trans e2, (hsit.retains k4).flags f1 f2 f3⟩

/-! ### Copies -/

/-- A tensor filled from another one, recorded if that one requires grad. -/
theorem mem_copyNew {t : Nat} {i : Impl} (hs : Sits h i) {dt : DType} (hm : Modest i.view.sizes dt) : Mem h ((do
      let ret ← create dt (Layout.contig i.view.sizes) true
      copyLoop dt i.dtype (← getT ret) i
      if !i.requiresGrad then return ret
      Tensor.setGradFn ret .clone [t]
      return ret : M F Nat) h) fun r h' => Fine dt i.view.sizes r h' := by
  refine mem_bind (mem_contig hm) fun r h1 k1 ⟨j, hj, e1, e2, hr⟩ => ?_
  rw [M.bind_ok (getT_ok hj)]
  refine mem_bind (mem_copyLoop hr.toSites (hs.retains k1) e1.symm rfl (by rw [e2]; rfl)) fun _ h3 k3 hw => ?_
  have hmade := made_of hj e1 e2 hr k3 fun sv hb => hw sv (by rw [e2]; exact hb)
  split
  · exact mem_pure hmade
  · have hmade' := hmade
    obtain ⟨j', hj', _⟩ := hmade'
    exact mem_bind (mem_setGradFn hj' _ _) fun _ h4 k4 _ => mem_pure (hmade.retains k4)

theorem mem_clone {t : Nat} {i : Impl} (hi : h.ts[t]? = some i) (hs : Sits h i) (hm : Modest i.view.sizes i.dtype) :
    Mem h (Tensor.clone t h) fun r h' => Fine i.dtype i.view.sizes r h' := by
  unfold Tensor.clone
  rw [M.bind_ok (getT_ok hi)]
  exact mem_copyNew hs hm

omit [FOps F] in
theorem shapeOf_at {t : Nat} {i : Impl} (hi : h.ts[t]? = some i) : shapeOf h t = i.view.sizes := by
  unfold shapeOf; rw [hi]; rfl

theorem mem_toType {t : Nat} {dt : DType} (hv : Var h t) (hm : Modest (shapeOf h t) dt) : Mem h (Tensor.toType t dt h) fun r h' => Var h' r := by
  have hv' := hv
  obtain ⟨i, hi, hs, _⟩ := hv
  rw [shapeOf_at hi] at hm
  unfold Tensor.toType
  rw [M.bind_ok (getT_ok hi)]
  split
  · exact mem_raise _
  split
  · exact mem_pure hv'
  · exact mem_mono (mem_copyNew hs hm) fun r h' _ hd => hd.var hm

/-! ### Binary operations -/

omit [FOps F] in
theorem maxShape_comm (u v : List Nat) : maxShape u v = maxShape v u := by
  unfold maxShape
  rw [Nat.max_comm v.length u.length]
  exact List.zipWith_comm_of_comm Nat.max_comm

omit [FOps F] in
theorem maxShape_nil (v : List Nat) : maxShape [] v = v := by
  unfold maxShape
  simp only [List.length_nil, Nat.zero_max, Nat.sub_zero, List.append_nil, Nat.sub_self, List.replicate_zero, List.nil_append]
  induction v with
  | nil => rfl
  | cons a v ih => simp [List.replicate_succ, ih]

/-- A kernel that fills its destination. -/
def Fills (k : Kernel F) (D : DType → DType → DType) : Prop :=
  ∀ (H : Heap F) (L R : DType) (d a b : Impl), Sites H d → Sits H a → Sits H b → D L R = d.dtype → L = a.dtype → R = b.dtype →
    d.view.sizes = maxShape a.view.sizes b.view.sizes → Mem H (k L R d a b H) fun _ h' => ∀ sv, InBox d.view.sizes sv → Wrote d sv h'

theorem fills_zip {D S : DType → DType → DType} {f : DType → DType → Val F → Val F → Res (Val F)}
    (hf : ∀ L R (x y : Val F), x.HasType L → y.HasType R → Yields (f L R x y) (Val.HasType (S L R))) :
    Fills (fun L R d a b => zipLoop (D L R) (S L R) L R d.view.sizes (f L R) d a b) D := by
  intro H L R d a b hd ha hb e1 e2 e3 hsz
  have hlen := length_maxShape a.view.sizes b.view.sizes
  rw [← hsz] at hlen
  exact mem_mono (mem_zipLoop hd ha hb e1 e2 e3 (by omega) (by omega) (by omega) (hf L R)) fun _ h' _ hw sv hb => hw sv hb hb

theorem fills_add : Fills (F := F) tensorAdd fun L _ => L := by
  intro H L R d a b hd ha hb e1 e2 e3 hsz
  unfold tensorAdd
  rw [broadcastRange_max, ← hsz]
  exact fills_zip (D := fun L _ => L) (S := DType.arith) (f := fun L R => cArith .add L R) (fun L R x y => yields_arith .add) H L R d a b hd ha hb e1 e2 e3 hsz

theorem fills_sub : Fills (F := F) tensorSub DType.common := by
  intro H L R d a b hd ha hb e1 e2 e3 hsz
  unfold tensorSub
  rw [broadcastRange_max, ← hsz]
  exact fills_zip (D := DType.common) (S := DType.arith) (f := fun L R => cArith .sub L R) (fun L R x y => yields_arith .sub) H L R d a b hd ha hb e1 e2 e3 hsz

theorem fills_mul : Fills (F := F) tensorMul fun L _ => L :=
  fills_zip (D := fun L _ => L) (S := DType.arith) (f := fun L R => cArith .mul L R) fun _ _ _ _ => yields_arith .mul

theorem fills_div : Fills (F := F) tensorDiv DType.common :=
  fills_zip (D := DType.common) (S := DType.arith) (f := fun L R => cArith .div L R) fun _ _ _ _ => yields_arith .div

theorem fills_cmp (op : COp) : Fills (F := F) (tensorCmp op) fun _ _ => .i8 :=
  fills_zip (D := fun _ _ => .i8) (S := fun _ _ => .i8) (f := fun L R => cmpVal op L R) fun _ _ _ _ => yields_cmpVal op

/-- The four arithmetic kernels: `+` and `*` write the type of their first operand and get the larger one first. -/
def Kern (k : Kernel F) (order : Bool) : Prop := (order = false ∧ Fills k fun L _ => L) ∨ (order = true ∧ Fills k DType.common)

theorem mem_applyNoGrad {k : Kernel F} {order : Bool} (hk : Kern k order) {l r : Nat} {li ri : Impl} (hl : h.ts[l]? = some li)
    (hr : h.ts[r]? = some ri) (hls : Sits h li) (hrs : Sits h ri) (hm : Modest (maxShape li.view.sizes ri.view.sizes) .f64) :
    Mem h (applyNoGradBinary k l r order h) fun t h' => Fine (later li.dtype ri.dtype) (maxShape li.view.sizes ri.view.sizes) t h' := by
  unfold applyNoGradBinary
  rw [M.bind_ok (getT_ok hl), M.bind_ok (getT_ok hr), broadcastRange_max]
  refine (mem_bind (mem_contig (modest_of_f64 hm (DType.larger li.dtype ri.dtype))) fun t h1 k1 ⟨d, hd, e1, e2, hroom⟩ => ?_ :
    Mem h ((_ : M F Nat) h) _)
  rw [larger_eq_later] at *
  have hsz : d.view.sizes = maxShape li.view.sizes ri.view.sizes := by rw [e2]; rfl
  have hls1 := hls.retains k1
  have hrs1 := hrs.retains k1
  refine mem_bind (mem_getT hd) fun j h2 k2 ⟨hj, e⟩ => ?_
  subst hj e
  have fin : ∀ {K : M F Unit}, (Mem h2 (K h2) fun _ h' => ∀ sv, InBox j.view.sizes sv → Wrote j sv h') →
      Mem h2 ((do K; return t : M F Nat) h2) fun t h' => Fine (later li.dtype ri.dtype) (maxShape li.view.sizes ri.view.sizes) t h' :=
    fun hK => mem_bind hK fun _ h3 k3 hw => mem_pure (made_of hd e1 e2 hroom k3 fun sv hb => hw sv (by rw [hsz]; exact hb))
  rcases hk with ⟨rfl, hk⟩ | ⟨rfl, hk⟩
  · simp only [Bool.not_false, if_true]
    by_cases hc : li.dtype = later li.dtype ri.dtype
    · rw [if_pos hc]
      exact fin (hk _ _ _ _ _ _ hroom.toSites hls1 hrs1 (hc.trans e1.symm) rfl rfl hsz)
    · rw [if_neg hc]
      have hc' : ri.dtype = later li.dtype ri.dtype := by
        unfold later at hc ⊢
        by_cases ho : order ri.dtype ≤ order li.dtype
        · rw [if_pos ho] at hc; exact absurd rfl hc
        · rw [if_neg ho]
      exact fin (hk _ _ _ _ _ _ hroom.toSites hrs1 hls1 (hc'.trans e1.symm) rfl rfl (by rw [hsz, maxShape_comm]))
  · simp only [Bool.not_true, Bool.false_eq_true, if_false]
    exact fin (hk _ _ _ _ _ _ hroom.toSites hls1 hrs1 (by rw [common_eq]; exact e1.symm) rfl rfl hsz)

theorem Fine.record {dt : DType} {s : List Nat} {t : Nat} (hf : Fine dt s t h) (k : BackKind) (ins : List Nat) :
    Mem h (Tensor.setGradFn t k ins h) fun _ h' => Fine dt s t h' := by
  have hf' := hf
  obtain ⟨j, hj, _⟩ := hf'
  exact mem_mono (mem_setGradFn hj k ins) fun _ h1 k1 _ => hf.retains k1

theorem mem_applyBinary' {k : Kernel F} {order : Bool} (hk : Kern k order) {back : BackKind} {l r : Nat} (hl : Var h l) (hr : Var h r)
    (hm : Modest (maxShape (shapeOf h l) (shapeOf h r)) .f64) : Mem h (applyBinary k back l r order h) fun t h' => Var h' t ∧ shapeOf h' t = maxShape (shapeOf h l) (shapeOf h r) := by
  obtain ⟨li, hli, hls, _⟩ := hl
  obtain ⟨ri, hri, hrs, _⟩ := hr
  rw [shapeOf_at hli, shapeOf_at hri] at hm ⊢
  have shape : ∀ {dt s t} {h' : Heap F}, Fine dt s t h' → shapeOf h' t = s := fun hf => by
    obtain ⟨j, hj, _, e, _⟩ := hf
    rw [shapeOf_at hj, e]
    rfl
  have hm' := modest_of_f64 hm (later li.dtype ri.dtype)
  unfold applyBinary
  refine mem_bind (mem_applyNoGrad hk hli hri hls hrs hm) fun t h1 k1 hf => ?_
  obtain ⟨li', hli', _⟩ := k1.ts l li hli
  obtain ⟨ri', hri', _⟩ := k1.ts r ri hri
  rw [M.bind_ok (getT_ok hli'), M.bind_ok (getT_ok hri')]
  split
  · exact mem_pure ⟨hf.var hm', shape hf⟩
  · exact mem_bind (hf.record _ _) fun _ h2 k2 hf2 => mem_pure ⟨hf2.var hm', shape hf2⟩

theorem mem_applyBinary {k : Kernel F} {order : Bool} (hk : Kern k order) {back : BackKind} {l r : Nat} (hl : Var h l) (hr : Var h r)
    (hm : Modest (maxShape (shapeOf h l) (shapeOf h r)) .f64) : Mem h (applyBinary k back l r order h) fun t h' => Var h' t :=
  mem_mono (mem_applyBinary' hk hl hr hm) fun _ _ _ hq => hq.1

theorem mem_cmp {op : COp} {l r : Nat} (hl : Var h l) (hr : Var h r) (hm : Modest (maxShape (shapeOf h l) (shapeOf h r)) .f64) :
    Mem h (Tensor.cmp op l r h) fun t h' => Var h' t := by
  obtain ⟨li, hli, hls, _⟩ := hl
  obtain ⟨ri, hri, hrs, _⟩ := hr
  rw [shapeOf_at hli, shapeOf_at hri] at hm
  have hm' := modest_of_f64 hm .i8
  unfold Tensor.cmp
  rw [M.bind_ok (getT_ok hli), M.bind_ok (getT_ok hri), broadcastRange_max]
  refine (mem_bind (mem_contig hm') fun t h1 k1 ⟨d, hd, e1, e2, hroom⟩ => ?_ : Mem h ((_ : M F Nat) h) _)
  have hsz : d.view.sizes = maxShape li.view.sizes ri.view.sizes := by rw [e2]; rfl
  rw [M.bind_ok (getT_ok hd)]
  refine mem_bind (fills_cmp op _ _ _ _ _ _ hroom.toSites (hls.retains k1) (hrs.retains k1) e1.symm rfl rfl hsz) fun _ h3 k3 hw => ?_
  exact mem_pure ((made_of hd e1 e2 hroom k3 fun sv hb => hw sv (by rw [hsz]; exact hb)).var hm')

theorem mem_neg {t : Nat} (hv : Var h t) (hm : Modest (shapeOf h t) .f64) : Mem h (negT t h) fun t h' => Var h' t := by
  unfold negT
  refine mem_bind (mem_createScalar (v := .i 0) (hasType_small (F := F) (by omega) rfl)) fun z h1 k1 hz => ?_
  have hz' := hz
  obtain ⟨zi, hzi, _, ez, _⟩ := hz'
  have hv1 := hv.retains k1
  have hm0 : Modest [] .i32 := by unfold Modest; decide
  have hsh : shapeOf h1 t = shapeOf h t := by
    obtain ⟨i, hi, _⟩ := hv
    obtain ⟨i', hi', _, e, _⟩ := k1.ts t i hi
    rw [shapeOf_at hi, shapeOf_at hi', e]
  refine mem_applyBinary (.inr ⟨rfl, fills_sub⟩) (hz.var hm0) hv1 ?_
  rw [shapeOf_at hzi, ez, hsh]
  show Modest (maxShape [] _) _
  rw [maxShape_nil]; exact hm

theorem mem_addAssign {t r : Nat} (hl : Var h t) (hr : Var h r) : Mem h (Tensor.addAssign t r h) fun _ _ => True := by
  obtain ⟨li, hli, hls, _⟩ := hl
  obtain ⟨ri, hri, hrs, _⟩ := hr
  unfold Tensor.addAssign
  rw [M.bind_ok (getT_ok hli)]
  refine mem_bind mem_expect fun _ h1 k1 _ => ?_
  obtain ⟨ri', hri', f1, f2, f3⟩ := k1.ts r ri hri
  rw [M.bind_ok (getT_ok hri')]
  unfold tensorAdd
  rw [broadcastRange_max]
  have hlen := length_maxShape li.view.sizes ri'.view.sizes
  exact mem_mono (mem_zipLoop (hls.retains k1).toSites (hls.retains k1) ((hrs.retains k1).flags f1 f2 f3) rfl rfl rfl (by omega) (by omega) (by omega)
    fun x y => yields_arith .add) fun _ _ _ _ => trivial

/-! ### Reductions -/

omit [FOps F] in
theorem modest_scalar (dt : DType) : Modest [] dt := by unfold Modest; cases dt <;> decide

theorem mem_reduce {k : DType → DType → Impl → Impl → M F Unit} {back : BackKind} {t : Nat} {dt : DType} (hv : Var h t)
    (hk : ∀ (H : Heap F) (d i : Impl), Ready H d 0 → Sits H i → dt = d.dtype → Mem H (k dt i.dtype d i H) fun _ _ => True) {i : Impl}
    (hi : h.ts[t]? = some i) : Mem h ((do
      let tf ← Tensor.zeros [] dt
      k dt i.dtype (← getT tf) i
      if i.requiresGrad then Tensor.setGradFn tf back [t]
      return tf : M F Nat) h) fun t h' => Var h' t := by
  obtain ⟨i', hi', hs, _⟩ := hv
  rw [hi] at hi'
  obtain rfl := Option.some.inj hi'
  refine mem_bind (mem_zeros (modest_scalar dt)) fun r h1 k1 hf => ?_
  have hf' := hf
  obtain ⟨d, hd, e1, e2, hds⟩ := hf'
  rw [M.bind_ok (getT_ok hd)]
  refine mem_bind (hk _ _ _ (scalar_ready hds e2) (hs.retains k1) e1.symm) fun _ h2 k2 _ => ?_
  cases hg : i.requiresGrad with
  | false => exact mem_pure ((hf.retains k2).var (modest_scalar dt))
  | true => exact mem_bind ((hf.retains k2).record _ _) fun _ h3 k3 hf3 => mem_pure (hf3.var (modest_scalar dt))

theorem mem_sum {t : Nat} (hv : Var h t) : Mem h (sumT t h) fun t h' => Var h' t := by
  have hv' := hv
  obtain ⟨i, hi, _⟩ := hv'
  unfold sumT
  rw [M.bind_ok (getT_ok hi)]
  exact mem_reduce (k := tensorSum) hv (fun H d i hd hs e => mem_tensorSum hd hs e rfl) hi

theorem mem_mean {t : Nat} (hv : Var h t) : Mem h (meanT t h) fun t h' => Var h' t := by
  have hv' := hv
  obtain ⟨i, hi, _⟩ := hv'
  unfold meanT
  rw [M.bind_ok (getT_ok hi)]
  exact mem_reduce (k := tensorMean) hv (fun H d i hd hs e => mem_tensorMean hd hs e rfl) hi

/-- The gradient that the result of `abs`, `max` or `min` is remembered with is in good order. -/
def Known (h : Heap F) (r : Nat) : Prop := ∀ j f k, h.ts[r]? = some j → j.gradFn = some f → f.kind = .knownGrad k → ∃ ki, h.ts[k]? = some ki ∧ Sits h ki

theorem mem_known {r g : Nat} {d : Impl} (hd : h.ts[r]? = some d) {gi : Impl} (hgi : h.ts[g]? = some gi) (hgs : Sits h gi) (ins : List Nat) :
    Mem h (Tensor.setGradFn r (.knownGrad g) ins h) fun _ h' => Known h' r := by
  have := mem_setGradFn hd (.knownGrad g) ins
  unfold Tensor.setGradFn at this ⊢
  rw [M.bind_ok (getT_ok hd)] at this ⊢
  refine ⟨this.1, fun j f k hj hf hk => ?_⟩
  simp only at hj
  rw [List.getElem?_set_self (getElem?_lt hd)] at hj
  obtain rfl := Option.some.inj hj
  obtain rfl := Option.some.inj hf
  cases hk
  obtain ⟨ki, e, e1, e2, e3⟩ := this.1.ts g gi hgi
  exact ⟨ki, e, (hgs.retains this.1).flags e1 e2 e3⟩

theorem mem_abs' {t : Nat} {i : Impl} (hi : h.ts[t]? = some i) (hv : Var h t) (hd : Dense i.view) (hm : Modest i.view.sizes i.dtype) :
    Mem h (absT t h) fun t h' => Var h' t ∧ (i.requiresGrad = true → Known h' t) := by
  obtain ⟨i', hi', hs, ht⟩ := hv
  rw [hi] at hi'
  obtain rfl := Option.some.inj hi'
  unfold absT
  rw [M.bind_ok (getT_ok hi)]
  refine mem_bind (mem_create hd hm) fun r h1 k1 ⟨d, hd1, e1, e2, hroom⟩ => ?_
  have fin : ∀ {d : Impl} {h2 h3 : Heap F}, h2.ts[r]? = some d → d.view = i.view → Room h2 d → Retains h2 h3 →
      (∀ sv, InBox d.view.sizes sv → Wrote d sv h3) → Var h3 r := by
    intro d h2 h3 hd1 e2 hroom k3 hw
    obtain ⟨d', hd', f1, f2, f3⟩ := k3.ts r d hd1
    exact ⟨d', hd', Sits.flags (Room.wrote (hroom.retains k3) hw) f1 f2 f3, by rw [f2, e2]; exact ht⟩
  cases hg : i.requiresGrad with
  | false =>
    simp only [Bool.not_false, if_true]
    rw [M.bind_ok (getT_ok hd1)]
    refine mem_bind (mem_tensorAbs hroom.toSites (hs.retains k1) e1.symm rfl (by rw [e2]) (by simp)) fun _ h2 k2 hw => ?_
    exact mem_pure ⟨fin hd1 e2 hroom k2 fun sv hb => (hw sv hb).1, by simp⟩
  | true =>
    simp only [Bool.not_true, Bool.false_eq_true, if_false]
    refine mem_bind (mem_create hd hm) fun g h2 k2 ⟨gi, hg1, g1, g2, groom⟩ => ?_
    obtain ⟨d', hd', f1, f2, f3⟩ := k2.ts r d hd1
    have hroom' := (hroom.retains k2).flags f1 f2 f3
    rw [M.bind_ok (getT_ok hd'), M.bind_ok (getT_ok hg1)]
    refine mem_bind (mem_tensorAbs hroom'.toSites ((hs.retains k1).retains k2) (f1.trans e1).symm rfl (by rw [f2, e2]) ?_) fun _ h3 k3 hw => ?_
    · intro gi' e
      obtain rfl := Option.some.inj e
      exact ⟨groom.toSites, g1, by rw [g2, f2, e2]⟩
    · obtain ⟨d3, hd3, _⟩ := k3.ts r d' hd'
      obtain ⟨gi', hg3, q1, q2, q3⟩ := k3.ts g gi hg1
      have hgs : Sits h3 gi' := Sits.flags (Room.wrote (groom.retains k3) fun sv hb => (hw sv (by rw [f2, e2, ← g2]; exact hb)).2 gi rfl) q1 q2 q3
      refine mem_bind (mem_known hd3 hg3 hgs _) fun _ h4 k4 hkn => ?_
      exact mem_pure ⟨(fin hd' (f2.trans e2) hroom' k3 fun sv hb => (hw sv hb).1).retains k4, fun _ => hkn⟩

theorem mem_abs {t : Nat} {i : Impl} (hi : h.ts[t]? = some i) (hv : Var h t) (hd : Dense i.view) (hm : Modest i.view.sizes i.dtype) :
    Mem h (absT t h) fun t h' => Var h' t := mem_mono (mem_abs' hi hv hd hm) fun _ _ _ hq => hq.1

theorem mem_extreme' {keep : COp} {t : Nat} {i : Impl} (hi : h.ts[t]? = some i) (hv : Var h t) (h0 : vol i.view.sizes ≠ 0)
    (hm : Modest i.view.sizes i.dtype) : Mem h (extreme keep t h) fun t h' => Var h' t ∧ (i.requiresGrad = true → Known h' t) := by
  obtain ⟨i', hi', hs, ht⟩ := hv
  rw [hi] at hi'
  obtain rfl := Option.some.inj hi'
  unfold extreme
  rw [M.bind_ok (getT_ok hi)]
  have ms := modest_scalar i.dtype
  refine mem_bind (mem_zeros ms) fun r h1 k1 hf => ?_
  cases hg : i.requiresGrad with
  | false =>
    simp only [Bool.not_false, if_true]
    have hf' := hf
    obtain ⟨d, hd, e1, e2, hds⟩ := hf'
    rw [M.bind_ok (getT_ok hd)]
    refine mem_bind (mem_tensorExtreme (scalar_ready hds e2) (hs.retains k1) e1.symm rfl h0 (by simp)) fun _ h2 k2 _ => ?_
    exact mem_pure ⟨(hf.retains k2).var ms, by simp⟩
  | true =>
    simp only [Bool.not_true, Bool.false_eq_true, if_false]
    obtain ⟨i1, hi1, f1, f2, f3⟩ := k1.ts t i hi
    refine mem_bind (Q := fun g h2 => Fine i.dtype i.view.sizes g h2) ?_ fun g h2 k2 hgf => ?_
    · unfold Tensor.zerosLike
      rw [M.bind_ok (getT_ok hi1), f1, f2]
      exact mem_zeros hm
    · have hf2 := hf.retains k2
      have hf' := hf2
      obtain ⟨d, hd, e1, e2, hds⟩ := hf'
      obtain ⟨gi, hg1, g1, g2, gs⟩ := hgf
      rw [M.bind_ok (getT_ok hd), M.bind_ok (getT_ok hg1)]
      refine mem_bind (mem_tensorExtreme (scalar_ready hds e2) ((hs.retains k1).retains k2) e1.symm rfl h0 ?_) fun _ h3 k3 _ => ?_
      · intro gi' e
        obtain rfl := Option.some.inj e
        exact ⟨gs.toSites, g1, by rw [g2]; rfl⟩
      · obtain ⟨gi', hg3, q1, q2, q3⟩ := k3.ts g gi hg1
        have hf3 := hf2.retains k3
        have hf' := hf3
        obtain ⟨d3, hd3, _⟩ := hf'
        refine mem_bind (mem_known hd3 hg3 ((gs.retains k3).flags q1 q2 q3) _) fun _ h4 k4 hkn => mem_pure ⟨(hf3.retains k4).var ms, fun _ => hkn⟩

theorem mem_extreme {keep : COp} {t : Nat} {i : Impl} (hi : h.ts[t]? = some i) (hv : Var h t) (h0 : vol i.view.sizes ≠ 0)
    (hm : Modest i.view.sizes i.dtype) : Mem h (extreme keep t h) fun t h' => Var h' t :=
  mem_mono (mem_extreme' hi hv h0 hm) fun _ _ _ hq => hq.1


/-! ### Flags and queries -/

theorem mem_setT {t : Nat} {i j : Impl} (hi : h.ts[t]? = some i) (h1 : j.dtype = i.dtype) (h2 : j.view = i.view) (h3 : j.data = i.data) :
    Mem h ((setT t j : M F Unit) h) fun _ _ => True := ⟨retains_setT hi h1 h2 h3, trivial⟩

theorem mem_setRequiresGrad {t : Nat} {b : Bool} (hv : Var h t) : Mem h (Tensor.setRequiresGrad t b h) fun _ _ => True := by
  obtain ⟨i, hi, _⟩ := hv
  unfold Tensor.setRequiresGrad
  rw [M.bind_ok (getT_ok hi)]
  cases b with
  | false =>
    simp only [Bool.false_eq_true, if_false]
    rw [M.bind_ok (getT_ok hi)]
    exact mem_setT hi rfl rfl rfl
  | true =>
    simp only [if_true]
    refine mem_bind mem_expect fun _ h1 k1 _ => ?_
    obtain ⟨i1, hi1, _⟩ := k1.ts t i hi
    rw [M.bind_ok (getT_ok hi1)]
    exact mem_setT hi1 rfl rfl rfl

theorem mem_setRetainGrad {t : Nat} {b : Bool} (hv : Var h t) : Mem h (Tensor.setRetainGrad t b h) fun _ _ => True := by
  obtain ⟨i, hi, _⟩ := hv
  unfold Tensor.setRetainGrad
  rw [M.bind_ok (getT_ok hi)]
  exact mem_setT hi rfl rfl rfl

theorem mem_zeroGrad {t : Nat} (hval : Valid h) (hv : Var h t) : Mem h (Tensor.zeroGrad t h) fun _ _ => True := by
  obtain ⟨i, hi, _⟩ := hv
  unfold Tensor.zeroGrad
  rw [M.bind_ok (getT_ok hi)]
  cases hg : i.grad with
  | none => exact mem_pure trivial
  | some g =>
    have hlt := hval.grad t g i hi hg
    have hgi : h.ts[g]? = some h.ts[g] := List.getElem?_eq_getElem hlt
    have hsi : h.st[h.ts[g].data]? = some (h.st[h.ts[g].data]'(hval.data g _ hgi)) := List.getElem?_eq_getElem _
    simp only
    rw [M.bind_ok (getT_ok hgi)]
    exact mem_mono (mem_zeroS hsi) fun _ _ _ _ => trivial

theorem mem_stride {t : Nat} (hv : Var h t) : Mem h (Tensor.stride t h) fun _ _ => True := by
  obtain ⟨i, hi, _⟩ := hv
  unfold Tensor.stride
  rw [M.bind_ok (getT_ok hi)]
  exact mem_raise _

theorem mem_loadBool {i : Impl} (hs : Sits h i) {p : Nat} (hp : Spot h i p) : Mem h (loadBoolByte i p h) fun _ h' => h' = h := by
  obtain ⟨s, c, h1, h2, h3, h4⟩ := hp
  have hq : p / s.dt.size < c.length := Nat.lt_of_le_of_lt (Nat.div_le_self _ _) h4
  obtain ⟨s', c', v, g1, _, g3, g4, _⟩ := hs.full _ ⟨s, c, h1, h2, h3, hq⟩
  rw [h1] at g1
  obtain rfl := Option.some.inj g1
  rw [h3] at g3
  obtain rfl := Option.some.inj g3
  unfold loadBoolByte
  rw [M.bind_ok (getS_ok h1)]
  simp only [h3, g4]
  rcases hb : byteOf s.dt v (p % s.dt.size) with _ | _ | n
  · exact mem_pure rfl
  · exact mem_pure rfl
  · exact .inr (.inr (.inr rfl))

theorem mem_allGo {i : Impl} (hs : Sits h i) : ∀ (l : List (List Nat)) (sv : List Nat) (n : Nat), Walk i.view.sizes sv l → l.length < n →
    (∀ x ∈ l, InBox i.view.sizes x) → Mem h (allGo i n sv h) fun _ _ => True
  | [], sv, n, hw, hn, _ => by
    obtain ⟨n, rfl⟩ : ∃ k, n = k + 1 := ⟨n - 1, by simp at hn; omega⟩
    unfold allGo
    rw [hw]
    exact mem_pure trivial
  | x :: l, sv, n, hw, hn, hin => by
    obtain ⟨n, rfl⟩ : ∃ k, n = k + 1 := ⟨n - 1, by simp at hn; omega⟩
    unfold allGo
    rw [hw.1]
    obtain ⟨p, e, _, hp⟩ := hs.index (hin x (by simp))
    simp only [e]
    refine (mem_bind (mem_loadBool hs hp) fun b h1 k1 e1 => ?_ : Mem h ((_ : M F Bool) h) _)
    rw [e1]
    split
    · exact mem_pure trivial
    · exact mem_allGo hs l _ n hw.2 (by simp at hn; omega) fun y hy => hin y (by simp [hy])

theorem mem_all {t : Nat} (hv : Var h t) : Mem h (allT t h) fun _ _ => True := by
  obtain ⟨i, hi, hs, _⟩ := hv
  unfold allT
  rw [M.bind_ok (getT_ok hi)]
  split
  · exact mem_pure trivial
  · rename_i h0
    split
    · rename_i hn
      exact mem_allGo hs _ _ _ (walk_rowMajor _ (by simpa using hn) (by simpa using h0)) (by rw [odoFuel_eq, length_rowMajor]; omega)
        fun x hx => mem_rowMajor.1 hx
    · rename_i hn
      have hnil : i.view.sizes = [] := by simpa using hn
      obtain ⟨p, e, _, hp⟩ := hs.index (idx := []) (by rw [hnil]; trivial)
      rw [e]
      exact mem_mono (mem_loadBool hs hp) fun _ _ _ _ => trivial

theorem mem_toString {t : Nat} (hv : Var h t) : Mem h (Tensor.toString t h) fun _ _ => True := by
  obtain ⟨i, hi, hs, _⟩ := hv
  obtain ⟨f, hf⟩ := hs.reads
  obtain ⟨s, c, h1, h2, h3, h4, h5⟩ := hs.cells
  rw [toString_ok ⟨i, hi, rfl, rfl, hf⟩ fun j hj idx hb => ?_]
  · exact mem_pure trivial
  · rw [hi] at hj
    obtain rfl := Option.some.inj hj
    obtain ⟨p, e, hp⟩ := h5 idx hb
    have := Nat.mul_le_mul_right i.dtype.size (Nat.le_of_lt hp)
    rw [e]
    have : ((p * i.dtype.size : Nat) : Int) < 9223372036854775808 := by omega
    simpa using this

/-! ### Concatenations and initialisers -/

theorem var_built {h' : Heap F} {t : Nat} {dt : DType} {s : List Nat} {f : List Nat → Val F} {gf : Option GradFn}
    (hb : Built h h' t dt s f gf) (hz : Sized h' t (vol s)) (hm : Modest s dt) : Var h' t := by
  obtain ⟨d, hobj, _⟩ := hb.obj
  obtain ⟨i, hi, e1, e2, hr⟩ := hb.denotes
  obtain ⟨j, st, c, hj, hs, hc, hl⟩ := hz
  rw [hi] at hobj hj
  obtain rfl := Option.some.inj hj
  have ei := (Option.some.inj hobj : i = _)
  have ev : i.view = Layout.contig s := by rw [ei]
  obtain ⟨s', c', g1, g2, g3, _, g5⟩ := hr.cells
  rw [hs] at g1
  obtain rfl := Option.some.inj g1
  rw [hc] at g3
  obtain rfl := Option.some.inj g3
  have hroom : Room h' i := room_of_dense (by rw [ev]; exact dense_contig (by have := hm.vol; omega)) hs g2 hc (by rw [hl, e2]) (by rw [e1, e2]; exact hm)
  refine ⟨i, hi, Room.wrote hroom fun sv hb => ?_, by rw [ev]; exact tame_contig hm.vol⟩
  obtain ⟨p, e, hp⟩ := g5 sv hb
  exact ⟨p, e, st, c, f sv, hs, g2, hc, hp, hr.typed sv hb⟩

theorem mem_init {tree : InitTree F} (ha : ∃ dt s, Uniform dt s tree ∧ Typed tree ∧ Modest s dt) :
    Mem h (ofInit tree h) fun o h' => ∀ t, o = some t → Var h' t := by
  obtain ⟨dt, s, hu, ht, hm⟩ := ha
  have hg : ∃ f : List Nat → Val F, ∀ idx, InBox s idx → entry idx tree = some (f idx) := by
    rcases initEval_cases tree (uniform_proper hu) with ⟨x, dt', _, hx⟩ | ⟨_, hn⟩
    · obtain ⟨rfl, _⟩ := uniform_shape hx.uniform hu
      refine ⟨fun idx => (x.data[rank x.shape idx]?).getD (.i 0), fun idx hb => ?_⟩
      have hlt : rank x.shape idx < x.data.length := by rw [hx.len]; exact rank_lt hb
      rw [hx.entries idx hb]; simp [hlt]
    · exact absurd hu (hn dt s)
  obtain ⟨g, hg⟩ := hg
  obtain ⟨h', e, hb, hz⟩ := ofInit_ok hu ht hm.bytes h g hg
  rw [e]
  exact ⟨hb.ext.retains, fun t he => by obtain rfl := Option.some.inj he; exact var_built hb hz hm⟩

theorem vars_blocks {d : Nat} {s : List Nat} : ∀ {ts : List Nat}, (∀ t ∈ ts, Var h t ∧ ∃ n, shapeOf h t = s.set d n) →
    ∃ bs : List (Block F), List.Forall₂ (fun t b => Denotes h t b.dt (s.set d b.n) b.f) ts bs ∧
      List.Forall₂ (fun t n => shapeOf h t = s.set d n) ts (bs.map (·.n))
  | [], _ => ⟨[], .nil, .nil⟩
  | t :: ts, hv => by
    obtain ⟨bs, h1, h2⟩ := vars_blocks fun u hu => hv u (List.mem_cons_of_mem t hu)
    obtain ⟨⟨i, hi, hs, _⟩, n, hn⟩ := hv t (by simp)
    obtain ⟨f, hf⟩ := hs.reads
    refine ⟨⟨i.dtype, n, f⟩ :: bs, .cons ⟨i, hi, rfl, ?_, hf⟩ h1, .cons hn h2⟩
    rw [← shapeOf_at hi]; exact hn

omit [FOps F] in
theorem axisTotal_eq : ∀ bs : List (Block F), axisTotal bs = (bs.map (·.n)).sum
  | [] => rfl
  | b :: bs => by rw [axisTotal, axisTotal_eq bs]; simp

theorem mem_cat' {ts : List Nat} {d : Nat} (hne : ts ≠ []) (hv : ∀ t ∈ ts, Var h t)
    (ha : ∀ (s : List Nat) (ns : List Nat), d < s.length → List.Forall₂ (fun t n => shapeOf h t = s.set d n) ts ns →
      ns.sum < 4611686018427387904 ∧ Modest (s.set d ns.sum) .f64) : Mem h (catT ts d h) fun t h' => Var h' t ∧
      ∃ (s ns : List Nat) (i : Impl), d < s.length ∧ List.Forall₂ (fun t n => shapeOf h t = s.set d n) ts ns ∧ h'.ts[t]? = some i ∧ i.view = Layout.contig (s.set d ns.sum) := by
  cases ts with
  | nil => exact absurd rfl hne
  | cons t0 rest =>
    obtain ⟨i0, hi0, hs0, _⟩ := hv t0 (by simp)
    by_cases hd : d < i0.view.sizes.length
    · by_cases hall : ∀ t ∈ t0 :: rest, ∃ n, shapeOf h t = i0.view.sizes.set d n
      · obtain ⟨bs, h1, h2⟩ := vars_blocks fun t ht => ⟨hv t ht, hall t ht⟩
        obtain ⟨a1, a2⟩ := ha _ _ hd h2
        rw [← axisTotal_eq] at a1 a2
        have hm := modest_of_f64 a2 (latest (bs.map (·.dt)))
        obtain ⟨h', is, _, e, hb, hz⟩ := catT_ok h1 hne hd (by omega) hm.bytes
        rw [e]
        obtain ⟨_, hobj, _⟩ := hb.obj
        exact ⟨hb.ext.retains, var_built hb hz hm, _, _, _, hd, h2, hobj, by rw [axisTotal_eq]⟩
      · push Not at hall
        obtain ⟨t, ht, hn⟩ := hall
        have hex : ∀ {ts : List Nat}, (∀ t ∈ ts, Var h t) → ∃ is, List.Forall₂ (fun t i => h.ts[t]? = some i) ts is := by
          intro ts
          induction ts with
          | nil => exact fun _ => ⟨[], .nil⟩
          | cons a ts ih =>
            intro hv
            obtain ⟨is, his⟩ := ih fun u hu => hv u (List.mem_cons_of_mem a hu)
            obtain ⟨i, hi, _⟩ := hv a (by simp)
            exact ⟨i :: is, .cons hi his⟩
        obtain ⟨others, ho⟩ := hex fun t ht => hv t (List.mem_cons_of_mem t0 ht)
        unfold Tensor.catT
        dsimp only
        rw [M.bind_ok (getT_ok hi0), M.bind_ok (a := ()) (h' := h) (by rw [decide_eq_true hd]; rfl), M.bind_ok (getAll_ok ho),
          M.bind_throw (catCheck_throw ?_)]
        · exact .refl h
        have hrest : t ∈ rest := by
          rcases List.mem_cons.1 ht with rfl | hr
          · refine absurd ?_ (hn (i0.view.sizes[d]))
            rw [shapeOf_at hi0]; simp
          · exact hr
        have hmem : ∀ {ts : List Nat} {is : List Impl}, List.Forall₂ (fun t i => h.ts[t]? = some i) ts is → t ∈ ts →
            ∃ i ∈ is, h.ts[t]? = some i := by
          intro ts is hf
          induction hf with
          | nil => simp
          | cons hb _ ih =>
            intro hm
            rcases List.mem_cons.1 hm with rfl | hm
            · exact ⟨_, by simp, hb⟩
            · obtain ⟨i, h1, h2⟩ := ih hm
              exact ⟨i, by simp [h1], h2⟩
        obtain ⟨i, him, hi⟩ := hmem ho hrest
        refine ⟨i, him, fun hf => hn ((i.view.sizes[d]?).getD 0) ?_⟩
        rw [shapeOf_at hi]
        refine List.ext_getElem? fun e => ?_
        by_cases he : d = e
        · subst he
          have : d < i.view.sizes.length := by rw [← hf.1]; exact hd
          rw [List.getElem?_set_self hd]; simp [this]
        · rw [List.getElem?_set_ne he]; exact (hf.2 e (Ne.symm he)).symm
    · unfold Tensor.catT
      dsimp only
      rw [M.bind_ok (getT_ok hi0), M.bind_throw (e := .runtime) (h' := h)]
      · exact .refl h
      · rw [decide_eq_false hd]; rfl

theorem mem_cat {ts : List Nat} {d : Nat} (hne : ts ≠ []) (hv : ∀ t ∈ ts, Var h t)
    (ha : ∀ (s : List Nat) (ns : List Nat), d < s.length → List.Forall₂ (fun t n => shapeOf h t = s.set d n) ts ns →
      ns.sum < 4611686018427387904 ∧ Modest (s.set d ns.sum) .f64) : Mem h (catT ts d h) fun t h' => Var h' t :=
  mem_mono (mem_cat' hne hv ha) fun _ _ _ hq => hq.1

end
end INNC
