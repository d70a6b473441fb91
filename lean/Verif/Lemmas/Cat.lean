import Mathlib.Data.List.Forall2
import Verif.Lemmas.Build
import Verif.Lemmas.ViewOps
import Verif.Lemmas.Track
import Verif.Spec.Cat
/-
Concatenation.
-/
namespace INNC
open Spec Tensor
variable {F : Type}

theorem inBox_set : ∀ {sizes idx : List Nat} {d n m : Nat}, InBox (sizes.set d n) idx → n ≤ m → InBox (sizes.set d m) idx
  | [], [], _, _, _, _, _ => by simp [InBox]
  | [], _ :: _, _, _, _, h, _ => by simp [InBox] at h
  | a :: s, [], 0, _, _, h, _ => by simp [InBox] at h
  | a :: s, [], d + 1, _, _, h, _ => by simp [InBox] at h
  | a :: s, i :: is, 0, _, _, h, hm => by
    simp only [List.set_cons_zero, InBox] at h ⊢
    exact ⟨by omega, h.2⟩
  | a :: s, i :: is, d + 1, _, _, h, hm => by
    simp only [List.set_cons_succ, InBox] at h ⊢
    exact ⟨h.1, inBox_set h.2 hm⟩

theorem inBox_set_set : ∀ {sizes idx : List Nat} {d n m k : Nat}, InBox (sizes.set d n) idx → k < m →
    InBox (sizes.set d m) (idx.set d k)
  | [], [], _, _, _, _, _, _ => by simp [InBox]
  | [], _ :: _, _, _, _, _, h, _ => by simp [InBox] at h
  | a :: s, [], 0, _, _, _, h, _ => by simp [InBox] at h
  | a :: s, [], d + 1, _, _, _, h, _ => by simp [InBox] at h
  | a :: s, i :: is, 0, _, _, _, h, hm => by
    simp only [List.set_cons_zero, InBox] at h ⊢
    exact ⟨by omega, h.2⟩
  | a :: s, i :: is, d + 1, _, _, _, h, hm => by
    simp only [List.set_cons_succ, InBox] at h ⊢
    exact ⟨h.1, inBox_set_set h.2 hm⟩

theorem inBox_set_lt : ∀ {sizes idx : List Nat} {d n : Nat}, d < sizes.length → InBox (sizes.set d n) idx →
    ∃ k, idx[d]? = some k ∧ k < n
  | a :: s, i :: is, 0, _, _, h => by
    simp only [List.set_cons_zero, InBox] at h
    exact ⟨i, rfl, h.1⟩
  | a :: s, i :: is, d + 1, _, hd, h => by
    simp only [List.set_cons_succ, InBox] at h
    obtain ⟨k, hk⟩ := inBox_set_lt (by simpa using hd) h.2
    exact ⟨k, by simpa using hk⟩
  | a :: s, [], 0, _, _, h => by simp [InBox] at h
  | a :: s, [], d + 1, _, _, h => by simp [InBox] at h

theorem rank_set {S idx : List Nat} {d k y : Nat} {st : Int} (hl : idx.length = S.length) (hk : idx[d]? = some k)
    (hs : (rmStrides S)[d]? = some st) : (rank S (idx.set d y) : Int) = rank S idx + st * ((y : Int) - k) := by
  rw [← dot_rmStrides (by simpa using hl), ← dot_rmStrides hl]
  exact dot_set_right _ _ _ _ _ _ hs hk

theorem rmStrides_nonneg : ∀ {S : List Nat} {d : Nat} {st : Int}, (rmStrides S)[d]? = some st → ∃ n : Nat, st = n
  | [], _, _, h => by simp [rmStrides] at h
  | a :: S, 0, _, h => ⟨vol S, by simpa [rmStrides] using h.symm⟩
  | a :: S, d + 1, _, h => rmStrides_nonneg (S := S) (d := d) (by simpa [rmStrides] using h)

variable [FOps F]

/-- Copying one block. -/
theorem tensorCat_ok {h : Heap F} {dt : DType} {sizes : List Nat} {d n tot s : Nat} {i : Impl} {f g : List Nat → Val F}
    {st : Int} (hd : d < sizes.length) (hsz : vol (sizes.set d tot) < 9223372036854775808) (hr : Reads h i f)
    (hi : i.view.sizes = sizes.set d n) (hst : (contigStrides (sizes.set d tot))[d]? = some st)
    (hg : ∀ idx, InBox (sizes.set d n) idx → cConv i.dtype dt (f idx) = .ok (g idx))
    (hsn : s + n ≤ tot) (c : List (Option (Val F))) (hc : c.length = vol (sizes.set d tot)) :
    ∃ c', tensorCat dt i.dtype (newImpl dt (sizes.set d tot) h.st.length) i (wrapU (s * st))
        ((h.alloc dt (sizes.set d tot)).setCells h.st.length c) =
          .ok () ((h.alloc dt (sizes.set d tot)).setCells h.st.length c') ∧ c'.length = c.length ∧
      (∀ idx, InBox (sizes.set d n) idx →
        c'[rank (sizes.set d tot) (idx.set d (s + idx.getD d 0))]? = some (some (g idx))) ∧
      (∀ q, (∀ idx, InBox (sizes.set d n) idx → q ≠ rank (sizes.set d tot) (idx.set d (s + idx.getD d 0))) → c'[q]? = c[q]?) := by
  have hdl : d < (sizes.set d tot).length := by simpa using hd
  have hne : i.data ≠ h.st.length := by have := hr.data_lt; omega
  let p : List Nat → Nat := fun idx => rank (sizes.set d tot) (idx.set d (s + idx.getD d 0))
  have hbox : ∀ idx, InBox (sizes.set d n) idx → InBox (sizes.set d tot) (idx.set d (s + idx.getD d 0)) := by
    intro idx hb
    obtain ⟨k, hk, hkn⟩ := inBox_set_lt hd hb
    exact inBox_set_set hb (by rw [List.getD_eq_getElem?_getD, hk]; simp; omega)
  have hpl : ∀ idx, InBox (sizes.set d n) idx → p idx < c.length := fun idx hb => by
    rw [hc]; exact rank_lt (hbox idx hb)
  unfold tensorCat
  rw [forEach_eq]
  have hrun := runAll_cells (fun sv => do
      let x ← load i.dtype i (← M.lift (cntFromIndex i.view sv))
      let x ← M.lift (cConv i.dtype dt x)
      let pos ← M.lift (cntFromIndex (newImpl dt (sizes.set d tot) h.st.length).view sv)
      store dt (newImpl dt (sizes.set d tot) h.st.length) (wrapU (wrapU (s * st) + pos)) x)
    (h.alloc dt (sizes.set d tot)) h.st.length (fun idx c => c.modify (p idx) (fun _ => some (g idx)))
    (fun c' => c'.length = c.length) (rowMajor i.view.sizes) c rfl (fun x _ c hc => by simpa using hc) ?_
  · refine ⟨_, hrun, foldl_modify_length _ _ _ _, ?_, ?_⟩
    · intro idx hb
      have hmem : idx ∈ rowMajor i.view.sizes := by rw [hi]; exact mem_rowMajor.2 hb
      have key := foldl_modify_at p (fun idx _ => some (g idx)) (nodup_rowMajor i.view.sizes) ?_ hmem c
      · rw [show rank (sizes.set d tot) (idx.set d (s + idx.getD d 0)) = p idx from rfl, key,
          List.getElem?_eq_getElem (hpl idx hb)]
        rfl
      · intro a ha b hb' hab
        rw [hi] at ha hb'
        have ha := mem_rowMajor.1 ha
        have hb' := mem_rowMajor.1 hb'
        have he := rank_inj (hbox a ha) (hbox b hb') hab
        obtain ⟨k, hk, _⟩ := inBox_set_lt hd ha
        obtain ⟨l, hl, _⟩ := inBox_set_lt hd hb'
        have hda := getElem?_lt hk
        have hdb := getElem?_lt hl
        apply List.ext_getElem?
        intro e
        by_cases hed : d = e
        · subst hed
          have h1 := congrArg (fun l => l[d]?) he
          simp only [List.getElem?_set_self hda, List.getElem?_set_self hdb, List.getD_eq_getElem?_getD, hk, hl,
            Option.getD_some, Option.some.injEq] at h1
          rw [hk, hl]
          congr 1
          omega
        · have h1 := congrArg (fun l => l[e]?) he
          simpa only [List.getElem?_set_ne hed] using h1
    · intro q hq
      exact foldl_modify_ne p _ (fun x hx => (hq x (by rw [hi] at hx; exact mem_rowMajor.1 hx)).symm) c
  · intro idx hmem c' hc'
    have hb : InBox i.view.sizes idx := mem_rowMajor.1 hmem
    have hbn : InBox (sizes.set d n) idx := by rw [← hi]; exact hb
    have hbt : InBox (sizes.set d tot) idx := inBox_set hbn (by omega)
    have h0 : 0 ∉ sizes.set d tot := vol_pos_iff.1 hbt.vol_pos
    obtain ⟨k, hk, hkn⟩ := inBox_set_lt hd hbn
    have hkd : idx.getD d 0 = k := by rw [List.getD_eq_getElem?_getD, hk]; rfl
    have e1 := ((hr.of_extends (extends_alloc h dt (sizes.set d tot))).setCells_ne hne c').load_index hb
    rw [← bind_assoc, M.bind_ok e1, hg idx hbn, M.bind_ok (M.lift_ok _ _)]
    have hcnt : cntFromIndex (newImpl dt (sizes.set d tot) h.st.length).view idx =
        .ok (rank (sizes.set d tot) idx) := by
      rw [cntFromIndex_eq hbt.length (Nat.le_of_eq (length_contigStrides _).symm) (by show (0 : Nat) < _; decide), Layout.pos_eq]
      rw [show (newImpl dt (sizes.set d tot) h.st.length).view = Layout.contig (sizes.set d tot) from rfl,
        contig_position hsz hbt, wrapU_natCast (by have := rank_lt hbt; omega)]
    rw [hcnt, M.bind_ok (M.lift_ok _ _)]
    have hst' : (rmStrides (sizes.set d tot))[d]? = some st := by
      rw [← contigStrides_eq_rm h0 hsz]; exact hst
    have hrs := rank_set (y := s + k) hbt.length hk hst'
    have hlt := rank_lt (hbox idx hbn)
    rw [hkd] at hlt
    have hpos : wrapU ((wrapU (s * st) : Nat) + (rank (sizes.set d tot) idx : Nat)) = p idx := by
      show _ = rank (sizes.set d tot) (idx.set d (s + idx.getD d 0))
      rw [hkd]
      have hge : 0 ≤ (s : Int) * st := by
        have : 0 ≤ st := by
          obtain ⟨n, rfl⟩ := rmStrides_nonneg hst'
          omega
        positivity
      have hle : (s : Int) * st < 18446744073709551616 := by
        have : (rank (sizes.set d tot) (idx.set d (s + k)) : Int) < 9223372036854775808 := by omega
        push_cast at hrs
        have e : st * ((s : Int) + k - k) = s * st := by ring
        rw [e] at hrs
        omega
      rw [wrapU_eq_toNat hge hle]
      have e : (rank (sizes.set d tot) (idx.set d (s + k)) : Int) = rank (sizes.set d tot) idx + s * st := by
        rw [hrs]; push_cast; ring
      rw [Int.toNat_of_nonneg hge, Int.add_comm, ← e, wrapU_natCast (by omega)]
    have hso : store dt (newImpl dt (sizes.set d tot) h.st.length) (p idx) (g idx)
        ((h.alloc dt (sizes.set d tot)).setCells h.st.length c') = .ok () _ :=
      store_ok (i := newImpl dt (sizes.set d tot) h.st.length)
        (Heap.setCells_st_self (alloc_getS h dt (sizes.set d tot)) c') rfl rfl (by rw [hc']; exact hpl idx hbn)
    rw [hpos, hso]
    rw [show (newImpl dt (sizes.set d tot) h.st.length).data = h.st.length from rfl, Heap.setCells_setCells, set_eq_modify c']

/-- What is known of an operand of `cat`. -/
structure CatOp (h : Heap F) (sizes : List Nat) (d : Nat) (dt : DType) (i : Impl) (b : Block F) : Prop where
  reads : Reads h i b.f
  type : i.dtype = b.dt
  shape : i.view.sizes = sizes.set d b.n
  conv : ∀ idx, InBox (sizes.set d b.n) idx → cConv b.dt dt (b.f idx) = .ok (converted b.dt dt (b.f idx))

theorem catGo_ok {h : Heap F} {dt : DType} {sizes : List Nat} {d tot : Nat} {G : List Nat → Val F}
    (hd : d < sizes.length) (hsz : vol (sizes.set d tot) < 9223372036854775808) (htot : tot < 18446744073709551616) :
    ∀ (is : List Impl) (bs : List (Block F)) (_ : List.Forall₂ (CatOp h sizes d dt) is bs) (s : Nat)
      (c : List (Option (Val F))), s + axisTotal bs = tot → c.length = vol (sizes.set d tot) →
      (∀ idx, InBox (sizes.set d tot) idx → idx.getD d 0 < s →
        c[rank (sizes.set d tot) idx]? = some (some (G idx))) →
      (∀ idx, InBox (sizes.set d tot) idx → s ≤ idx.getD d 0 → G idx = catAt d dt bs (idx.set d (idx.getD d 0 - s))) →
      ∃ c', catGo d dt (newImpl dt (sizes.set d tot) h.st.length) s is
          ((h.alloc dt (sizes.set d tot)).setCells h.st.length c) =
            .ok () ((h.alloc dt (sizes.set d tot)).setCells h.st.length c') ∧ c'.length = c.length ∧
        ∀ idx, InBox (sizes.set d tot) idx → c'[rank (sizes.set d tot) idx]? = some (some (G idx)) := by
  intro is bs hf
  induction hf with
  | nil =>
    intro s c hs hc hlo _
    refine ⟨c, rfl, rfl, fun idx hb => hlo idx hb ?_⟩
    obtain ⟨k, hk, hkn⟩ := inBox_set_lt hd hb
    rw [List.getD_eq_getElem?_getD, hk]
    simp only [axisTotal] at hs
    simp only [Option.getD_some]
    omega
  | @cons i b is bs hib _ ih =>
    intro s c hs hc hlo hhi
    simp only [axisTotal] at hs
    obtain ⟨st, hst⟩ : ∃ st, (contigStrides (sizes.set d tot))[d]? = some st :=
      ⟨_, List.getElem?_eq_getElem (by rw [length_contigStrides]; simpa using hd)⟩
    obtain ⟨c1, e1, hc1, hin, hout⟩ := tensorCat_ok (g := fun idx => converted b.dt dt (b.f idx)) (s := s) hd hsz hib.reads
      hib.shape hst (fun idx hb => by rw [hib.type]; exact hib.conv idx hb) (by omega) c hc
    unfold catGo
    have hv : vecAt (newImpl dt (sizes.set d tot) h.st.length).view.strides d = .ok st := by
      unfold vecAt
      rw [show (newImpl dt (sizes.set d tot) h.st.length).view.strides = contigStrides (sizes.set d tot) from rfl, hst]
    rw [hv, M.bind_ok (M.lift_ok _ _), M.bind_ok e1]
    have hsa : sizeAt i d = .ok b.n := by
      unfold sizeAt
      rw [hib.shape, List.getElem?_set_self hd]
    rw [hsa, M.bind_ok (M.lift_ok _ _)]
    have hw : wrapU ((s : Int) + b.n) = s + b.n := by
      rw [← Int.natCast_add, wrapU_natCast (by omega)]
    rw [hw]
    have hrest := ih (s + b.n) c1 (by omega) (by rw [hc1, hc]) ?_ ?_
    · obtain ⟨c2, e2, hc2, hfin⟩ := hrest
      exact ⟨c2, e2, by rw [hc2, hc1], hfin⟩
    · intro idx hb hlt
      obtain ⟨k, hk, hkn⟩ := inBox_set_lt hd hb
      have hkd : idx.getD d 0 = k := by rw [List.getD_eq_getElem?_getD, hk]; rfl
      by_cases hks : k < s
      · rw [hout]
        · exact hlo idx hb (by omega)
        · intro idx' hb' he
          obtain ⟨k', hk', hkn'⟩ := inBox_set_lt hd hb'
          have hkd' : idx'.getD d 0 = k' := by rw [List.getD_eq_getElem?_getD, hk']; rfl
          have := rank_inj hb (inBox_set_set hb' (k := s + idx'.getD d 0) (by omega)) he
          rw [this, List.getElem?_set_self (getElem?_lt hk')] at hk
          simp at hk
          omega
      · have hbk : InBox (sizes.set d b.n) (idx.set d (k - s)) := inBox_set_set hb (by omega)
        have := hin (idx.set d (k - s)) hbk
        have hgd : (idx.set d (k - s)).getD d 0 = k - s := by
          rw [List.getD_eq_getElem?_getD, List.getElem?_set_self (getElem?_lt hk)]; rfl
        rw [hgd, List.set_set, show s + (k - s) = k by omega] at this
        have hself : idx.set d k = idx := by
          apply List.ext_getElem?
          intro e
          by_cases hde : d = e
          · subst hde; rw [List.getElem?_set_self (getElem?_lt hk), hk]
          · rw [List.getElem?_set_ne hde]
        rw [hself] at this
        rw [this, hhi idx hb (by omega), hkd]
        unfold catAt
        rw [hgd, if_pos (by omega)]
    · intro idx hb hle
      obtain ⟨k, hk, hkn⟩ := inBox_set_lt hd hb
      have hkd : idx.getD d 0 = k := by rw [List.getD_eq_getElem?_getD, hk]; rfl
      rw [hhi idx hb (by omega), hkd]
      have hgd : (idx.set d (k - s)).getD d 0 = k - s := by
        rw [List.getD_eq_getElem?_getD, List.getElem?_set_self (getElem?_lt hk)]; rfl
      rw [catAt, hgd, if_neg (by omega), List.set_set, show k - s - b.n = k - (s + b.n) by omega]

omit [FOps F] in
theorem getAll_ok {h : Heap F} {ts : List Nat} {is : List Impl} (hf : List.Forall₂ (fun t i => h.ts[t]? = some i) ts is) :
    getAll ts h = .ok is h := by
  induction hf with
  | nil => rfl
  | cons hi _ ih =>
    unfold getAll
    rw [M.bind_ok (getT_ok hi), M.bind_ok ih]; rfl

theorem catCheckSizes_iff (d : Nat) : ∀ (j : Nat) (a b : List Nat), a.length = b.length →
    (catCheckSizes d j a b = true ↔ ∀ e, j + e ≠ d → a[e]? = b[e]?)
  | j, [], [], _ => by simp [catCheckSizes]
  | j, x :: a, y :: b, hl => by
    have ih := catCheckSizes_iff d (j + 1) a b (by simpa using hl)
    simp only [catCheckSizes, Bool.and_eq_true, Bool.or_eq_true, beq_iff_eq, ih]
    constructor
    · rintro ⟨h1, h2⟩ e he
      cases e with
      | zero => rcases h1 with h1 | h1
                · exact absurd h1 he
                · simp [h1]
      | succ e => simpa using h2 e (by omega)
    · intro h
      refine ⟨?_, fun e he => by simpa using h (e + 1) (by omega)⟩
      by_cases hj : j = d
      · exact .inl hj
      · exact .inr (by simpa using h 0 (by simpa using hj))
  | j, [], y :: b, hl => by simp at hl
  | j, x :: a, [], hl => by simp at hl

/-- Two shapes of the same rank that agree off axis `d`. -/
def Fits (d : Nat) (a b : List Nat) : Prop := a.length = b.length ∧ ∀ e, e ≠ d → a[e]? = b[e]?

omit [FOps F] in
theorem catCheck_ok {d : Nat} {first : Impl} {h : Heap F} : ∀ {is : List Impl},
    (∀ i ∈ is, Fits d first.view.sizes i.view.sizes) → catCheck d first is h = .ok () h
  | [], _ => rfl
  | i :: is, hf => by
    obtain ⟨h1, h2⟩ := hf i (by simp)
    unfold catCheck
    rw [M.bind_ok (a := ()) (h' := h) (by rw [decide_eq_true h1]; rfl),
      M.bind_ok (a := ()) (h' := h) (by rw [(catCheckSizes_iff d 0 _ _ h1).2 (by simpa using h2)]; rfl)]
    exact catCheck_ok fun j hj => hf j (by simp [hj])

omit [FOps F] in
theorem catCheck_throw {d : Nat} {first : Impl} {h : Heap F} : ∀ {is : List Impl},
    (∃ i ∈ is, ¬ Fits d first.view.sizes i.view.sizes) → catCheck d first is h = .throw .runtime h
  | i :: is, hf => by
    unfold catCheck
    by_cases h1 : first.view.sizes.length = i.view.sizes.length
    · rw [M.bind_ok (a := ()) (h' := h) (by rw [decide_eq_true h1]; rfl)]
      cases h2 : catCheckSizes d 0 first.view.sizes i.view.sizes with
      | false => rfl
      | true =>
        refine (M.bind_ok (a := ()) (h' := h) rfl).trans ?_
        apply catCheck_throw
        obtain ⟨j, hj, hn⟩ := hf
        rcases List.mem_cons.1 hj with rfl | hj
        · exact absurd ⟨h1, by simpa using (catCheckSizes_iff d 0 _ _ h1).1 h2⟩ hn
        · exact ⟨j, hj, hn⟩
    · rw [decide_eq_false h1]; rfl

theorem later_assoc (a b c : DType) : later (later a b) c = later a (later b c) := by cases a <;> cases b <;> cases c <;> rfl

theorem foldl_larger_latest : ∀ (is : List Impl) (d : DType),
    is.foldl (fun d i => DType.larger d i.dtype) d = later d (latest (is.map (·.dtype)))
  | [], d => by cases d <;> rfl
  | i :: is, d => by
    rw [List.foldl_cons, foldl_larger_latest is, larger_eq_later, later_assoc]; rfl

theorem later_latest_self (d : DType) (ds : List DType) : later d (latest (d :: ds)) = latest (d :: ds) := by
  show later d (later d (latest ds)) = later d (latest ds)
  rw [← later_assoc]
  cases d <;> rfl

theorem order_le_latest : ∀ {ds : List DType} {d : DType}, d ∈ ds → order d ≤ order (latest ds)
  | e :: ds, d, h => by
    have key : ∀ a b : DType, order a ≤ order (later a b) ∧ order b ≤ order (later a b) := by
      intro a b; cases a <;> cases b <;> decide
    rcases List.mem_cons.1 h with rfl | h
    · exact (key _ _).1
    · exact le_trans (order_le_latest h) (key _ _).2

/-- Converting an element to a later type always succeeds. -/
theorem convert_later {s t : DType} (hst : order s ≤ order t) {v : Val F} (hv : v.HasType s) :
    convert s t v = some (converted s t v) := by
  have : ∃ w, convert s t v = some w := by
    unfold convert
    cases v with
    | i n => split <;> exact ⟨_, rfl⟩
    | f x =>
      rw [if_neg]
      · exact ⟨_, rfl⟩
      · have hs : isInteger s = false := by
          cases s <;> first | rfl | exact absurd (show DType.isFloat _ = true from hv) (by decide)
        cases s <;> cases t <;> simp_all [isInteger, order]
  obtain ⟨w, hw⟩ := this
  rw [hw, converted, hw]; rfl

theorem foldl_total {d : Nat} : ∀ (is : List Impl) (bs : List (Block F)) (_ : List.Forall₂ (fun i b => i.view.sizes[d]? = some b.n) is bs)
    (s : Nat), s + axisTotal bs < 18446744073709551616 →
    is.foldl (fun (n : Nat) (i : Impl) => wrapU (n + i.view.sizes.getD d 0)) s = s + axisTotal bs := by
  intro is bs hf
  induction hf with
  | nil => intro s _; rfl
  | @cons i b is bs hib _ ih =>
    intro s hs
    simp only [axisTotal] at hs ⊢
    rw [List.foldl_cons]
    have : i.view.sizes.getD d 0 = b.n := by rw [List.getD_eq_getElem?_getD, hib]; rfl
    rw [this, ← Int.natCast_add, wrapU_natCast (by omega), ih _ (by omega)]
    omega

theorem catAt_hasType {dt : DType} {d : Nat} {sizes : List Nat} (hd : d < sizes.length) : ∀ (bs : List (Block F))
    (_ : ∀ b ∈ bs, ∀ idx, InBox (sizes.set d b.n) idx → (converted b.dt dt (b.f idx)).HasType dt) (idx : List Nat),
    InBox (sizes.set d (axisTotal bs)) idx → (catAt d dt bs idx).HasType dt
  | [], _, _, _ => zeroElem_hasType dt
  | b :: bs, hb, idx, hi => by
    obtain ⟨k, hk, hkn⟩ := inBox_set_lt hd hi
    have hkd : idx.getD d 0 = k := by rw [List.getD_eq_getElem?_getD, hk]; rfl
    unfold catAt
    rw [hkd]
    simp only [axisTotal] at hkn
    have hself : idx.set d k = idx := by
      apply List.ext_getElem?
      intro e
      by_cases hde : d = e
      · subst hde; rw [List.getElem?_set_self (getElem?_lt hk), hk]
      · rw [List.getElem?_set_ne hde]
    split
    · rename_i hlt
      have := inBox_set_set hi hlt
      rw [hself] at this
      exact hb b (by simp) idx this
    · exact catAt_hasType hd bs (fun b' hb' => hb b' (by simp [hb'])) _ (inBox_set_set hi (by omega))

theorem catT_ok {h : Heap F} {d : Nat} {sizes : List Nat} {ts : List Nat} {bs : List (Block F)}
    (hts : List.Forall₂ (fun t b => Denotes h t b.dt (sizes.set d b.n) b.f) ts bs) (hne : ts ≠ []) (hd : d < sizes.length)
    (htot : axisTotal bs < 9223372036854775808)
    (hsz : vol (sizes.set d (axisTotal bs)) * (latest (bs.map (·.dt))).size < 9223372036854775808) :
    ∃ h' is, List.Forall₂ (fun t i => h.ts[t]? = some i) ts is ∧ catT ts d h = .ok h.ts.length h' ∧
      Built h h' h.ts.length (latest (bs.map (·.dt))) (sizes.set d (axisTotal bs)) (catAt d (latest (bs.map (·.dt))) bs)
        (if is.any (fun i => i.requiresGrad) then some ⟨.cat d, ts, 0, 0, 0⟩ else none) ∧
      Sized h' h.ts.length (vol (sizes.set d (axisTotal bs))) := by
  have hex : ∃ is, List.Forall₂ (fun t i => h.ts[t]? = some i) ts is ∧ List.Forall₂ (fun i (b : Block F) =>
      Reads h i b.f ∧ i.dtype = b.dt ∧ i.view.sizes = sizes.set d b.n) is bs := by
    clear htot hsz hne
    induction hts with
    | nil => exact ⟨[], .nil, .nil⟩
    | cons hb _ ih =>
      obtain ⟨is, h1, h2⟩ := ih
      obtain ⟨i, hi, e1, e2, hr⟩ := hb
      exact ⟨i :: is, .cons hi h1, .cons ⟨hr, e1, e2⟩ h2⟩
  obtain ⟨is, his, hib⟩ := hex
  have hdt : is.map (·.dtype) = bs.map (·.dt) := by
    clear his hts htot hsz
    induction hib with
    | nil => rfl
    | cons hb _ ih => simp only [List.map_cons, ih, hb.2.1]
  have hcat : List.Forall₂ (CatOp h sizes d (latest (bs.map (·.dt)))) is bs := by
    have hle : ∀ b ∈ bs, order b.dt ≤ order (latest (bs.map (·.dt))) := fun b hb =>
      order_le_latest (List.mem_map_of_mem hb)
    generalize latest (bs.map (·.dt)) = dt at hle
    clear his hdt htot hsz hts
    induction hib with
    | nil => exact .nil
    | cons hb _ ih =>
      refine .cons ⟨hb.1, hb.2.1, hb.2.2, fun idx hi => ?_⟩ (ih fun b hb => hle b (by simp [hb]))
      have hty := hb.1.typed idx (by rw [hb.2.2]; exact hi)
      rw [hb.2.1] at hty
      exact cConv_of_convert hty (convert_later (hle _ (by simp)) hty)
  have hty : ∀ b ∈ bs, ∀ idx, InBox (sizes.set d b.n) idx →
      (converted b.dt (latest (bs.map (·.dt))) (b.f idx)).HasType (latest (bs.map (·.dt))) := by
    have hle : ∀ b ∈ bs, order b.dt ≤ order (latest (bs.map (·.dt))) := fun b hb =>
      order_le_latest (List.mem_map_of_mem hb)
    generalize latest (bs.map (·.dt)) = dt at hle
    clear his hdt htot hsz hts hcat
    induction hib with
    | nil => intro b hb; simp at hb
    | cons hb _ ih =>
      intro b hm idx hi
      rcases List.mem_cons.1 hm with rfl | hm
      · have hty := hb.1.typed idx (by rw [hb.2.2]; exact hi)
        rw [hb.2.1] at hty
        exact convert_hasType (convert_later (hle _ (by simp)) hty)
      · exact ih (fun b hb => hle b (by simp [hb])) b hm idx hi
  have hn : List.Forall₂ (fun i (b : Block F) => i.view.sizes[d]? = some b.n) is bs :=
    hib.imp fun i b hb => by rw [hb.2.2, List.getElem?_set_self hd]
  have hfirst : ∀ i ∈ is, ∃ n, i.view.sizes = sizes.set d n := by
    clear his hdt htot hsz hts hcat hty hn
    induction hib with
    | nil => intro i hi; simp at hi
    | cons hb _ ih =>
      intro i hm
      rcases List.mem_cons.1 hm with rfl | hm
      · exact ⟨_, hb.2.2⟩
      · exact ih i hm
  suffices hs : ∃ h', catT ts d h = .ok h.ts.length h' ∧
      Built h h' h.ts.length (latest (bs.map (·.dt))) (sizes.set d (axisTotal bs)) (catAt d (latest (bs.map (·.dt))) bs)
        (if is.any (fun i => i.requiresGrad) then some ⟨.cat d, ts, 0, 0, 0⟩ else none) ∧
      Sized h' h.ts.length (vol (sizes.set d (axisTotal bs))) from
    let ⟨h', e⟩ := hs; ⟨h', is, his, e⟩
  cases his with
  | nil => exact absurd rfl hne
  | @cons t0 i0 rest others hi0 hrest =>
    have hv := vol_lt_of_bytes hsz
    obtain ⟨n0, hn0⟩ := hfirst i0 (by simp)
    unfold catT
    have hex : expect (F := F) (decide (d < i0.view.sizes.length)) h = .ok () h := by
      rw [hn0, decide_eq_true (by simpa using hd)]; rfl
    have hchk : catCheck d i0 others h = .ok () h := by
      refine catCheck_ok fun i hi => ?_
      obtain ⟨n, hn⟩ := hfirst i (by simp [hi])
      rw [hn, hn0]
      exact ⟨by simp, fun e he => by rw [List.getElem?_set_ne (Ne.symm he), List.getElem?_set_ne (Ne.symm he)]⟩
    have htt := foldl_total _ _ hn 0 (by omega)
    rw [Nat.zero_add] at htt
    have hset : i0.view.sizes.set d (axisTotal bs) = sizes.set d (axisTotal bs) := by rw [hn0, List.set_set]
    have hdty : (i0 :: others).foldl (fun d i => DType.larger d i.dtype) i0.dtype = latest (bs.map (·.dt)) := by
      rw [foldl_larger_latest, List.map_cons, later_latest_self, ← List.map_cons, hdt]
    dsimp only
    rw [M.bind_ok (getT_ok hi0), M.bind_ok hex, M.bind_ok (getAll_ok hrest), M.bind_ok hchk]
    rw [htt, hset, hdty, M.bind_ok (create_ok hsz h), M.bind_ok (getT_ok (alloc_getT h _ _))]
    have hself : (h.alloc (latest (bs.map (·.dt))) (sizes.set d (axisTotal bs))).setCells h.st.length
        (List.replicate (vol (sizes.set d (axisTotal bs))) none) = h.alloc (latest (bs.map (·.dt))) (sizes.set d (axisTotal bs)) :=
      Heap.setCells_eq_self (alloc_getS h _ _) rfl
    obtain ⟨c', e, hc', hval⟩ := catGo_ok (G := catAt d (latest (bs.map (·.dt))) bs) hd (by omega) (by omega) _ _ hcat 0
      (List.replicate (vol (sizes.set d (axisTotal bs))) none) (by omega) (by simp) (by simp) (fun idx hb _ => by
        obtain ⟨k, hk, hkn⟩ := inBox_set_lt hd hb
        congr 1
        apply List.ext_getElem?
        intro e
        by_cases hde : d = e
        · subst hde; rw [List.getElem?_set_self (getElem?_lt hk), List.getD_eq_getElem?_getD, hk]; rfl
        · rw [List.getElem?_set_ne hde])
    rw [hself] at e
    rw [M.bind_ok e]
    have hw := slots_alloc hsz h
    have hb := built_new (h := h) (H := h) (dt := latest (bs.map (·.dt))) (s := sizes.set d (axisTotal bs)) (c := c')
      (g := catAt d (latest (bs.map (·.dt))) bs) (Extends.refl h) rfl (by
      refine ⟨hw.strides, hw.offset, ⟨_, _, Heap.setCells_st_self (alloc_getS h _ _) _, rfl, rfl, ?_, ?_⟩, ?_⟩
      · rw [hc']; simpa using by omega
      · intro idx hb
        exact ⟨_, contig_position hv hb, hval idx hb⟩
      · exact fun idx hb => catAt_hasType hd bs hty idx hb)
    have hs := Heap.setCells_st_self (alloc_getS h (latest (bs.map (·.dt))) (sizes.set d (axisTotal bs))) c'
    have hl : c'.length = vol (sizes.set d (axisTotal bs)) := by rw [hc']; simp
    cases hg : (i0 :: others).any (fun i => i.requiresGrad) with
    | false => exact ⟨_, rfl, hb, _, _, c', alloc_getT h _ _, hs, rfl, hl⟩
    | true =>
      have hT : ((h.alloc (latest (bs.map (·.dt))) (sizes.set d (axisTotal bs))).setCells h.st.length c').ts[h.ts.length]? =
          some (newImpl (latest (bs.map (·.dt))) (sizes.set d (axisTotal bs)) h.st.length) := alloc_getT h _ _
      obtain ⟨h'', e3, b3, hst, _⟩ := hb.setGradFn (.cat d) (t0 :: rest)
      refine ⟨h'', M.bind_ok e3, b3, ?_⟩
      rw [setGradFn_ok hT] at e3
      injection e3 with _ e4
      have hT' := List.getElem?_set_self (a := { newImpl (latest (bs.map (·.dt))) (sizes.set d (axisTotal bs)) h.st.length with
        requiresGrad := true, gradFn := some ⟨.cat d, t0 :: rest, 0, 0, 0⟩ }) (getElem?_lt hT)
      exact ⟨_, _, c', by rw [← e4]; exact hT', by rw [hst]; exact hs, rfl, hl⟩

end INNC
