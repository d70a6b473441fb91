import Verif.Lemmas.Build
import Verif.Lemmas.Examples
/-
C27 (constructors), C20 (comparisons), C26 (type conversion), C50 (unary operators), C30 (clone and detach).
-/
namespace INNC
open Spec
variable {F : Type} [FOps F]

theorem Built.contiguous {h h' : Heap F} {t dt sizes f gf} (hb : Built h h' t dt sizes f gf) :
    Tensor.isContiguousOf t h' = .ok true h' := by
  obtain ⟨d, hd, _⟩ := hb.obj
  have hc : isContiguous (Layout.contig sizes) = true := (isContiguous_iff (length_contigStrides sizes)).2 rfl
  unfold Tensor.isContiguousOf
  rw [M.bind_ok (getT_ok hd)]
  show Out.ok (isContiguous (Layout.contig sizes)) h' = _
  rw [hc]

/-! ### Constructors -/

/-- **C27**, zeros: a new contiguous tensor of the requested type and shape, every element 0; nothing else changes. -/
theorem C27_zeros (sizes : List Nat) (dt : DType) (hsize : vol sizes * dt.size < 9223372036854775808) (h : Heap F) :
    ∃ t h', Tensor.zeros sizes dt h = .ok t h' ∧ Denotes h' t dt sizes (fun _ => zeroElem dt) ∧
      Extends h h' ∧ Fresh h h' t ∧ Tensor.isContiguousOf t h' = .ok true h' := by
  obtain ⟨h', e, b, _⟩ := zeros_ok hsize h
  exact ⟨_, h', e, b.denotes, b.ext, b.fresh, b.contiguous⟩

/-- **C27**, ones. -/
theorem C27_ones (sizes : List Nat) (dt : DType) (hsize : vol sizes * dt.size < 9223372036854775808) (h : Heap F) :
    ∃ t h', Tensor.ones sizes dt h = .ok t h' ∧ Denotes h' t dt sizes (fun _ => oneElem dt) ∧
      Extends h h' ∧ Fresh h h' t ∧ Tensor.isContiguousOf t h' = .ok true h' := by
  obtain ⟨h', t, e, b⟩ := fillNew_ok (F := F) (nt := .i8) (v := .i 1) (by rw [hasType_i]; decide)
    (convert_one .i8 dt (Or.inl rfl)) hsize h
  exact ⟨t, h', e, b.denotes, b.ext, b.fresh, b.contiguous⟩

/-- **C27**, full: every element is the given number converted to the tensor's type. `numType` is `i64` for the integer
overload and `f64` for the floating-point one; a float that is not representable in an integer type is undefined. -/
theorem C27_full (sizes : List Nat) (numType dt : DType) (num w : Val F) (hn : num.HasType numType)
    (hw : convert numType dt num = some w) (hsize : vol sizes * dt.size < 9223372036854775808) (h : Heap F) :
    ∃ t h', Tensor.full sizes numType num dt h = .ok t h' ∧ Denotes h' t dt sizes (fun _ => w) ∧
      Extends h h' ∧ Fresh h h' t ∧ Tensor.isContiguousOf t h' = .ok true h' := by
  obtain ⟨h', t, e, b⟩ := fillNew_ok hn hw hsize h
  exact ⟨t, h', e, b.denotes, b.ext, b.fresh, b.contiguous⟩

/-- **C27**, eye: ones where the two indices agree, zeros elsewhere. -/
theorem C27_eye (n m : Nat) (dt : DType) (hsize : vol [n, m] * dt.size < 9223372036854775808) (h : Heap F) :
    ∃ t h', Tensor.eye n m dt h = .ok t h' ∧
      Denotes h' t dt [n, m] (fun idx => if idx.getD 0 0 = idx.getD 1 0 then oneElem dt else zeroElem dt) ∧
      Extends h h' ∧ Fresh h h' t ∧ Tensor.isContiguousOf t h' = .ok true h' := by
  obtain ⟨h', e, b⟩ := eye_ok hsize h (convert_one (F := F) .i32 dt (Or.inr rfl))
  exact ⟨_, h', e, b.denotes, b.ext, b.fresh, b.contiguous⟩

/-- **C27**, from_blob: the element at `idx` is the blob's element number `rank sizes idx`. -/
theorem C27_fromBlob (data : List (Val F)) (sizes : List Nat) (dt : DType)
    (hsize : vol sizes * dt.size < 9223372036854775808) (hlen : vol sizes ≤ data.length)
    (hty : ∀ v ∈ data, v.HasType dt) (h : Heap F) (g : List Nat → Val F)
    (hg : ∀ idx, InBox sizes idx → data[rank sizes idx]? = some (g idx)) :
    ∃ t h', Tensor.fromBlob data sizes dt h = .ok t h' ∧ Denotes h' t dt sizes g ∧
      Extends h h' ∧ Fresh h h' t ∧ Tensor.isContiguousOf t h' = .ok true h' := by
  obtain ⟨h', e, b⟩ := fromBlob_ok hsize h hlen hty g hg
  exact ⟨_, h', e, b.denotes, b.ext, b.fresh, b.contiguous⟩

/-- **C27**, zeros_like and ones_like: shape and type of the given tensor, whatever its elements and strides. -/
theorem C27_like {h : Heap F} {u : Nat} {i : Impl} (hu : h.ts[u]? = some i)
    (hsize : vol i.view.sizes * i.dtype.size < 9223372036854775808) :
    (∃ t h', Tensor.zerosLike u h = .ok t h' ∧ Denotes h' t i.dtype i.view.sizes (fun _ => zeroElem i.dtype) ∧
      Extends h h' ∧ Fresh h h' t ∧ Tensor.isContiguousOf t h' = .ok true h') ∧
    (∃ t h', Tensor.onesLike u h = .ok t h' ∧ Denotes h' t i.dtype i.view.sizes (fun _ => oneElem i.dtype) ∧
      Extends h h' ∧ Fresh h h' t ∧ Tensor.isContiguousOf t h' = .ok true h') := by
  constructor
  · unfold Tensor.zerosLike
    rw [M.bind_ok (getT_ok hu)]
    exact C27_zeros _ _ hsize h
  · unfold Tensor.onesLike
    rw [M.bind_ok (getT_ok hu)]
    exact C27_ones _ _ hsize h

example : ∃ t h', Tensor.full [2, 3] .i64 (.i 300) .i8 exHeap = .ok t h' ∧ Denotes h' t .i8 [2, 3] (fun _ => .i 44) ∧
    Extends exHeap h' ∧ Fresh exHeap h' t ∧ Tensor.isContiguousOf t h' = .ok true h' :=
  C27_full [2, 3] .i64 .i8 (.i 300) (.i 44) (by decide) (by decide) (by decide) exHeap
example : ∃ t h', Tensor.fromBlob [.i 5, .i 6, .i 7, .i 8] [2, 2] .i16 exHeap = .ok t h' ∧
    Denotes h' t .i16 [2, 2] (fun idx => .i (5 + 2 * idx.getD 0 0 + idx.getD 1 0)) ∧
    Extends exHeap h' ∧ Fresh exHeap h' t ∧ Tensor.isContiguousOf t h' = .ok true h' :=
  C27_fromBlob _ _ _ (by decide) (by decide) (by decide) exHeap _ (forall_inBox (by decide))

/-! ### Comparisons -/

/-- **C20.** A comparison returns a new `i8` tensor of the broadcast shape that holds 1 where the relation holds between
the operands' elements and 0 elsewhere. It is never undefined on valid operands.
Partial: the restriction on empty axes of C14 (`C14_empty_axis`). -/
theorem C20_compare_partial {op : COp} {h : Heap F} {l r : Nat} {dl dr : DType} {sl sr s : List Nat}
    {fl fr : List Nat → Val F}
    (hl : Denotes h l dl sl fl) (hr : Denotes h r dr sr fr) (hs : bshape sl sr = some s) (hst : ¬ stretched sl sr)
    (hsize : vol s * DType.i8.size < 9223372036854775808) :
    ∃ t h', Tensor.cmp op l r h = .ok t h' ∧ Denotes h' t .i8 s (fun idx =>
      .i (if elemCompare op dl dr (fl (project sl idx)) (fr (project sr idx)) then 1 else 0)) ∧
      Extends h h' ∧ Fresh h h' t := by
  obtain ⟨h', e, b⟩ := cmp_ok (op := op) hl hr hs hst hsize
  exact ⟨_, h', e, b.denotes, b.ext, b.fresh⟩

/-- **C20**, integers: exactly one of `<`, `==`, `>` holds, and `<=`, `>=`, `!=` are the complements. -/
theorem C20_trichotomy (s t : DType) (a b : Int) :
    let c (op : COp) : Bool := elemCompare (F := F) op s t (.i a) (.i b)
    ((c .lt = true ∧ c .eq = false ∧ c .gt = false) ∨ (c .lt = false ∧ c .eq = true ∧ c .gt = false) ∨
      (c .lt = false ∧ c .eq = false ∧ c .gt = true)) ∧
    c .le = !c .gt ∧ c .ge = !c .lt ∧ c .ne = !c .eq := by
  simp only [elemCompare, icompare]
  rcases Int.lt_trichotomy a b with h | h | h
  · have h1 : ¬ b < a := by omega
    have h2 : a ≤ b := by omega
    have h3 : ¬ b ≤ a := by omega
    have h4 : a ≠ b := by omega
    simp [h, h1, h2, h3, h4]
  · subst h; simp
  · have h1 : ¬ a < b := by omega
    have h2 : b ≤ a := by omega
    have h3 : ¬ a ≤ b := by omega
    have h4 : a ≠ b := by omega
    simp [h, h1, h2, h3, h4]

/-- **C20**, swapping the operands. -/
theorem C20_swap (s t : DType) (x y : Val F) (hx : x.HasType s) (hy : y.HasType t) :
    elemCompare .lt s t x y = elemCompare .gt t s y x ∧ elemCompare .le s t x y = elemCompare .ge t s y x := by
  unfold elemCompare
  rw [later_comm t s]
  cases x <;> cases y <;> exact ⟨rfl, rfl⟩

example : ∃ t h', Tensor.cmp .lt 1 0 exHeap = .ok t h' ∧ Denotes h' t .i8 [2, 3] (fun idx =>
    .i (if elemCompare .lt .i32 .i16 (exB (project [3] idx)) (exA (project [2, 3] idx)) then 1 else 0)) ∧
    Extends exHeap h' ∧ Fresh exHeap h' t :=
  C20_compare_partial exHeap_b exHeap_a (by decide) (by simp [stretched, stretchRev]) (by decide)

/-! ### Type conversion -/

/-- **C26.** `type(dt)` for another type returns a new tensor of that type and the same shape holding the converted
elements. -/
theorem C26_convert {h : Heap F} {t : Nat} {ds dt : DType} {s : List Nat} {f g : List Nat → Val F} {i : Impl}
    (hd : Denotes h t ds s f) (hi : h.ts[t]? = some i) (hne : dt ≠ ds)
    (hgrad : ¬ (i.requiresGrad = true ∧ isInteger dt = true)) (hsize : vol s * dt.size < 9223372036854775808)
    (hg : ∀ idx, InBox s idx → convert ds dt (f idx) = some (g idx)) :
    ∃ t' h', Tensor.toType t dt h = .ok t' h' ∧ Denotes h' t' dt s g ∧ Extends h h' ∧ Fresh h h' t' := by
  obtain ⟨i', hi', rfl, rfl, hr⟩ := hd
  rw [hi] at hi'
  obtain rfl := Option.some.inj hi'
  obtain ⟨h', e, b⟩ := toType_ok hi hr hne hgrad hsize hg
  exact ⟨_, h', e, b.denotes, b.ext, b.fresh⟩

/-- **C26.** Converting to the tensor's own type returns the same tensor and changes nothing. -/
theorem C26_same {h : Heap F} {t : Nat} {i : Impl} (hi : h.ts[t]? = some i)
    (hgrad : ¬ (i.requiresGrad = true ∧ isInteger i.dtype = true)) : Tensor.toType t i.dtype h = .ok t h := by
  unfold Tensor.toType
  rw [M.bind_ok (getT_ok hi), if_neg (by simp [isInt_eq]; simpa using hgrad), if_pos rfl]
  rfl

/-- **C26.** A tensor that requires grad cannot be converted to an integer type: `runtime_error`, nothing changes. -/
theorem C26_grad_rejected {h : Heap F} {t : Nat} {i : Impl} {dt : DType} (hi : h.ts[t]? = some i)
    (hgrad : i.requiresGrad = true) (hdt : isInteger dt = true) : Tensor.toType t dt h = .throw .runtime h := by
  unfold Tensor.toType
  rw [M.bind_ok (getT_ok hi), if_pos (by simp [isInt_eq, hgrad, hdt])]
  rfl

/-- Integer elements convert to a wider integer type and back unchanged. -/
theorem convert_roundtrip {s t : DType} (hs : isInteger s = true) (ht : isInteger t = true) (hw : width s ≤ width t)
    {v : Val F} (hv : v.HasType s) : convert s t v = some v ∧ convert t s v = some v := by
  cases v with
  | f x => rw [hasType_f] at hv; simp [hs] at hv
  | i n =>
    rw [hasType_i] at hv
    have h1 : InRange (width t) n := inRange_mono hw hv.2
    unfold convert
    rw [if_pos hs, if_pos ht]
    simp only
    rw [reduce_self (width_pos t) h1, reduce_self (width_pos s) hv.2]
    exact ⟨rfl, rfl⟩

/-- **C26.** Widening an integer tensor and converting it back restores every element: the two calls succeed and the
final tensor denotes the original elements. -/
theorem C26_widen_roundtrip {h : Heap F} {t : Nat} {ds dt : DType} {s : List Nat} {f : List Nat → Val F} {i : Impl}
    (hd : Denotes h t ds s f) (hi : h.ts[t]? = some i) (hg : i.requiresGrad = false) (hs : isInteger ds = true)
    (ht : isInteger dt = true) (hw : width ds ≤ width dt) (hne : dt ≠ ds)
    (hsize : vol s * dt.size < 9223372036854775808) (hsize' : vol s * ds.size < 9223372036854775808) :
    ∃ t1 h1 t2 h2, Tensor.toType t dt h = .ok t1 h1 ∧ Tensor.toType t1 ds h1 = .ok t2 h2 ∧
      Denotes h1 t1 dt s f ∧ Denotes h2 t2 ds s f ∧ Denotes h2 t ds s f := by
  have hd0 := hd
  obtain ⟨i', hi', rfl, rfl, hr⟩ := hd
  rw [hi] at hi'
  obtain rfl := Option.some.inj hi'
  obtain ⟨h1, e1, b1⟩ := toType_ok hi hr hne (by simp [hg]) hsize
    (fun idx hb => (convert_roundtrip hs ht hw (hr.typed idx hb)).1)
  rw [hg] at b1
  obtain ⟨d, hobj, _⟩ := b1.obj
  obtain ⟨j, hj, hj1, hj2, hjr⟩ := b1.denotes
  rw [hobj] at hj
  obtain rfl := Option.some.inj hj
  obtain ⟨h2, e2, b2⟩ := toType_ok (dt := i.dtype) hobj hjr (fun hc => hne hc.symm) (by simp) hsize'
    (fun idx hb => (convert_roundtrip hs ht hw (hr.typed idx hb)).2)
  exact ⟨_, h1, _, h2, e1, e2, b1.denotes, b2.denotes, hd0.of_extends (b1.ext.trans b2.ext)⟩

example : ∃ t1 h1 t2 h2, Tensor.toType 2 .i64 exHeap = .ok t1 h1 ∧ Tensor.toType t1 .i16 h1 = .ok t2 h2 ∧
    Denotes h1 t1 .i64 [3, 2] (fun idx => exA [idx.getD 1 0, idx.getD 0 0]) ∧
    Denotes h2 t2 .i16 [3, 2] (fun idx => exA [idx.getD 1 0, idx.getD 0 0]) ∧
    Denotes h2 2 .i16 [3, 2] (fun idx => exA [idx.getD 1 0, idx.getD 0 0]) :=
  C26_widen_roundtrip exHeap_aT rfl rfl rfl rfl (by decide) (by decide) (by decide) (by decide)

/-! ### Unary operators -/

/-- **C50**, unary minus: a new tensor of the later of `i32` and `a`'s type, with `a`'s shape, whose elements are
`0 - a[idx]` computed as `i32` minus `a`'s type. -/
theorem C50_neg {h : Heap F} {t : Nat} {dt : DType} {s : List Nat} {f g : List Nat → Val F} (hd : Denotes h t dt s f)
    (hsize : vol s * (later .i32 dt).size < 9223372036854775808)
    (hg : ∀ idx, InBox s idx → elemArith .sub .i32 dt (.i 0) (f idx) = some (g idx)) :
    ∃ t' h', Tensor.negT t h = .ok t' h' ∧ Denotes h' t' (later .i32 dt) s g ∧ Extends h h' ∧ Fresh h h' t' := by
  obtain ⟨h1, e1, b1, _⟩ := createScalar_ok (F := F) (dt := .i32) (v := .i 0) (by rw [hasType_i]; decide) h
  have hbs : bshape [] s = some s := by
    rw [bshape_comm]
    unfold bshape
    rw [show ([] : List Nat).reverse = [] from rfl]
    have : ∀ u : List Nat, bshapeRev u [] = some u := by
      intro u; cases u <;> rfl
    rw [this]; simp
  have hns : ¬ stretched [] s := by
    unfold stretched; simp [stretchRev]
  obtain ⟨h', _, _, _, _, _, e, d, ex, fr, _⟩ := arith_ok (op := .sub) b1.denotes (hd.of_extends b1.ext) hbs hns hsize
    (g := g) (fun idx hb => by
      rw [project_self hb]
      unfold elemBinary
      rw [if_neg (by simp)]
      exact hg idx hb)
  unfold Tensor.negT
  rw [M.bind_ok e1]
  refine ⟨_, h', e, d, b1.ext.trans ex, Nat.le_trans b1.ext.ts_len fr.1, ?_⟩
  obtain ⟨i, hi, hl⟩ := fr.2
  exact ⟨i, hi, Nat.le_trans b1.ext.st_len hl⟩

/-- **C50**, unary plus: the same tensor, nothing changes. -/
theorem C50_pos (t : Nat) (h : Heap F) : Tensor.posT t h = .ok t h := rfl

example : ∃ t' h', Tensor.negT 2 exHeap = .ok t' h' ∧
    Denotes h' t' .i32 [3, 2] (fun idx => .i (-(3 * idx.getD 1 0 + idx.getD 0 0 + 1))) ∧
    Extends exHeap h' ∧ Fresh exHeap h' t' :=
  C50_neg exHeap_aT (by decide) (forall_inBox (by decide))

end INNC
