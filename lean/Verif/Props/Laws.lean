import Verif.Lemmas.Laws
import Verif.Props.Outcome
import Verif.Props.Construct
import Verif.Props.Reduce
import Verif.Props.Cat
import Verif.Props.Print
/-
C62: results depend on types, shapes and elements only. C26 for elements that cannot be converted.
-/
namespace INNC
open Spec
variable {F : Type} [FOps F]

/-- **C26**, the remaining case: if some element has no value in the new type, the behaviour is undefined. -/
theorem C26_undefined {h : Heap F} {t : Nat} {ds dt : DType} {s : List Nat} {f : List Nat → Val F} {i : Impl}
    (hd : Denotes h t ds s f) (hi : h.ts[t]? = some i) (hne : dt ≠ ds)
    (hgrad : ¬ (i.requiresGrad = true ∧ isInteger dt = true)) (hsize : vol s * dt.size < 9223372036854775808)
    (hx : ∃ idx, InBox s idx ∧ convert ds dt (f idx) = none) : Tensor.toType t dt h = .ub .floatToInt := by
  obtain ⟨i', hi', rfl, rfl, hr⟩ := hd
  rw [hi] at hi'
  obtain rfl := Option.some.inj hi'
  exact toType_undefined hi hr hne hgrad hsize hx

/-- The float 300 has no `i8` value. -/
example : let h : Heap Int := ⟨[⟨.f32, 8, some [some (.f 3), some (.f 300)]⟩], [⟨.f32, ⟨[2], [1], 0⟩, 0, none, false, false, none⟩], 0⟩
    Tensor.toType 0 .i8 h = .ub .floatToInt :=
  C26_undefined (s := [2]) (f := fun idx => .f (if idx.getD 0 0 = 0 then 3 else 300))
    ⟨_, rfl, rfl, rfl, reads_of_check (by decide) (by decide) rfl rfl rfl (by decide) (by decide) (by decide)⟩ rfl
    (by decide) (by decide) (by decide) ⟨[1], by decide, by decide⟩

/-! ### C62

In each theorem there are two memories, `h` and `k`. The operands are different tensors in different memories: they may have
different strides and offsets, share their storage with other tensors or not, stand beside other tensors. Only their types, shapes and
elements are the same. -/

/-- **C62**, arithmetic. -/
theorem C62_arith (op : AOp) {h k : Heap F} {l r l' r' : Nat} {dl dr : DType} {sl sr : List Nat} {fl fr : List Nat → Val F}
    (hl : Denotes h l dl sl fl) (hr : Denotes h r dr sr fr) (hl' : Denotes k l' dl sl fl) (hr' : Denotes k r' dr sr fr)
    (hsize : vol (maxShape sl sr) * (later dl dr).size < 9223372036854775808) :
    Agree (arithT op l r h) (arithT op l' r' k) := by
  have not : ∀ {P : List Nat → Prop} {s x}, FirstNot s P x → (∀ y, InBox s y → P y) → False := fun hf hall => hf.2.1 (hall _ hf.1)
  have same : ∀ {P : List Nat → Prop} {s x y}, FirstNot s P x → FirstNot s P y → rank s x = rank s y := by
    intro P s x y hx hy
    rcases Nat.lt_trichotomy (rank s x) (rank s y) with hlt | he | hgt
    · exact absurd (hy.2.2 x hx.1 hlt) hx.2.1
    · exact he
    · exact absurd (hx.2.2 y hy.1 hgt) hy.2.1
  rcases C60_arith op hl hr hsize with ⟨g, hg, t, h1, e, d, _⟩ | ⟨x, hx, hm, h1, e, _⟩ | ⟨x, hx, hm, e⟩ <;>
    rcases C60_arith op hl' hr' hsize with ⟨g', hg', t', h1', e', d', _⟩ | ⟨x', hx', hm', h1', e', _⟩ | ⟨x', hx', hm', e'⟩
  · refine .inl ⟨t, h1, t', h1', _, _, g, e, e', d, d'.congr fun idx hb => ?_⟩
    exact Option.some.inj ((hg' idx hb).2.symm.trans (hg idx hb).2)
  · exact (not hx' fun y hy => ⟨(hg y hy).1, by rw [(hg y hy).2]; simp⟩).elim
  · exact (not hx' fun y hy => ⟨(hg y hy).1, by rw [(hg y hy).2]; simp⟩).elim
  · exact (not hx fun y hy => ⟨(hg' y hy).1, by rw [(hg' y hy).2]; simp⟩).elim
  · exact .inr (.inl ⟨_, _, _, e, e'⟩)
  · exact absurd (rank_inj hx.1 hx'.1 (same hx hx') ▸ hm') hm
  · exact (not hx fun y hy => ⟨(hg' y hy).1, by rw [(hg' y hy).2]; simp⟩).elim
  · exact absurd (rank_inj hx.1 hx'.1 (same hx hx') ▸ hm) hm'
  · refine .inr (.inr ?_)
    rcases e with e | e <;> rcases e' with e' | e' <;> exact ⟨_, _, e, e'⟩

/-- **C62**, comparisons. -/
theorem C62_compare (op : COp) {h k : Heap F} {l r l' r' : Nat} {dl dr : DType} {sl sr : List Nat} {fl fr : List Nat → Val F}
    (hl : Denotes h l dl sl fl) (hr : Denotes h r dr sr fr) (hl' : Denotes k l' dl sl fl) (hr' : Denotes k r' dr sr fr)
    (hsize : vol (maxShape sl sr) < 9223372036854775808) : Agree (Tensor.cmp op l r h) (Tensor.cmp op l' r' k) := by
  rcases C60_compare op hl hr hsize with ⟨ha, t, h1, e, d, _⟩ | ⟨⟨x, hx, hm⟩, h1, e, _⟩ <;>
    rcases C60_compare op hl' hr' hsize with ⟨ha', t', h1', e', d', _⟩ | ⟨⟨x', hx', hm'⟩, h1', e', _⟩
  · exact .inl ⟨t, h1, t', h1', _, _, _, e, e', d, d'⟩
  · exact absurd (ha x' hx') hm'
  · exact absurd (ha' x hx) hm
  · exact .inr (.inl ⟨_, _, _, e, e'⟩)

/-- **C62**, unary minus. -/
theorem C62_neg {h k : Heap F} {t t' : Nat} {dt : DType} {s : List Nat} {f : List Nat → Val F}
    (hd : Denotes h t dt s f) (hd' : Denotes k t' dt s f) (hsize : vol s * (later .i32 dt).size < 9223372036854775808) :
    Agree (Tensor.negT t h) (Tensor.negT t' k) := by
  obtain ⟨h1, e1, b1, _⟩ := createScalar_ok (F := F) (dt := .i32) (v := .i 0) (by rw [hasType_i]; decide) h
  obtain ⟨k1, e1', b1', _⟩ := createScalar_ok (F := F) (dt := .i32) (v := .i 0) (by rw [hasType_i]; decide) k
  unfold Tensor.negT
  rw [M.bind_ok e1, M.bind_ok e1']
  exact C62_arith .sub b1.denotes (hd.of_extends b1.ext) b1'.denotes (hd'.of_extends b1'.ext) (by rw [maxShape_nil]; exact hsize)

/-- **C62**, `sum`. -/
theorem C62_sum {h k : Heap F} {t t' : Nat} {dt : DType} {s : List Nat} {f : List Nat → Val F}
    (hd : Denotes h t dt s f) (hd' : Denotes k t' dt s f) (hsize : vol s < 18446744073709551616) :
    Agree (Tensor.sumT t h) (Tensor.sumT t' k) := by
  cases hv : sumOf dt s f with
  | some v =>
    obtain ⟨r, h1, e, d, _⟩ := C22_sum hd hsize hv
    obtain ⟨r', k1, e', d', _⟩ := C22_sum hd' hsize hv
    exact .inl ⟨_, _, _, _, _, _, _, e, e', d, d'⟩
  | none => exact .inr (.inr ⟨_, _, C22_overflow hd hsize hv, C22_overflow hd' hsize hv⟩)

/-- **C62**, `mean`. -/
theorem C62_mean {h k : Heap F} {t t' : Nat} {dt : DType} {s : List Nat} {f : List Nat → Val F}
    (hd : Denotes h t dt s f) (hd' : Denotes k t' dt s f) (hsize : vol s < 9223372036854775808) :
    Agree (Tensor.meanT t h) (Tensor.meanT t' k) := by
  cases hv : meanOf dt s f with
  | some v =>
    obtain ⟨r, h1, e, d, _⟩ := C23_mean hd hsize hv
    obtain ⟨r', k1, e', d', _⟩ := C23_mean hd' hsize hv
    exact .inl ⟨_, _, _, _, _, _, _, e, e', d, d'⟩
  | none =>
    have := (C23_overflow hd hsize).1.1 hv
    exact .inr (.inr ⟨_, _, (C23_overflow hd hsize).2 this, (C23_overflow hd' hsize).2 this⟩)

/-- **C62**, `type`, if both tensors require a gradient or neither does. -/
theorem C62_convert {h k : Heap F} {t t' : Nat} {ds dt : DType} {s : List Nat} {f : List Nat → Val F} {i i' : Impl}
    (hd : Denotes h t ds s f) (hd' : Denotes k t' ds s f) (hi : h.ts[t]? = some i) (hi' : k.ts[t']? = some i')
    (hgrad : i.requiresGrad = i'.requiresGrad) (hsize : vol s * dt.size < 9223372036854775808) :
    Agree (Tensor.toType t dt h) (Tensor.toType t' dt k) := by
  by_cases hr : i.requiresGrad = true ∧ isInteger dt = true
  · exact .inr (.inl ⟨_, _, _, C26_grad_rejected hi hr.1 hr.2, C26_grad_rejected hi' (hgrad ▸ hr.1) hr.2⟩)
  have hr' : ¬ (i'.requiresGrad = true ∧ isInteger dt = true) := hgrad ▸ hr
  by_cases hne : dt = ds
  · obtain ⟨j, hj, h1, _⟩ := id hd
    rw [hi] at hj
    obtain rfl := Option.some.inj hj
    obtain ⟨j', hj', h1', _⟩ := id hd'
    rw [hi'] at hj'
    obtain rfl := Option.some.inj hj'
    subst hne
    have e := C26_same hi (by rw [h1]; exact hr)
    have e' := C26_same hi' (by rw [h1']; exact hr')
    rw [h1] at e
    rw [h1'] at e'
    exact .inl ⟨_, _, _, _, _, _, _, e, e', hd, hd'⟩
  by_cases hx : ∃ idx, InBox s idx ∧ convert ds dt (f idx) = none
  · exact .inr (.inr ⟨_, _, C26_undefined hd hi hne hr hsize hx, C26_undefined hd' hi' hne hr' hsize hx⟩)
  · have hg : ∀ idx, InBox s idx → convert ds dt (f idx) = some ((convert ds dt (f idx)).getD (.i 0)) := by
      intro idx hb
      obtain ⟨z, hz⟩ := Option.ne_none_iff_exists'.1 fun hc => hx ⟨idx, hb, hc⟩
      rw [hz]; rfl
    obtain ⟨r, h1, e, d, _⟩ := C26_convert hd hi hne hr hsize hg
    obtain ⟨r', k1, e', d', _⟩ := C26_convert hd' hi' hne hr' hsize hg
    exact .inl ⟨_, _, _, _, _, _, _, e, e', d, d'⟩

/-- **C62**, `clone`. -/
theorem C62_clone {h k : Heap F} {t t' : Nat} {dt : DType} {s : List Nat} {f : List Nat → Val F}
    (hd : Denotes h t dt s f) (hd' : Denotes k t' dt s f) (hsize : vol s * dt.size < 9223372036854775808) :
    Agree (Tensor.clone t h) (Tensor.clone t' k) := by
  obtain ⟨h1, _, _, e, b⟩ := clone_ok hd hsize
  obtain ⟨k1, _, _, e', b'⟩ := clone_ok hd' hsize
  exact .inl ⟨_, _, _, _, _, _, _, e, e', b.denotes, b'.denotes⟩

/-- **C62**, `cat`. -/
theorem C62_cat {h k : Heap F} {d : Nat} {sizes : List Nat} {ts ts' : List Nat} {blocks : List (Block F)}
    (hts : List.Forall₂ (fun t b => Denotes h t b.dt (sizes.set d b.n) b.f) ts blocks)
    (hts' : List.Forall₂ (fun t b => Denotes k t b.dt (sizes.set d b.n) b.f) ts' blocks) (hne : ts ≠ [])
    (hd : d < sizes.length) (htot : axisTotal blocks < 9223372036854775808)
    (hsize : vol (sizes.set d (axisTotal blocks)) * (latest (blocks.map (·.dt))).size < 9223372036854775808) :
    Agree (Tensor.catT ts d h) (Tensor.catT ts' d k) := by
  have hne' : ts' ≠ [] := by
    rintro rfl
    cases hts'
    cases hts
    exact hne rfl
  obtain ⟨r, h1, e, d1, _⟩ := C29_cat hts hne hd htot hsize
  obtain ⟨r', k1, e', d', _⟩ := C29_cat hts' hne' hd htot hsize
  exact .inl ⟨_, _, _, _, _, _, _, e, e', d1, d'⟩

/-- **C62**, `to_string`: the same text. -/
theorem C62_text {h k : Heap F} {t t' : Nat} {dt : DType} {s : List Nat} {f : List Nat → Val F}
    (hd : Denotes h t dt s f) (hd' : Denotes k t' dt s f) (ha : Addressable h t) (ha' : Addressable k t') :
    ∃ text, Tensor.toString t h = .ok text h ∧ Tensor.toString t' k = .ok text k :=
  ⟨_, C31_listing hd ha, C31_listing hd' ha'⟩

/-- A contiguous tensor with the elements of the transposed matrix, in another memory. -/
def exCopyHeap : Heap Int := ⟨[⟨.i16, 12, some [some (.i 1), some (.i 4), some (.i 2), some (.i 5), some (.i 3), some (.i 6)]⟩],
  [⟨.i16, ⟨[3, 2], [2, 1], 0⟩, 0, none, false, false, none⟩], 0⟩
theorem exCopy : Denotes exCopyHeap 0 .i16 [3, 2] fun idx => exA [idx.getD 1 0, idx.getD 0 0] :=
  ⟨_, rfl, rfl, rfl, reads_of_check (by decide) (by decide) rfl rfl rfl (by decide) (by decide) (by decide)⟩

/-! The hypotheses of each theorem hold for the two. -/
example : Agree (arithT .add 2 2 exHeap) (arithT .add 0 0 exCopyHeap) := C62_arith .add exHeap_aT exHeap_aT exCopy exCopy (by decide)
example : Agree (Tensor.cmp .lt 2 2 exHeap) (Tensor.cmp .lt 0 0 exCopyHeap) := C62_compare .lt exHeap_aT exHeap_aT exCopy exCopy (by decide)
example : Agree (Tensor.negT 2 exHeap) (Tensor.negT 0 exCopyHeap) := C62_neg exHeap_aT exCopy (by decide)
example : Agree (Tensor.sumT 2 exHeap) (Tensor.sumT 0 exCopyHeap) := C62_sum exHeap_aT exCopy (by decide)
example : Agree (Tensor.meanT 2 exHeap) (Tensor.meanT 0 exCopyHeap) := C62_mean exHeap_aT exCopy (by decide)
example : Agree (Tensor.toType 2 .f32 exHeap) (Tensor.toType 0 .f32 exCopyHeap) := C62_convert exHeap_aT exCopy rfl rfl rfl (by decide)
example : Agree (Tensor.clone 2 exHeap) (Tensor.clone 0 exCopyHeap) := C62_clone exHeap_aT exCopy (by decide)
example : Agree (Tensor.catT [2, 2] 1 exHeap) (Tensor.catT [0, 0] 1 exCopyHeap) :=
  C62_cat (sizes := [3, 0]) (blocks := [⟨.i16, 2, _⟩, ⟨.i16, 2, _⟩]) (.cons exHeap_aT (.cons exHeap_aT .nil)) (.cons exCopy (.cons exCopy .nil))
    (by simp) (by decide) (by decide) (by decide)

theorem exCopyHeap_addressable : Addressable exCopyHeap 0 := by
  intro i hi
  obtain rfl := Option.some.inj hi
  exact forall_inBox (by decide)
example : ∃ text, Tensor.toString 2 exHeap = .ok text exHeap ∧ Tensor.toString 0 exCopyHeap = .ok text exCopyHeap :=
  C62_text exHeap_aT exCopy (exHeap_addressable 2) exCopyHeap_addressable

/-- **C62** does not hold of `max`, `min` and `abs`: they give different results, or none, for a tensor and its `clone`, which has the
same elements. The tensors are `[9, 1, 2]["1:"]`, `[0, 1, 2]["1:"]` and `[1, 2]["1:"]`. -/
theorem C62_layout_dependent :
    result ((do
      let x ← Tensor.slice (← Tensor.fromBlob [.i 9, .i 1, .i 2] [3] .i32) "1:".toList
      let a ← Tensor.toString (← Tensor.maxT x)
      let b ← Tensor.toString (← Tensor.maxT (← Tensor.clone x))
      return (a, b) : M Int _) Heap.empty) = some ("9".toList, "2".toList) ∧
    result ((do
      let x ← Tensor.slice (← Tensor.fromBlob [.i 0, .i 1, .i 2] [3] .i32) "1:".toList
      let a ← Tensor.toString (← Tensor.minT x)
      let b ← Tensor.toString (← Tensor.minT (← Tensor.clone x))
      return (a, b) : M Int _) Heap.empty) = some ("0".toList, "1".toList) ∧
    undefinedBy ((do
      let x ← Tensor.slice (← Tensor.fromBlob [.i 1, .i 2] [2] .i32) "1:".toList
      Tensor.absT x : M Int _) Heap.empty) = some .oob ∧
    result ((do
      let x ← Tensor.slice (← Tensor.fromBlob [.i 1, .i 2] [2] .i32) "1:".toList
      Tensor.toString (← Tensor.absT (← Tensor.clone x)) : M Int _) Heap.empty) = some "[2]".toList := by decide +kernel

end INNC
