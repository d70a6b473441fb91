import Verif.Lemmas.MemViews
import Verif.Props.Guards
/-
C08: views stay inside their storage. C47: memory safety.
-/
namespace INNC
open Spec Tensor
variable {F : Type} [FOps F]

/-- **C08** (without: reshapes to sizes below -1, to sizes whose product overflows, and between scalars and other shapes if
grad is required, see `C08_reshape_overflow`): along any chain of slices, transposes, reshapes and detaches that starts from a
tensor whose elements lie inside its storage, in any state a program can be in, elements lie inside their storage, and the
storage stays allocated and initialised. -/
theorem C08_chain_partial {h h' : Heap F} {t t' : Nat} (hh : History h) (hs : Sound h t) (hc : Chain h t h' t') : Sound h' t' :=
  var_sound.1 (chain_sound hc hh (var_sound.2 hs)).2

/-- **C08**: making a view cannot fail with undefined behaviour other than signed overflow of an address computation or a
division by zero when `reshape` infers a size. -/
theorem C08_views_partial {h : Heap F} {t : Nat} {c : Call F} {u : UB} (hh : History h) (hs : Sound h t) (hc : MakesView t c) (ha : Allowed h c)
    (hu : undefinedBy (c.run h) = some u) : ByValue u := by
  have := mem_call (valid_history hh) ha fun a hin => by
    have hau : a = t := by cases c <;> simp_all [MakesView, args]
    rw [hau]; exact var_sound.2 hs
  cases hr : c.run h with
  | ok => rw [hr] at hu; cases hu
  | throw => rw [hr] at hu; cases hu
  | ub v =>
    rw [hr] at hu this
    cases hu
    exact this

/-- **C47** (without `backward()`, `grad()`, `release()`, uninitialised tensors and the calls named in `Allowed`): along every
history of allowed calls on tensors that earlier calls returned, a call never accesses memory outside an allocation, through
a null pointer, outside a vector, uninitialised or at another type. Its undefined behaviour, if any, is that of an arithmetic
operation on the given values. -/
theorem C47_careful_partial {h : Heap F} {vs : List Nat} {c : Call F} {u : UB} (hc : Careful h vs) (ha : Allowed h c)
    (hin : ∀ a ∈ args c, a ∈ vs) (hu : undefinedBy (c.run h) = some u) : ByValue u := by
  have := mem_call (valid_history hc.history) ha fun a hi => careful_vars hc a (hin a hi)
  cases hr : c.run h with
  | ok => rw [hr] at hu; cases hu
  | throw => rw [hr] at hu; cases hu
  | ub v =>
    rw [hr] at hu this
    cases hu
    exact this

/-- **C47**: every tensor of such a history is in good order at every moment, also after calls that threw. -/
theorem C47_sound_partial {h : Heap F} {vs : List Nat} (hc : Careful h vs) : ∀ t ∈ vs, Sound h t :=
  fun t ht => var_sound.1 (careful_vars hc t ht)

/-! ### A careful program -/

/-- A blob of four numbers, every second one from the end, and their sum with a scalar. -/
def exCareful : List (Call Int) := [.fromBlob [.i 1, .i 2, .i 3, .i 4] [4] .i16, .slice 0 "::-2".toList, .scalar .f32 (.f 5), .add 1 2, .reshape 3 [1, -1]]

theorem exCareful_careful : Careful (heapAfter exCareful) [4, 3, 2, 1, 0] :=
  careful_next (cs := exCareful.take 4) (o := some 4)
    (careful_next (cs := exCareful.take 3) (o := some 3)
      (careful_next (cs := exCareful.take 2) (o := some 2)
        (careful_next (cs := exCareful.take 1) (o := some 1)
          (careful_next (cs := []) (o := some 0) .start rfl ⟨by unfold Modest; decide, by decide, by decide⟩ (by decide) (by decide +kernel))
          (by decide +kernel) trivial (by decide) (by decide +kernel))
        (by decide +kernel) rfl (by decide) (by decide +kernel))
      (by decide +kernel) (by unfold exCareful Allowed Modest; decide +kernel) (by decide) (by decide +kernel))
    (by decide +kernel) (by
      intro i hi
      have e : i.view.sizes = [2] ∧ i.dtype = .f32 ∧ i.requiresGrad = false := by
        have : ((heapAfter (exCareful.take 4)).ts[3]?).map (fun i : Impl => (i.view.sizes, i.dtype, i.requiresGrad)) = some ([2], .f32, false) := by decide +kernel
        rw [hi] at this
        simpa using this
      obtain ⟨e1, e2, e3⟩ := e
      refine ⟨by rw [e1, e2]; unfold Modest; decide, by decide, by unfold Modest; decide, by rw [e3]; simp⟩) (by decide) (by decide +kernel)

example : Sound (heapAfter exCareful) 1 := C47_sound_partial exCareful_careful 1 (by decide)
/-- The next call may be any allowed one, for instance `all()`. -/
example (u : UB) (hu : undefinedBy ((Call.all 4).run (heapAfter exCareful)) = some u) : ByValue u :=
  C47_careful_partial exCareful_careful (c := .all 4) trivial (by decide) hu
/-- The printed result. -/
example : result (Tensor.toString 4 (heapAfter exCareful)) = some "[[9, 7]]".toList := by decide +kernel
/-- A chain of views. -/
example (h' : Heap Int) (r : Nat) (e : (Call.transpose 4 0 1).run (heapAfter exCareful) = .ok (some r) h') : Sound h' r :=
  C08_chain_partial exCareful_careful.history (C47_sound_partial exCareful_careful 4 (by decide)) (.step (c := .transpose 4 0 1) .start rfl trivial e)

/-! ### The excluded calls -/

/-- **C08** is false for sizes whose product overflows: an empty tensor is reshaped to 2^64 elements, and its first element
is read outside the storage. -/
theorem C08_reshape_overflow :
    undefinedBy ((do
      let x ← zeros [0] .f32
      let y ← reshape x [4294967296, 4294967296]
      let z ← slice y "0,0".toList
      Tensor.toString z : M Int _) Heap.empty) = some .oob := by decide +kernel

/-- **C08** is false for negative sizes: four zeros reshaped to `{-2, -2}` have elements outside of their storage. -/
theorem C08_reshape_negative : ∃ h h' : Heap Int, History h ∧ Sound h 0 ∧ (Call.reshape 0 [-2, -2]).run h = .ok (some 1) h' ∧ ¬ Sound h' 1 := by
  have hz : Careful (heapAfter [(Call.zeros [4] .f32 : Call Int)]) [0] :=
    careful_next (cs := []) (o := some 0) .start rfl (by unfold Allowed Modest; decide) (by decide) (by decide +kernel)
  have hp : (match (Call.reshape 0 [-2, -2]).run (heapAfter [(Call.zeros [4] .f32 : Call Int)]) with
    | .ok r h => decide (r = some 1 ∧ h.ts.map (fun i : Impl => (i.view, i.data, i.dtype)) = [(⟨[4], [1], 0⟩, 0, .f32),
      (⟨[18446744073709551614, 18446744073709551614], [-2, 1], 0⟩, 0, .f32)] ∧
      h.st.map (fun s => (s.dt, s.blob)) = [(.f32, some (List.replicate 4 (some (.f 0))))])
    | _ => false) = true := by decide +kernel
  cases hr : (Call.reshape 0 [-2, -2]).run (heapAfter [(Call.zeros [4] .f32 : Call Int)]) with
  | throw x h => rw [hr] at hp; cases hp
  | ub u => rw [hr] at hp; cases hp
  | ok r h =>
    rw [hr] at hp
    obtain ⟨e0, e1, e2⟩ := of_decide_eq_true hp
    subst e0
    refine ⟨_, h, hz.history, C47_sound_partial hz 0 (by decide), hr, ?_⟩
    rintro ⟨i, s, cells, hi, hs, -, hb, -, -, hin, -⟩
    have f1 : (h.ts.map (fun i : Impl => (i.view, i.data, i.dtype)))[1]? = some (i.view, i.data, i.dtype) := by rw [List.getElem?_map, hi]; rfl
    rw [e1] at f1
    simp only [List.getElem?_cons_succ, List.getElem?_cons_zero, Option.some.injEq, Prod.mk.injEq] at f1
    obtain ⟨g1, g2, -⟩ := f1
    have f2 : (h.st.map (fun s => (s.dt, s.blob)))[0]? = some (s.dt, s.blob) := by rw [List.getElem?_map, g2, hs]; rfl
    rw [e2, hb] at f2
    simp only [List.getElem?_cons_zero, Option.some.injEq, Prod.mk.injEq] at f2
    obtain ⟨p, hp1, hp2⟩ := hin [0, 4] (by rw [← g1]; decide)
    rw [← g1] at hp1
    rw [← f2.2] at hp2
    have : position ⟨[18446744073709551614, 18446744073709551614], [-2, 1], 0⟩ [0, 4] = 4 := by decide
    simp at hp2
    omega

/-- **C47**: a tensor made by its shape alone is not initialised. -/
theorem C47_uninitialised :
    undefinedBy ((do
      let x ← emptyTensor [2] .f32
      Tensor.toString x : M Int _) Heap.empty) = some .uninit := by decide +kernel

/-- **C47**: the storage of a released tensor is gone, also for its views. -/
theorem C47_released :
    undefinedBy ((do
      let x ← zeros [2] .f32
      let y ← slice x "0".toList
      release x
      Tensor.toString y : M Int _) Heap.empty) = some .nullptr := by decide +kernel

/-- **C47** is false: `abs()` of every second element writes outside the storage of the result. -/
theorem C47_abs_strided :
    undefinedBy ((do
      let x ← zeros [4] .f32
      let y ← slice x "::2".toList
      absT y : M Int _) Heap.empty) = some .oob := by decide +kernel

/-- **C47** is false: `max()` of an empty tensor reads outside its storage. -/
theorem C47_max_empty :
    undefinedBy ((do
      let x ← zeros [0] .f32
      maxT x : M Int _) Heap.empty) = some .oob := by decide +kernel

/-- **C47** is false: `randn` of type `f64` writes outside the storage it allocates. -/
theorem C47_randn_f64 : undefinedBy (randn (fun k => (k : Int)) [2] .f64 Heap.empty) = some .oob := by decide +kernel

/-- **C47** is false: back-propagation to a leaf that is a strided view writes outside the storage of its gradient. -/
theorem C47_backward_strided_leaf :
    undefinedBy ((do
      let x ← zeros [4] .f32
      let y ← slice x "::2".toList
      setRequiresGrad y true
      let w ← sumT y
      backward w : M Int _) Heap.empty) = some .oob := by decide +kernel

/-- **C47** is false: a slice that took part in one back-propagation and is used again makes the next one write outside the
storage of its gradient. -/
theorem C47_backward_view_again :
    undefinedBy ((do
      let x ← zeros [4] .f32
      setRequiresGrad x true
      let y ← slice x "2:".toList
      let w ← sumT y
      backward w
      let v ← sumT y
      backward v : M Int _) Heap.empty) = some .oob := by decide +kernel

end INNC
