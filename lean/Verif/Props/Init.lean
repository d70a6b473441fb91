import Verif.Lemmas.Init
import Verif.Lemmas.Examples
import Verif.Props.Construct
/-
C28: nested initialiser lists.
-/
namespace INNC
open Spec
open Tensor (InitTree)
variable {F : Type} [FOps F]

/-- **C28**: a uniform nested initialiser (all sublists of equal shape, all numbers of one type, any depth) builds the
tensor of that shape and type whose element at `idx` is the number found by following `idx` into the nesting. -/
theorem C28_depicts {tree : InitTree F} {dt : DType} {sizes : List Nat} (hu : Uniform dt sizes tree) (ht : Typed tree)
    (hsize : vol sizes * dt.size < 9223372036854775808) (h : Heap F) (f : List Nat → Val F)
    (hf : ∀ idx, InBox sizes idx → entry idx tree = some (f idx)) :
    ∃ t h', Tensor.ofInit tree h = .ok (some t) h' ∧ Denotes h' t dt sizes f ∧ Extends h h' ∧ Fresh h h' t ∧
      Tensor.isContiguousOf t h' = .ok true h' := by
  obtain ⟨h', e, b, _⟩ := ofInit_ok hu ht hsize h f hf
  exact ⟨_, h', e, b.denotes, b.ext, b.fresh, b.contiguous⟩

/-- The numbers asked for in `C28_depicts` exist: a uniform initialiser has an entry at every index of its shape. -/
theorem C28_entries {tree : InitTree F} {dt : DType} {sizes : List Nat} (hu : Uniform dt sizes tree) :
    ∃ f : List Nat → Val F, ∀ idx, InBox sizes idx → entry idx tree = some (f idx) := by
  rcases initEval_cases tree (uniform_proper hu) with ⟨x, dt', _, hx⟩ | ⟨_, hn⟩
  · obtain ⟨rfl, _⟩ := uniform_shape hx.uniform hu
    refine ⟨fun idx => (x.data[rank x.shape idx]?).getD (.i 0), fun idx hb => ?_⟩
    have hlt : rank x.shape idx < x.data.length := by rw [hx.len]; exact rank_lt hb
    rw [hx.entries idx hb]; simp [hlt]
  · exact absurd hu (hn dt sizes)

/-- **C28**: an initialiser that is not uniform, for whatever shape and type, is rejected with
`std::invalid_argument` and nothing changes. (Every list of initialisers in it is non-empty.) -/
theorem C28_mismatch {tree : InitTree F} (hp : Proper tree) (hn : ∀ dt sizes, ¬ Uniform dt sizes tree) (h : Heap F) :
    Tensor.ofInit tree h = .throw .invalidArgument h := ofInit_throw hp hn h

/-- `{{1, 2, 3}, {4, 5, 6}}` -/
def exInit : InitTree Int := .node [.leaf .i32 [.i 1, .i 2, .i 3], .leaf .i32 [.i 4, .i 5, .i 6]]
/-- `{{1, 2, 3}, {4, 5}}` -/
def exRagged : InitTree Int := .node [.leaf .i32 [.i 1, .i 2, .i 3], .leaf .i32 [.i 4, .i 5]]

example : ∃ t h', Tensor.ofInit exInit exHeap = .ok (some t) h' ∧
    Denotes h' t .i32 [2, 3] (fun idx => .i (3 * idx.getD 0 0 + idx.getD 1 0 + 1)) ∧ Extends exHeap h' ∧ Fresh exHeap h' t ∧
    Tensor.isContiguousOf t h' = .ok true h' :=
  C28_depicts (dt := .i32) (sizes := [2, 3]) (by simp [exInit, Uniform])
    (.node _ (by simp only [List.mem_cons, List.not_mem_nil, or_false, forall_eq_or_imp, forall_eq]
                 exact ⟨.leaf _ _ (by decide), .leaf _ _ (by decide)⟩))
    (by decide) exHeap _ (forall_inBox (by decide +kernel))

example (h : Heap Int) : Tensor.ofInit exRagged h = .throw .invalidArgument h := by
  refine C28_mismatch (.node _ (by simp) (by
    simp only [List.mem_cons, List.not_mem_nil, or_false, forall_eq_or_imp, forall_eq]
    exact ⟨.leaf _ _, .leaf _ _⟩)) (fun dt sizes hu => ?_) h
  match sizes, hu with
  | n :: s, hu =>
    have hu := uniform_node.1 hu
    have h1 := hu.2.2 _ (List.mem_cons_self ..)
    have h2 := hu.2.2 _ (List.mem_cons_of_mem _ (List.mem_cons_self ..))
    match s, h1, h2 with
    | [n], h1, h2 =>
      have := h1.2.trans h2.2.symm
      simp at this

/-- **C28** disagreement: a list that contains an empty list of initialisers compares element types that were never set
(undefined), although the shapes agree. -/
theorem C28_empty_undefined (h : Heap F) :
    undefinedBy (Tensor.ofInit (.node [.node [], .node []] : InitTree F) h) = some .uninit := rfl

end INNC
