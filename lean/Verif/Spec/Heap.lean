import Verif.Model.Heap
import Verif.Spec.Index
/-
Specification: what a tensor denotes in a program state, and which parts of the state an operation leaves alone.
Only the state (`Heap`, `Impl`, `Storage`, `Layout`) of the model is used here, none of its operations.
-/
namespace INNC.Spec
variable {F : Type}

/-- Exact position (in elements) of an index in a strided view. -/
def position (v : Layout) (idx : List Nat) : Int := v.offset + dot v.strides idx

/-- The tensor object `i` is well formed in `h` and its element at every index `idx` of its shape is `f idx`: the
storage exists, is allocated, has the tensor's element type and fewer than 2^63 elements, the positions are inside it
and the elements there are initialised values of the right type. -/
structure Reads (h : Heap F) (i : Impl) (f : List Nat → Val F) : Prop where
  strides : i.view.strides.length = i.view.sizes.length
  offset : i.view.offset < 18446744073709551616
  cells : ∃ s cells, h.st[i.data]? = some s ∧ s.dt = i.dtype ∧ s.blob = some cells ∧
    cells.length < 9223372036854775808 ∧
    ∀ idx, InBox i.view.sizes idx → ∃ p : Nat, position i.view idx = p ∧ cells[p]? = some (some (f idx))
  typed : ∀ idx, InBox i.view.sizes idx → (f idx).HasType i.dtype

/-- The tensor `t` exists, has element type `dt` and shape `sizes`, and its element at `idx` is `f idx`. -/
def Denotes (h : Heap F) (t : Nat) (dt : DType) (sizes : List Nat) (f : List Nat → Val F) : Prop :=
  ∃ i, h.ts[t]? = some i ∧ i.dtype = dt ∧ i.view.sizes = sizes ∧ Reads h i f

/-- No tensor or storage of `h` differs in `h'`; `h'` may have additional ones. -/
structure Extends (h h' : Heap F) : Prop where
  ts : ∀ (t : Nat) (i : Impl), h.ts[t]? = some i → h'.ts[t]? = some i
  st : ∀ (d : Nat) (s : Storage F), h.st[d]? = some s → h'.st[d]? = some s

/-- Every tensor of `h` still has the same type, shape, strides and storage in `h'`, and every storage of `h` has the
same contents. (Flags and gradients may differ.) In particular every tensor denotes the same elements as before. -/
structure Preserves (h h' : Heap F) : Prop where
  ts : ∀ (t : Nat) (i : Impl), h.ts[t]? = some i →
    ∃ i', h'.ts[t]? = some i' ∧ i'.dtype = i.dtype ∧ i'.view = i.view ∧ i'.data = i.data
  st : ∀ (d : Nat) (s : Storage F), h.st[d]? = some s → h'.st[d]? = some s

/-- The tensor `t` is new: it did not exist in `h`, and its storage did not either. -/
def Fresh (h h' : Heap F) (t : Nat) : Prop :=
  h.ts.length ≤ t ∧ ∃ i, h'.ts[t]? = some i ∧ h.st.length ≤ i.data

/-- The call returns a new tensor on a new storage, of type `dt` and shape `sizes` with elements `f`, and changes no
tensor or storage that existed. -/
def Returns (o : Out (Heap F) Nat) (h : Heap F) (dt : DType) (sizes : List Nat) (f : List Nat → Val F) : Prop :=
  ∃ t h', o = .ok t h' ∧ Denotes h' t dt sizes f ∧ Extends h h' ∧ Fresh h h' t

/-- A view whose elements have different positions, all smaller than the number of elements. -/
structure Dense (v : Layout) : Prop where
  strides : v.strides.length = v.sizes.length
  offset : v.offset < 18446744073709551616
  inside : ∀ idx, InBox v.sizes idx → 0 ≤ position v idx ∧ position v idx < vol v.sizes
  inj : ∀ a b, InBox v.sizes a → InBox v.sizes b → position v a = position v b → a = b

/-- The value a call returns, if it returns. -/
def result {H α : Type} : Out H α → Option α
  | .ok a _ => some a
  | _ => none

/-- The exception a call throws, if it throws. -/
def thrown {H α : Type} : Out H α → Option Exc
  | .throw e _ => some e
  | _ => none

/-- The undefined behaviour of a call, if it has any. -/
def undefinedBy {H α : Type} : Out H α → Option UB
  | .ub u => some u
  | _ => none

/-- Two tensors live on the same storage. -/
def SameStorage (h : Heap F) (t u : Nat) : Prop :=
  ∃ i j, h.ts[t]? = some i ∧ h.ts[u]? = some j ∧ i.data = j.data

/-- Element `k` of tensor `t` and element `k'` of tensor `t'` are the same place of the same storage. -/
def SamePlace (h : Heap F) (t : Nat) (k : List Nat) (t' : Nat) (k' : List Nat) : Prop :=
  ∃ i j, h.ts[t]? = some i ∧ h.ts[t']? = some j ∧ i.data = j.data ∧ InBox i.view.sizes k ∧ InBox j.view.sizes k' ∧
    position i.view k = position j.view k'

end INNC.Spec
