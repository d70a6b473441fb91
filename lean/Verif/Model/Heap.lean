import Verif.Model.Scalar
import Verif.Model.Layout
/-
Storages, tensors, the heap and the monad of heap computations.

Handles (`shared_ptr`s) are indices into the lists of the heap. Objects are never removed: a `shared_ptr` keeps its
object alive, and an object without references is unobservable. Every handle refers to an object created earlier.
-/
namespace INNC

/-- `UntypedStorage` (include/INNC/storage.hpp:5-19). `size` is in bytes; `blob = none` is the null pointer.
Simplification: the bytes are modelled as a list of elements of the type `dt` the storage was created for (`dt` is
ghost); accesses at any other type are reported as undefined behaviour (`typePun`). `none` is an element never
written. -/
structure Storage (F : Type) where
  dt : DType
  size : Nat
  blob : Option (List (Option (Val F)))
  deriving DecidableEq, Repr

/-- The subclasses of `Backward` (include/INNC/function.hpp:29-94) with their own data.
`SingletonBack` is never constructed by the library. -/
inductive BackKind where
  | add | sub | mul | div | sum | mean | noBack | clone
  | cat (dim : Nat)
  | knownGrad (grad : Nat)
  deriving DecidableEq, Repr

/-- `Backward` (include/INNC/function.hpp:8-27); `this_tf` is the tensor that owns it. -/
structure GradFn where
  kind : BackKind
  inputs : List Nat
  nOutway : Nat
  accOutway : Nat
  backVersion : Nat
  deriving DecidableEq, Repr

/-- `TensorImpl` (include/INNC/tensorImpl.hpp:12-29). `_version` is never read. -/
structure Impl where
  dtype : DType
  view : Layout
  data : Nat
  grad : Option Nat
  requiresGrad : Bool
  retainGrad : Bool
  gradFn : Option GradFn
  deriving DecidableEq, Repr

/-- Program state: all storages, all tensors, `Backward::global_back_version` (src/INNC/function.cpp:12). -/
structure Heap (F : Type) where
  st : List (Storage F)
  ts : List Impl
  gver : Nat
  deriving DecidableEq, Repr

def Heap.empty {F : Type} : Heap F := ⟨[], [], 0⟩

/-- Outcome of a heap computation. A thrown exception keeps the effects made before it. -/
inductive Out (σ α : Type) where
  | ok (a : α) (h : σ)
  | throw (e : Exc) (h : σ)
  | ub (u : UB)
  deriving DecidableEq, Repr

def M (F α : Type) := Heap F → Out (Heap F) α

namespace M
variable {F : Type}
@[inline] protected def pure {α : Type} (a : α) : M F α := fun h => .ok a h
@[inline] protected def bind {α β : Type} (x : M F α) (f : α → M F β) : M F β := fun h =>
  match x h with
  | .ok a h' => f a h'
  | .throw e h' => .throw e h'
  | .ub u => .ub u
instance : Monad (M F) where
  pure := M.pure
  bind := M.bind

/-- Undefined behaviour. -/
def undef {α : Type} (u : UB) : M F α := fun _ => .ub u
/-- Throw an exception. -/
def raise {α : Type} (e : Exc) : M F α := fun h => .throw e h
/-- Run a computation that does not touch the heap. -/
def lift {α : Type} (r : Res α) : M F α := fun h =>
  match r with
  | .ok a => .ok a h
  | .throw e => .throw e h
  | .ub u => .ub u
end M

/-- `run_expect` (include/INNC/exceptions.hpp:7-13). -/
def expect {F : Type} (b : Bool) : M F Unit := if b then pure () else M.raise .runtime

section
variable {F : Type}

/-- Dereference a tensor handle. -/
def getT (t : Nat) : M F Impl := fun h =>
  match h.ts[t]? with
  | some i => .ok i h
  | none => .ub .nullptr

/-- Overwrite the mutable fields of a tensor. -/
def setT (t : Nat) (i : Impl) : M F Unit := fun h => .ok () { h with ts := h.ts.set t i }

/-- `std::make_shared<TensorImpl>`: the new handle is the next index. -/
def newT (i : Impl) : M F Nat := fun h => .ok h.ts.length { h with ts := h.ts ++ [i] }

def newS (s : Storage F) : M F Nat := fun h => .ok h.st.length { h with st := h.st ++ [s] }

def getS (d : Nat) : M F (Storage F) := fun h =>
  match h.st[d]? with
  | some s => .ok s h
  | none => .ub .nullptr

def setS (d : Nat) (s : Storage F) : M F Unit := fun h => .ok () { h with st := h.st.set d s }

/-- `new uint8_t[size]` viewed as uninitialised elements of type `dt`. -/
def freshBlob (dt : DType) (size : Nat) : List (Option (Val F)) := List.replicate (size / dt.size) none

/-- `UntypedStorage::UntypedStorage` (src/INNC/storage.cpp:6-10). -/
def mkStorage (dt : DType) (size : Nat) (prealloc : Bool) : M F Nat :=
  if prealloc then
    if size < maxAlloc then newS ⟨dt, size, some (freshBlob dt size)⟩ else M.raise .badAlloc
  else newS ⟨dt, size, none⟩

/-- `UntypedStorage::alloc` (src/INNC/storage.cpp:4). -/
def allocS (d : Nat) : M F Unit := do
  let s ← getS d
  if s.size < maxAlloc then setS d { s with blob := some (freshBlob s.dt s.size) } else M.raise .badAlloc

/-- `UntypedStorage::zero_` (src/INNC/storage.cpp:14-18): nothing if the blob is null. -/
def zeroS [FOps F] (d : Nat) : M F Unit := do
  let s ← getS d
  match s.blob with
  | none => pure ()
  | some cells => setS d { s with blob := some (cells.map fun _ => some (zeroVal s.dt)) }

/-- `UntypedStorage::is_alloc` (src/INNC/storage.cpp:24). -/
def isAllocS (d : Nat) : M F Bool := do
  let s ← getS d
  return s.blob.isSome

/-- `UntypedStorage::release` (src/INNC/storage.cpp:22). -/
def releaseS (d : Nat) : M F Unit := do
  let s ← getS d
  setS d { s with blob := none }

/-- `*(reinterpret_cast<ty*>(t->data_->get_blob()) + pos)` as an rvalue. -/
def load (ty : DType) (t : Impl) (pos : Nat) : M F (Val F) := do
  let s ← getS t.data
  match s.blob with
  | none => M.undef .nullptr
  | some cells =>
    if s.dt ≠ ty then M.undef .typePun
    else match cells[pos]? with
      | none => M.undef .oob
      | some none => M.undef .uninit
      | some (some v) => return v

/-- `*(reinterpret_cast<ty*>(t->data_->get_blob()) + pos) = v`, `v` already of type `ty`. -/
def store (ty : DType) (t : Impl) (pos : Nat) (v : Val F) : M F Unit := do
  let s ← getS t.data
  match s.blob with
  | none => M.undef .nullptr
  | some cells =>
    if s.dt ≠ ty then M.undef .typePun
    else if pos < cells.length then setS t.data { s with blob := some (cells.set pos (some v)) }
    else M.undef .oob

/-- `TensorImpl::TensorImpl` and the `create` overload on an existing storage
(src/INNC/tensorImpl.cpp:72-86). -/
def createOn (dtype : DType) (view : Layout) (data : Nat) : M F Nat :=
  newT ⟨dtype, view, data, none, false, false, none⟩

/-- `TensorImpl::create(dtype, view, prealloc)` (src/INNC/tensorImpl.cpp:88-98): a storage of
`size_of(dtype) * view->numel()` bytes (in `size_t` arithmetic). The second allocation on line 96 replaces the blob
by an equally uninitialised one. -/
def create (dtype : DType) (view : Layout) (prealloc : Bool) : M F Nat := do
  let d ← mkStorage dtype (wrapU (dtype.size * numel view.sizes)) prealloc
  createOn dtype view d

/-- `for_each_sizevec` (include/INNC/utils/utils.hpp:109-134) with a heap-changing body. -/
def forEach (range : List Nat) (op : List Nat → M F Unit) : M F Unit :=
  forEachWith (M.undef .fuel) range op

end
end INNC
