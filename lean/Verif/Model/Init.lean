import Verif.Model.Tensor
/-
Nested initialiser lists: `TensorInit` (include/INNC/tensor.hpp:125-176).
-/
namespace INNC.Tensor
section
variable {F : Type}

/-- A braced initialiser as the user writes it. Which of the two `TensorInit` constructors a pair of braces selects is
overload resolution and not modelled: `leaf` is a list of numbers of type `dt`, `node` a list of initialisers. -/
inductive InitTree (F : Type) where
  | leaf (dt : DType) (vals : List (Val F))
  | node (args : List (InitTree F))

/-- `TensorInit` (include/INNC/tensor.hpp:125-128). `dtype = none` is the uninitialised member left by the constructor
from an empty list of initialisers; `data` lists the elements behind `data_ptr`. -/
structure TInit (F : Type) where
  data : List (Val F)
  shape : List Nat
  dtype : Option DType

/-- `is_same_spec` (include/INNC/tensor.hpp:129-132): `&&` reads the types only if the shapes agree; reading an
uninitialised type is undefined. -/
def sameSpec (a b : TInit F) : Res Bool :=
  if a.shape = b.shape then
    match a.dtype, b.dtype with
    | some x, some y => .ok (decide (x = y))
    | _, _ => .ub .uninit
  else .ok false

/-- `std::all_of` of include/INNC/tensor.hpp:158-160. -/
def allSame (first : TInit F) : List (TInit F) → Res Bool
  | [] => .ok true
  | x :: xs => do
    let b ← sameSpec x first
    if b then allSame first xs else return false

/-- `TensorInit(std::initializer_list<TensorInit>)` (include/INNC/tensor.hpp:152-174). -/
def initNode (args : List (TInit F)) : Res (TInit F) :=
  match args with
  | [] => .ok ⟨[], [], none⟩
  | first :: rest => do
    let b ← allSame first (first :: rest)
    if b then .ok ⟨(first :: rest).flatMap (·.data), (rest.length + 1) :: first.shape, first.dtype⟩
    else .throw .invalidArgument

/-- Evaluation of a braced initialiser, from the inside out
(`TensorInit(std::initializer_list<T>)`, include/INNC/tensor.hpp:142-150, for the leaves). -/
def initEval : InitTree F → Res (TInit F)
  | .leaf dt vals => .ok ⟨vals, [vals.length], some dt⟩
  | .node args => do
    let as ← evalList args
    initNode as
where
  evalList : List (InitTree F) → Res (List (TInit F))
  | [] => .ok []
  | x :: xs => do
    let a ← initEval x
    let as ← evalList xs
    return a :: as

/-- `TensorInit::createImpl` (src/INNC/tensor.cpp:216-222); `none` is the null pointer. -/
def createImpl (init : TInit F) : M F (Option Nat) :=
  if init.shape = [] then return none
  else
    match init.dtype with
    | none => M.undef .uninit
    | some dt => do
      let t ← create dt (Layout.contig init.shape) false
      let i ← getT t
      let s ← getS i.data
      setS i.data { s with blob := some (init.data.map some) }
      return some t

/-- `Tensor(TensorInit)` (src/INNC/tensor.cpp:20). -/
def ofInit (tree : InitTree F) : M F (Option Nat) := do
  let init ← M.lift (initEval tree)
  createImpl init

end
end INNC.Tensor
