import Verif.Model.Tensor
/-
Reverse-mode differentiation: src/INNC/function.cpp and `TensorImpl::backward`.
-/
namespace INNC.Tensor
section
variable {F : Type} [FOps F]

/-- `Backward::try_accumulate_update` (src/INNC/function.cpp:41-55); `zero_init` is always its default `true`. -/
def tryAccUpdate (p : Nat) : M F Unit := do
  let i ← getT p
  if !i.requiresGrad then pure ()
  else do
    match i.gradFn with
    | some g => setT p { i with gradFn := some { g with accOutway := g.accOutway + 1 } }
    | none => pure ()
    match i.grad with
    | none => do
      let g ← create i.dtype i.view true
      let i ← getT p
      setT p { i with grad := some g }
      let gi ← getT g
      zeroS gi.data
    | some g => do
      let gi ← getT g
      let al ← isAllocS gi.data
      if !al then do
        allocS gi.data
        zeroS gi.data
      else pure ()

/-- `tensor_mul_add_f` (src/INNC/function.cpp:22-24) with the dispatch of include/INNC/dispatcher.hpp:104-107: the
table is indexed with `dst_t - 4` and `l_t - 4`, outside the table for integer types. -/
def mulAddF (dst a b : Nat) : M F Unit := do
  let d ← getT dst
  let x ← getT a
  let y ← getT b
  if d.dtype.isFloat && x.dtype.isFloat then tensorMulAccF d.dtype x.dtype y.dtype d x y
  else M.undef .dispatch

/-- `*tf_prev->grad`. -/
def derefGrad (p : Nat) : M F Nat := do
  let i ← getT p
  match i.grad with
  | some g => return g
  | none => M.undef .nullptr

/-- `Backward::try_accumulate_grad` (src/INNC/function.cpp:26-39). -/
def tryAccGrad (p : Nat) (w o : Option Nat) : M F Unit := do
  let i ← getT p
  if !i.requiresGrad then pure ()
  else do
    tryAccUpdate p
    match w, o with
    | none, none => pure ()
    | some w, none => do
      let g ← derefGrad p
      addAssign g w
    | none, some _ => M.undef .nullptr
    | some w, some o => do
      let wi ← getT w
      let g ← derefGrad p
      if wi.dtype.isFloat then mulAddF g w o else mulAddF g o w

/-- `Backward::get_out_grad` (src/INNC/function.cpp:57). -/
def getOutGrad (t : Nat) : M F Nat := derefGrad t

/-- `input_tfs[k]`. -/
def inputAt (g : GradFn) (k : Nat) : M F Nat := M.lift (vecAt g.inputs k)

/-- Loop of `CatBack::step_back` (src/INNC/function.cpp:116-130). -/
def catBackGo (t dim : Nat) : Nat → List Nat → M F Unit
  | _, [] => pure ()
  | s, x :: xs => do
    let i ← getT t
    let xi ← getT x
    let st ← M.lift (vecAt i.view.strides dim)
    let g ← getOutGrad t
    let gi ← getT g
    let r ← createOn i.dtype ⟨xi.view.sizes, i.view.strides, wrapU (s * st)⟩ gi.data
    tryAccGrad x (some r) none
    let xi ← getT x
    let d ← M.lift (vecAt xi.view.sizes dim)
    catBackGo t dim (wrapU (s + d)) xs

/-- `1. / ((double)input->numel())` (src/INNC/function.cpp:99). -/
def meanCoef (n : Nat) : Val F := .f (FOps.div .f64 (FOps.ofInt .f64 1) (FOps.ofInt .f64 n))

/-- `tensor_div_back_numerator_f` (src/INNC/function.cpp:75-79), dispatched like `mulAddF`. -/
def divBackNum (dst outg den : Nat) : M F Unit := do
  let d ← getT dst
  let x ← getT outg
  let y ← getT den
  if d.dtype.isFloat && x.dtype.isFloat then tensorDivBackNum d.dtype x.dtype y.dtype d x y
  else M.undef .dispatch

/-- Second half of `DivBack::step_back` (src/INNC/function.cpp:85-87) with the dispatch of
include/INNC/dispatcher.hpp:147-150. A null gradient pointer is dereferenced by the kernel. -/
def divBackDen (t den : Nat) : M F Unit := do
  let di ← getT den
  let ti ← getT t
  if di.dtype.isFloat && ti.dtype.isFloat then do
    let g ← derefGrad den
    let og ← getOutGrad t
    tensorDivBackDen di.dtype ti.dtype (← getT g) (← getT og) ti di
  else M.undef .dispatch

/-- The `step_back` members (src/INNC/function.cpp:59-140), selected by the dynamic type of `grad_fn`. -/
def stepBack (t : Nat) (g : GradFn) : M F Unit :=
  match g.kind with
  | .add => do
    tryAccGrad (← inputAt g 0) (some (← getOutGrad t)) none
    tryAccGrad (← inputAt g 1) (some (← getOutGrad t)) none
  | .sub => do
    tryAccGrad (← inputAt g 0) (some (← getOutGrad t)) none
    let m ← createScalar .i32 (.i (-1))
    tryAccGrad (← inputAt g 1) (some (← getOutGrad t)) (some m)
  | .mul => do
    tryAccGrad (← inputAt g 0) (some (← inputAt g 1)) (some (← getOutGrad t))
    tryAccGrad (← inputAt g 1) (some (← inputAt g 0)) (some (← getOutGrad t))
  | .div => do
    let a ← inputAt g 0
    let b ← inputAt g 1
    tryAccUpdate a
    divBackNum (← derefGrad a) (← getOutGrad t) b
    tryAccUpdate b
    divBackDen t b
  | .sum => do
    let a ← inputAt g 0
    let w ← onesLike a
    tryAccGrad a (some w) (some (← getOutGrad t))
  | .mean => do
    let a ← inputAt g 0
    let i ← getT a
    let w ← full i.view.sizes .f64 (meanCoef (numel i.view.sizes)) i.dtype
    tryAccGrad a (some w) none
  | .noBack => do
    tryAccGrad (← inputAt g 0) none none
  | .clone => do
    tryAccGrad (← inputAt g 0) (some (← getOutGrad t)) none
  | .cat dim => catBackGo t dim 0 g.inputs
  | .knownGrad k => do
    tryAccGrad (← inputAt g 0) (some k) (some (← getOutGrad t))

/-- `t->grad_fn`, dereferenced. -/
def getGradFn (t : Nat) : M F GradFn := do
  let i ← getT t
  match i.gradFn with
  | some g => return g
  | none => M.undef .nullptr

def setGF (t : Nat) (g : GradFn) : M F Unit := do
  let i ← getT t
  setT t { i with gradFn := some g }

/-- `++Backward::global_back_version` (Simplification: a counter that never wraps around). -/
def bumpVersion : M F Nat := fun h => .ok (h.gver + 1) { h with gver := h.gver + 1 }
def getVersion : M F Nat := fun h => .ok h.gver h
def heapSize : M F Nat := fun h => .ok h.ts.length h

/-- The three `while (!q.empty())` loops: take the front element, `visit` it and append the tensors it pushes.
The fuel bounds the number of iterations (running out of it is proved impossible). -/
def queueLoop (visit : Nat → M F (List Nat)) : Nat → List Nat → M F Unit
  | _, [] => pure ()
  | 0, _ :: _ => M.undef .fuel
  | n + 1, t :: q => do
    let new ← visit t
    queueLoop visit n (q ++ new)

/-- Inner loop of the first pass (src/INNC/tensorImpl.cpp:309-316); the result lists the pushed tensors. -/
def resetInputs : List Nat → M F (List Nat)
  | [] => pure []
  | x :: xs => do
    let i ← getT x
    let v ← getVersion
    match i.gradFn with
    | some g =>
      if g.backVersion < v then do
        setGF x { g with backVersion := v, nOutway := 0 }
        let rest ← resetInputs xs
        return x :: rest
      else resetInputs xs
    | none => resetInputs xs

/-- Inner loop of the second pass (src/INNC/tensorImpl.cpp:323-331). -/
def countInputs : List Nat → M F (List Nat)
  | [] => pure []
  | x :: xs => do
    let i ← getT x
    let v ← getVersion
    match i.gradFn with
    | some g =>
      if g.backVersion < v then do
        setGF x { g with nOutway := g.nOutway + 1, backVersion := v }
        let rest ← countInputs xs
        return x :: rest
      else do
        setGF x { g with nOutway := g.nOutway + 1 }
        countInputs xs
    | none => countInputs xs

/-- `refresh_n_outway` (src/INNC/tensorImpl.cpp:301-333). -/
def refreshNOutway (t : Nat) : M F Unit := do
  let n ← heapSize
  let v ← bumpVersion
  let g ← getGradFn t
  setGF t { g with nOutway := 0, backVersion := v }
  queueLoop (fun x => do resetInputs (← getGradFn x).inputs) (n + 1) [t]
  let v ← bumpVersion
  let g ← getGradFn t
  setGF t { g with backVersion := v }
  queueLoop (fun x => do countInputs (← getGradFn x).inputs) (n + 1) [t]

/-- Inner loop of `backward` (src/INNC/tensorImpl.cpp:353-360) with `is_ready` (include/INNC/function.hpp:21). -/
def readyInputs : List Nat → M F (List Nat)
  | [] => pure []
  | x :: xs => do
    let i ← getT x
    let v ← getVersion
    match i.gradFn with
    | some g =>
      if g.backVersion < v ∧ g.accOutway = g.nOutway then do
        setGF x { g with backVersion := v }
        let rest ← readyInputs xs
        return x :: rest
      else readyInputs xs
    | none => readyInputs xs

/-- Body of the main loop of `backward` (src/INNC/tensorImpl.cpp:348-360). -/
def backVisit (t : Nat) : M F (List Nat) := do
  let g ← getGradFn t
  stepBack t g
  let i ← getT t
  if !i.retainGrad then setT t { i with grad := none }
  else pure ()
  readyInputs (← getGradFn t).inputs

/-- `TensorImpl::backward` (src/INNC/tensorImpl.cpp:335-362). -/
def backward (t : Nat) : M F Unit := do
  let i ← getT t
  expect i.requiresGrad
  expect i.gradFn.isSome
  expect (decide (numel i.view.sizes = 1))
  let n ← heapSize
  refreshNOutway t
  let o ← onesLike t
  let i ← getT t
  setT t { i with grad := some o }
  let v ← bumpVersion
  let g ← getGradFn t
  setGF t { g with backVersion := v }
  queueLoop backVisit (n + 1) [t]

end
end INNC.Tensor
