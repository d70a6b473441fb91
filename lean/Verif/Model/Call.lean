import Verif.Model.Backward
import Verif.Model.Print
import Verif.Model.Init
/-
The public interface of `Tensor` (include/INNC/tensor.hpp:26-123) as a type of calls, to speak about all of its
functions at once and about histories of calls.
-/
namespace INNC.Tensor
section
variable {F : Type} [FOps F]

/-- One call of a public function. Tensors are denoted by handles; the empty `Tensor` has no handle.
Moving and assigning `Tensor`s only renames handles and is not a call. -/
inductive Call (F : Type) where
  | scalar (dt : DType) (v : Val F)
  | empty (sizes : List Nat) (dt : DType)
  | init (tree : InitTree F)
  | ones (sizes : List Nat) (dt : DType)
  | zeros (sizes : List Nat) (dt : DType)
  | onesLike (t : Nat)
  | zerosLike (t : Nat)
  | fullInt (sizes : List Nat) (num : Int) (dt : DType)
  | fullReal (sizes : List Nat) (num : F) (dt : DType)
  | eye (n m : Nat) (dt : DType)
  | fromBlob (data : List (Val F)) (sizes : List Nat) (dt : DType)
  | randn (rnd : Nat → F) (sizes : List Nat) (dt : DType)
  | randnLike (rnd : Nat → F) (t : Nat)
  | slice (t : Nat) (s : Str)
  | transpose (t dim0 dim1 : Nat)
  | reshape (t : Nat) (sizes : List Int)
  | reshapeAs (t u : Nat)
  | detach (t : Nat)
  | clone (t : Nat)
  | contiguous (t : Nat)
  | toType (t : Nat) (dt : DType)
  | add (l r : Nat)
  | sub (l r : Nat)
  | mul (l r : Nat)
  | div (l r : Nat)
  | pos (t : Nat)
  | neg (t : Nat)
  | cmp (op : COp) (l r : Nat)
  | sum (t : Nat)
  | mean (t : Nat)
  | abs (t : Nat)
  | max (t : Nat)
  | min (t : Nat)
  | cat (ts : List Nat) (dim : Nat)
  | addAssign (t r : Nat)
  | setRequiresGrad (t : Nat) (b : Bool)
  | setRetainGrad (t : Nat) (b : Bool)
  | zeroGrad (t : Nat)
  | release (t : Nat)
  | backward (t : Nat)
  | grad (t : Nat)
  | all (t : Nat)
  | toString (t : Nat)
  | stride (t : Nat)
  | query (t : Nat)

/-- The tensor a call that returns a tensor returns. -/
def some' (x : M F Nat) : M F (Option Nat) := do
  let t ← x
  return some t

/-- A call that returns no tensor. -/
def none' {α : Type} (x : M F α) : M F (Option Nat) := do
  let _ ← x
  return none

/-- The effect of a call and the tensor it returns, if any (src/INNC/tensor.cpp). `eye(n)` is `eye(n, n)`
(src/INNC/tensorImpl.cpp:244-246); `randn_like(t)` is `randn` with the shape and type of `t` (lines 802-804);
`query` stands for `size`, `numel`, `type`, `is_contiguous`, `requires_grad` and `retain_grad`. -/
def Call.run : Call F → M F (Option Nat)
  | .scalar dt v => some' (createScalar dt v)
  | .empty s dt => some' (emptyTensor s dt)
  | .init tree => ofInit tree
  | .ones s dt => some' (Tensor.ones s dt)
  | .zeros s dt => some' (Tensor.zeros s dt)
  | .onesLike t => some' (Tensor.onesLike t)
  | .zerosLike t => some' (Tensor.zerosLike t)
  | .fullInt s n dt => some' (full s .i64 (.i n) dt)
  | .fullReal s x dt => some' (full s .f64 (.f x) dt)
  | .eye n m dt => some' (Tensor.eye n m dt)
  | .fromBlob data s dt => some' (Tensor.fromBlob data s dt)
  | .randn rnd s dt => some' (Tensor.randn rnd s dt)
  | .randnLike rnd t => do
    let i ← getT t
    some' (Tensor.randn rnd i.view.sizes i.dtype)
  | .slice t s => some' (Tensor.slice t s)
  | .transpose t a b => some' (Tensor.transpose t a b)
  | .reshape t s => some' (Tensor.reshape t s)
  | .reshapeAs t u => some' (Tensor.reshapeAs t u)
  | .detach t => some' (Tensor.detach t)
  | .clone t => some' (Tensor.clone t)
  | .contiguous t => some' (Tensor.contiguous t)
  | .toType t dt => some' (Tensor.toType t dt)
  | .add l r => some' (addT l r)
  | .sub l r => some' (subT l r)
  | .mul l r => some' (mulT l r)
  | .div l r => some' (divT l r)
  | .pos t => some' (posT t)
  | .neg t => some' (negT t)
  | .cmp op l r => some' (Tensor.cmp op l r)
  | .sum t => some' (sumT t)
  | .mean t => some' (meanT t)
  | .abs t => some' (absT t)
  | .max t => some' (maxT t)
  | .min t => some' (minT t)
  | .cat ts d => some' (catT ts d)
  | .addAssign t r => none' (Tensor.addAssign t r)
  | .setRequiresGrad t b => none' (Tensor.setRequiresGrad t b)
  | .setRetainGrad t b => none' (Tensor.setRetainGrad t b)
  | .zeroGrad t => none' (Tensor.zeroGrad t)
  | .release t => none' (Tensor.release t)
  | .backward t => none' (Tensor.backward t)
  | .grad t => gradOf t
  | .all t => none' (allT t)
  | .toString t => none' (Tensor.toString t)
  | .stride t => none' (Tensor.stride t)
  | .query t => none' (getT t)

/-- The states a program can be in: any number of calls, each of which returned or threw an exception that the program
caught. (A call with undefined behaviour ends the history.) -/
inductive History : Heap F → Prop
  | start : History Heap.empty
  | returned {h h' : Heap F} {c : Call F} {t : Option Nat} : History h → c.run h = .ok t h' → History h'
  | threw {h h' : Heap F} {c : Call F} {e : Exc} : History h → c.run h = .throw e h' → History h'

end
end INNC.Tensor
