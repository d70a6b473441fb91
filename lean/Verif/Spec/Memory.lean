import Verif.Spec.Forward
/-
Specification: memory safety.
-/
namespace INNC.Spec
open Tensor
variable {F : Type}

/-- Undefined behaviour that comes from the values of elements: signed overflow, integer division by zero, the conversion of
a float that does not fit, a byte that is not a `bool`. All other kinds concern memory: an access outside an allocation or
outside a vector, a null pointer, an uninitialised element, an element of another type. -/
def ByValue (u : UB) : Prop := u = .overflow ∨ u = .divZero ∨ u = .floatToInt ∨ u = .badBool

/-- A tensor of this shape and type has fewer than 2^62 bytes. -/
def Modest (s : List Nat) (dt : DType) : Prop := vol s * dt.size < 4611686018427387904

/-- The shape that the library iterates over for two operands: axes are aligned at the end and the larger size is
taken. For operands that broadcast this is the NumPy shape. -/
def maxShape (u v : List Nat) : List Nat :=
  let n := max u.length v.length
  List.zipWith max (List.replicate (n - u.length) 0 ++ u) (List.replicate (n - v.length) 0 ++ v)

/-- What the caller has to observe for a call to be memory safe. Each condition excludes a call that reads or writes outside
the memory of a tensor, or that a later call on its result does:
* shapes have fewer than 2^62 bytes (sizes that overflow are accepted, see C11 and C27);
* values and blobs have the type they are passed for;
* `abs()` only of dense tensors (C25), `max()` and `min()` only of non-empty ones (C24), `cat` only of at least one (C29);
* `randn` only of `f32` (C49); initialiser lists are regular (C28); `reshape` has no negative sizes except -1, and does not
  turn a tensor that requires grad into a scalar or a scalar that does into another shape (C11);
* the constructor that leaves elements uninitialised, `release()`, `backward()` and `grad()` are left out. -/
def Allowed (h : Heap F) : Call F → Prop
  | .scalar dt v => v.HasType dt
  | .init tree => ∃ dt s, Uniform dt s tree ∧ Typed tree ∧ Modest s dt
  | .ones s dt | .zeros s dt => Modest s dt
  | .onesLike t | .zerosLike t | .clone t | .contiguous t => ∀ i, h.ts[t]? = some i → Modest i.view.sizes i.dtype
  | .fullInt s n dt => Modest s dt ∧ InRange 64 n
  | .fullReal s _ dt => Modest s dt
  | .eye n m dt => Modest [n, m] dt
  | .fromBlob data s dt => Modest s dt ∧ vol s ≤ data.length ∧ ∀ v ∈ data, v.HasType dt
  | .randn _ s dt => dt.isFloat = true → dt = .f32 ∧ Modest s .f32
  | .randnLike _ t => ∀ i, h.ts[t]? = some i → i.dtype.isFloat = true → i.dtype = .f32 ∧ Modest i.view.sizes .f32
  | .reshape t sizes => ∀ i, h.ts[t]? = some i → Modest i.view.sizes i.dtype ∧ (∀ z ∈ sizes, -1 ≤ z) ∧
      Modest ((sizes.filter (0 ≤ ·)).map Int.toNat) .i8 ∧ (i.requiresGrad = true → (i.view.sizes = [] ↔ sizes = []))
  | .reshapeAs t u => ∀ i, h.ts[t]? = some i → Modest i.view.sizes i.dtype ∧ Modest (shapeOf h u) .i8 ∧
      (i.requiresGrad = true → (i.view.sizes = [] ↔ shapeOf h u = []))
  | .toType t dt => Modest (shapeOf h t) dt
  | .add l r | .sub l r | .mul l r | .div l r | .cmp _ l r => Modest (maxShape (shapeOf h l) (shapeOf h r)) .f64
  | .neg t => Modest (shapeOf h t) .f64
  | .abs t => ∀ i, h.ts[t]? = some i → Dense i.view ∧ Modest i.view.sizes i.dtype
  | .max t | .min t => ∀ i, h.ts[t]? = some i → vol i.view.sizes ≠ 0 ∧ Modest i.view.sizes i.dtype
  | .cat ts d => ts ≠ [] ∧ ∀ (s : List Nat) (ns : List Nat), d < s.length →
      List.Forall₂ (fun t n => shapeOf h t = s.set d n) ts ns → ns.sum < 4611686018427387904 ∧ Modest (s.set d ns.sum) .f64
  | .empty _ _ | .release _ | .backward _ | .grad _ => False
  | .slice _ _ | .transpose _ _ _ | .detach _ | .pos _ | .sum _ | .mean _ | .addAssign _ _ | .setRequiresGrad _ _
  | .setRetainGrad _ _ | .zeroGrad _ | .all _ | .toString _ | .stride _ | .query _ => True

/-- The states and variables of a program whose calls are all `Allowed`: calls that throw are caught, and results of calls
become variables. -/
inductive Careful [FOps F] : Heap F → List Nat → Prop
  | start : Careful Heap.empty []
  | returned {h h' : Heap F} {vs : List Nat} {c : Call F} {o : Option Nat} : Careful h vs → Allowed h c → (∀ a ∈ args c, a ∈ vs) →
      c.run h = .ok o h' → Careful h' (o.toList ++ vs)
  | threw {h h' : Heap F} {vs : List Nat} {c : Call F} {e : Exc} : Careful h vs → Allowed h c → (∀ a ∈ args c, a ∈ vs) →
      c.run h = .throw e h' → Careful h' vs

/-- The tensor `t` exists and is in good order: its storage is allocated, has its element type and fewer than 2^62 bytes,
every element of the storage is initialised with a value of that type, every element of the tensor lies inside the storage,
and no address computation on its layout overflows. -/
def Sound (h : Heap F) (t : Nat) : Prop :=
  ∃ i s cells, h.ts[t]? = some i ∧ h.st[i.data]? = some s ∧ s.dt = i.dtype ∧ s.blob = some cells ∧
    cells.length * i.dtype.size < 4611686018427387904 ∧
    (∀ p, p < cells.length → ∃ v : Val F, cells[p]? = some (some v) ∧ v.HasType i.dtype) ∧
    (∀ idx, InBox i.view.sizes idx → ∃ p : Nat, position i.view idx = p ∧ p < cells.length) ∧
    i.view.strides.length = i.view.sizes.length ∧ i.view.offset < 18446744073709551616 ∧
    (vol i.view.sizes ≠ 0 → Tame i.view.sizes i.view.strides)

/-- The functions that make views. -/
def MakesView (t : Nat) : Call F → Prop
  | .slice u _ | .transpose u _ _ | .reshape u _ | .detach u => u = t
  | _ => False

/-- `Chain h t h' t'`: the tensor `t'` of the state `h'` was made from the tensor `t` of the state `h` by slicing,
transposing, reshaping and detaching any number of times; reshaping only as allowed above. -/
inductive Chain [FOps F] (h : Heap F) (t : Nat) : Heap F → Nat → Prop
  | start : Chain h t h t
  | step {h1 h2 : Heap F} {u r : Nat} {c : Call F} : Chain h t h1 u → MakesView u c → Allowed h1 c → c.run h1 = .ok (some r) h2 →
      Chain h t h2 r

end INNC.Spec
