import Verif.Spec.Memory
import Verif.Spec.Reduce
import Verif.Spec.Cat
import Verif.Spec.InPlace
/-
Specification: what a program means. A program is a list of statements over variables. Its meaning is given on an abstract
memory of blocks: a tensor is a shape, a block and a map from indices to places of the block. Nothing here has strides,
offsets, gradients or operation records, and no function of the model is used except to name the calls.
-/
namespace INNC.Spec
open Tensor
variable {F : Type}

/-! ### The abstract memory -/

/-- A block of memory: elements of one type. -/
structure Cells (F : Type) where
  dt : DType
  vals : List (Val F)

/-- A tensor object: its element at `idx` is the element number `pos idx` of a block. -/
structure Ref where
  block : Nat
  sizes : List Nat
  pos : List Nat → Nat
  grad : Bool

/-- An abstract state: blocks, tensor objects, and variables, which hold objects. Two variables can hold the same object, and two
objects can use the same block. -/
structure World (F : Type) where
  mem : List (Cells F)
  objs : List Ref
  vars : List Nat

/-- The state in which a program starts. -/
def World.start : World F := ⟨[], [], []⟩

/-- The variable `v` holds the object `r`, whose element type is `dt` and whose elements are `f`. -/
def Carries (w : World F) (v : Nat) (r : Ref) (dt : DType) (f : List Nat → Val F) : Prop :=
  ∃ o vals, w.vars[v]? = some o ∧ w.objs[o]? = some r ∧ w.mem[r.block]? = some ⟨dt, vals⟩ ∧
    ∀ idx, InBox r.sizes idx → vals[r.pos idx]? = some (f idx)

/-- Does the tensor in the variable `v` require grad? -/
def World.tracks (w : World F) (v : Nat) : Bool := (((w.vars[v]?).bind fun o => w.objs[o]?).map (·.grad)).getD false

/-- A new variable with a new object on a new block. -/
def World.new (w : World F) (dt : DType) (s : List Nat) (pos : List Nat → Nat) (vals : List (Val F)) (grad : Bool) : World F :=
  ⟨w.mem ++ [⟨dt, vals⟩], w.objs ++ [⟨w.mem.length, s, pos, grad⟩], w.vars ++ [w.objs.length]⟩

/-- A new variable with a new object on a new block that lists the elements in row-major order. -/
def World.fresh (w : World F) (dt : DType) (s : List Nat) (f : List Nat → Val F) (grad : Bool) : World F :=
  w.new dt s (rank s) ((rowMajor s).map f) grad

/-- A new variable with a new object on the block of the object `r`: its element at `idx` is the element `σ idx` of `r`. -/
def World.view (w : World F) (r : Ref) (s : List Nat) (σ : List Nat → List Nat) (grad : Bool) : World F :=
  ⟨w.mem, w.objs ++ [⟨r.block, s, fun idx => r.pos (σ idx), grad⟩], w.vars ++ [w.objs.length]⟩

/-- A new variable with the object of the variable `v`. -/
def Again (w : World F) (v : Nat) (w' : World F) : Prop := ∃ o, w.vars[v]? = some o ∧ w' = { w with vars := w.vars ++ [o] }

/-! ### The meaning of a call -/

/-- `a + b`, `a - b`, `a * b` or `a / b`. -/
def binary (op : AOp) (l r : Nat) : Call F :=
  match op with
  | .add => .add l r
  | .sub => .sub l r
  | .mul => .mul l r
  | .div => .div l r

/-- The sizes `req` passed to `reshape` mean the shape `s`: they are `s`, or `s` with one size replaced by -1 and no empty axis
among the others. -/
def Asks (req : List Int) (s : List Nat) : Prop :=
  req = s.map (fun n : Nat => (n : Int)) ∨
    ∃ a m b, s = a ++ m :: b ∧ 0 < vol (a ++ b) ∧ req = a.map (fun n : Nat => (n : Int)) ++ -1 :: b.map (fun n : Nat => (n : Int))

/-- The result of reshaping `r` to the shape `s`: it lists the same elements in the same row-major order, on the same block or on
a new one. (Which of the two is the subject of C13.) -/
def Reshapes (w : World F) (r : Ref) (dt : DType) (f : List Nat → Val F) (s : List Nat) (w' : World F) : Prop :=
  ∃ σ, (∀ idx, InBox s idx → InBox r.sizes (σ idx) ∧ rank r.sizes (σ idx) = rank s idx) ∧
    (w' = w.view r s σ r.grad ∨ w' = w.fresh dt s (fun idx => f (σ idx)) r.grad)

/-- Every step that is given is 1 or smaller than its axis. -/
def ShortSteps : List AxisSpec → List Nat → Prop
  | .range _ _ (some k) :: ss, n :: ns => (k = 1 ∨ k.natAbs < n) ∧ ShortSteps ss ns
  | _ :: ss, _ :: ns => ShortSteps ss ns
  | _, _ => True

variable [FOps F]

/-- The tensor has one element and no axes, or its first element is not the extreme one. (The library does not record where the extreme
is if that is the first element: see C44.) -/
def FirstLoses (keep : COp) (dt : DType) (s : List Nat) (f : List Nat → Val F) : Prop :=
  s = [] ∨ ∃ b, InBox s b ∧ elemCompare keep dt dt (f (s.map fun _ => 0)) (f b) = false

/-- `Rule w c Q`: in the state `w` the call `c` is defined, and afterwards the state satisfies `Q`. Shapes have fewer than 2^62
bytes; all other conditions are those under which the library does what the property of the function says. -/
inductive Rule (w : World F) : Call F → (World F → Prop) → Prop
  /- constructors -/
  | scalar {dt v} : v.HasType dt → Rule w (.scalar dt v) (· = w.fresh dt [] (fun _ => v) false)
  | init {tree dt s f} : Uniform dt s tree → Typed tree → Modest s dt → (∀ idx, InBox s idx → entry idx tree = some (f idx)) →
      Rule w (.init tree) (· = w.fresh dt s f false)
  | zeros {s dt} : Modest s dt → Rule w (.zeros s dt) (· = w.fresh dt s (fun _ => zeroElem dt) false)
  | ones {s dt} : Modest s dt → Rule w (.ones s dt) (· = w.fresh dt s (fun _ => oneElem dt) false)
  | zerosLike {v r dt f} : Carries w v r dt f → Modest r.sizes dt →
      Rule w (.zerosLike v) (· = w.fresh dt r.sizes (fun _ => zeroElem dt) false)
  | onesLike {v r dt f} : Carries w v r dt f → Modest r.sizes dt →
      Rule w (.onesLike v) (· = w.fresh dt r.sizes (fun _ => oneElem dt) false)
  | fullInt {s n dt x} : Modest s dt → InRange 64 n → convert .i64 dt (.i n) = some x →
      Rule w (.fullInt s n dt) (· = w.fresh dt s (fun _ => x) false)
  | fullReal {s z dt x} : Modest s dt → convert .f64 dt (.f z) = some x →
      Rule w (.fullReal s z dt) (· = w.fresh dt s (fun _ => x) false)
  | eye {n m dt} : Modest [n, m] dt →
      Rule w (.eye n m dt) (· = w.fresh dt [n, m] (fun idx => if idx.getD 0 0 = idx.getD 1 0 then oneElem dt else zeroElem dt) false)
  | fromBlob {data s dt f} : Modest s dt → vol s ≤ data.length → (∀ v ∈ data, v.HasType dt) →
      (∀ idx, InBox s idx → data[rank s idx]? = some (f idx)) → Rule w (.fromBlob data s dt) (· = w.fresh dt s f false)
  | randnLike {rnd v r f} : Carries w v r .f32 f → Modest r.sizes .f32 →
      Rule w (.randnLike rnd v) (· = w.fresh .f32 r.sizes (fun idx => .f (rnd (rank r.sizes idx))) false)
  | randn {rnd s} : Modest s .f32 → Rule w (.randn rnd s .f32) (· = w.fresh .f32 s (fun idx => .f (rnd (rank s idx))) false)
  /- copies and conversions -/
  | clone {v r dt f} : Carries w v r dt f → Modest r.sizes dt → Rule w (.clone v) (· = w.fresh dt r.sizes f r.grad)
  | contiguous {v r dt f} : Carries w v r dt f → Modest r.sizes dt → Rule w (.contiguous v) (· = w.fresh dt r.sizes f r.grad)
  | toType {v r dt f to' g} : Carries w v r dt f → to' ≠ dt → (r.grad = true → isInteger to' = false) → Modest r.sizes to' →
      (∀ idx, InBox r.sizes idx → convert dt to' (f idx) = some (g idx)) → Rule w (.toType v to') (· = w.fresh to' r.sizes g r.grad)
  | sameType {v r dt f} : Carries w v r dt f → (r.grad = true → isInteger dt = false) → Modest r.sizes dt →
      Rule w (.toType v dt) (Again w v)
  | pos {v r dt f} : Carries w v r dt f → Rule w (.pos v) (Again w v)
  /- element-wise operations -/
  | arith {op l r a b da db fa fb s g} : Carries w l a da fa → Carries w r b db fb → bshape a.sizes b.sizes = some s →
      ¬ stretched a.sizes b.sizes → Modest s .f64 →
      (∀ idx, InBox s idx → elemBinary op da db (fa (project a.sizes idx)) (fb (project b.sizes idx)) = some (g idx)) →
      Rule w (binary op l r) (· = w.fresh (later da db) s g (a.grad || b.grad))
  | cmp {op l r a b da db fa fb s} : Carries w l a da fa → Carries w r b db fb → bshape a.sizes b.sizes = some s →
      ¬ stretched a.sizes b.sizes → Modest s .f64 →
      Rule w (.cmp op l r) (· = w.fresh .i8 s
        (fun idx => .i (if elemCompare op da db (fa (project a.sizes idx)) (fb (project b.sizes idx)) then 1 else 0)) false)
  | neg {v r dt f g} : Carries w v r dt f → Modest r.sizes .f64 →
      (∀ idx, InBox r.sizes idx → elemArith .sub .i32 dt (.i 0) (f idx) = some (g idx)) →
      Rule w (.neg v) (· = w.fresh (later .i32 dt) r.sizes g r.grad)
  | abs {v r dt f} {g : List Nat → Val F} : Carries w v r dt f → Modest r.sizes dt →
      (∀ idx, InBox r.sizes idx → r.pos idx < vol r.sizes) →
      (∀ a b, InBox r.sizes a → InBox r.sizes b → r.pos a = r.pos b → a = b) →
      (∀ idx, InBox r.sizes idx → elemAbs dt (f idx) = some (g idx)) →
      Rule w (.abs v) fun w' => ∃ vals, vals.length = vol r.sizes ∧ (∀ idx, InBox r.sizes idx → vals[r.pos idx]? = some (g idx)) ∧
        w' = w.new dt r.sizes r.pos vals r.grad
  /- reductions and concatenation -/
  | sum {v r dt f x} : Carries w v r dt f → Modest r.sizes .i8 → sumOf dt r.sizes f = some x →
      Rule w (.sum v) (· = w.fresh (accType dt) [] (fun _ => x) r.grad)
  | mean {v r dt f x} : Carries w v r dt f → Modest r.sizes .i8 → meanOf dt r.sizes f = some x →
      Rule w (.mean v) (· = w.fresh (accType dt) [] (fun _ => x) r.grad)
  | max {v r dt f} : Carries w v r dt f → Modest r.sizes dt → vol r.sizes ≠ 0 → r.pos (r.sizes.map fun _ => 0) = 0 →
      Ordered .ge dt r.sizes f → (r.grad = true → FirstLoses .ge dt r.sizes f) →
      Rule w (.max v) fun w' => ∃ a, InBox r.sizes a ∧ (∀ b, InBox r.sizes b → elemCompare .ge dt dt (f a) (f b) = true) ∧
        w' = w.fresh dt [] (fun _ => f a) r.grad
  | min {v r dt f} : Carries w v r dt f → Modest r.sizes dt → vol r.sizes ≠ 0 → r.pos (r.sizes.map fun _ => 0) = 0 →
      Ordered .le dt r.sizes f → (r.grad = true → FirstLoses .le dt r.sizes f) →
      Rule w (.min v) fun w' => ∃ a, InBox r.sizes a ∧ (∀ b, InBox r.sizes b → elemCompare .le dt dt (f a) (f b) = true) ∧
        w' = w.fresh dt [] (fun _ => f a) r.grad
  | cat {vs d} {s : List Nat} {bs : List (Block F)} : List.Forall₂ (fun v (b : Block F) => ∃ r, Carries w v r b.dt b.f ∧ r.sizes = s.set d b.n) vs bs → vs ≠ [] →
      d < s.length → axisTotal bs < 4611686018427387904 → Modest (s.set d (axisTotal bs)) .f64 →
      Rule w (.cat vs d) (· = w.fresh (latest (bs.map (·.dt))) (s.set d (axisTotal bs)) (catAt d (latest (bs.map (·.dt))) bs)
        (vs.any w.tracks))
  /- views -/
  | slice {v r dt f str specs} : Carries w v r dt f → vol r.sizes ≠ 0 → Spells specs str → Selects specs r.sizes → (∀ x ∈ specs, x.Is64) →
      ShortSteps specs r.sizes → Rule w (.slice v str) (· = w.view r (selShape specs r.sizes) (selIndex specs r.sizes) r.grad)
  | transpose {v r dt f a b} : Carries w v r dt f → vol r.sizes ≠ 0 → a < r.sizes.length → b < r.sizes.length → a ≠ b →
      Rule w (.transpose v a b) (· = w.view r (swapped r.sizes a b) (fun idx => swapped idx a b) r.grad)
  | reshape {v r dt f req s} : Carries w v r dt f → vol r.sizes ≠ 0 → Modest r.sizes dt → Asks req s → vol s = vol r.sizes →
      (r.grad = true → (r.sizes = [] ↔ s = [])) → Rule w (.reshape v req) (Reshapes w r dt f s)
  | reshapeAs {v r dt f u r' dt' f'} : Carries w v r dt f → Carries w u r' dt' f' → vol r.sizes ≠ 0 → Modest r.sizes dt →
      vol r'.sizes = vol r.sizes → (r.grad = true → (r.sizes = [] ↔ r'.sizes = [])) →
      Rule w (.reshapeAs v u) (Reshapes w r dt f r'.sizes)
  | detach {v r dt f} : Carries w v r dt f → Rule w (.detach v) (· = w.view r r.sizes id false)
  /- changes -/
  | addAssign {x y a b da db fa fb s} {vals : List (Val F)} {g : List Nat → Val F} : Carries w x a da fa → Carries w y b db fb → w.mem[a.block]? = some ⟨da, vals⟩ →
      a.block ≠ b.block → a.grad = false →
      (∀ i j, InBox a.sizes i → InBox a.sizes j → a.pos i = a.pos j → i = j) →
      bshape a.sizes b.sizes = some s → ¬ stretched a.sizes b.sizes →
      (∀ idx, InBox a.sizes idx → accumAt da db a.sizes b.sizes s fa fb idx = some (g idx)) →
      Rule w (.addAssign x y) fun w' => ∃ vals', vals'.length = vals.length ∧
        (∀ idx, InBox a.sizes idx → vals'[a.pos idx]? = some (g idx)) ∧
        (∀ q, (∀ idx, InBox a.sizes idx → a.pos idx ≠ q) → vals'[q]? = vals[q]?) ∧
        w' = { w with mem := w.mem.set a.block ⟨da, vals'⟩ }
  | addShared {x y a b dt fa fb} {vals : List (Val F)} {m : Nat → Val F} : Carries w x a dt fa → Carries w y b dt fb → w.mem[a.block]? = some ⟨dt, vals⟩ →
      a.block = b.block → a.grad = false →
      addEach dt dt a.sizes b.sizes a.pos b.pos (rowMajor (maxShape a.sizes b.sizes)) (fun n => vals.getD n (zeroElem dt)) = .done m →
      Rule w (.addAssign x y) fun w' => ∃ vals', vals'.length = vals.length ∧
        (∀ idx, InBox a.sizes idx → vals'[a.pos idx]? = some (m (a.pos idx))) ∧
        (∀ q, (∀ idx, InBox a.sizes idx → a.pos idx ≠ q) → vals'[q]? = vals[q]?) ∧
        w' = { w with mem := w.mem.set a.block ⟨dt, vals'⟩ }
  | requiresGrad {v r dt f b} : Carries w v r dt f → (b = true → isInteger dt = false) →
      Rule w (.setRequiresGrad v b) fun w' => ∃ o, w.vars[v]? = some o ∧ w' = { w with objs := w.objs.set o { r with grad := b } }
  | retainGrad {v r dt f b} : Carries w v r dt f → Rule w (.setRetainGrad v b) (· = w)
  | zeroGrad {v r dt f} : Carries w v r dt f → Rule w (.zeroGrad v) (· = w)
  /- questions -/
  | toString {v r dt f} : Carries w v r dt f → Rule w (.toString v) (· = w)
  | query {v r dt f} : Carries w v r dt f → Rule w (.query v) (· = w)

/-! ### Programs -/

/-- A call on other tensors. -/
def rename (σ : Nat → Nat) : Call F → Call F
  | .onesLike t => .onesLike (σ t)
  | .zerosLike t => .zerosLike (σ t)
  | .randnLike rnd t => .randnLike rnd (σ t)
  | .slice t s => .slice (σ t) s
  | .transpose t a b => .transpose (σ t) a b
  | .reshape t s => .reshape (σ t) s
  | .reshapeAs t u => .reshapeAs (σ t) (σ u)
  | .detach t => .detach (σ t)
  | .clone t => .clone (σ t)
  | .contiguous t => .contiguous (σ t)
  | .toType t dt => .toType (σ t) dt
  | .add l r => .add (σ l) (σ r)
  | .sub l r => .sub (σ l) (σ r)
  | .mul l r => .mul (σ l) (σ r)
  | .div l r => .div (σ l) (σ r)
  | .pos t => .pos (σ t)
  | .neg t => .neg (σ t)
  | .cmp op l r => .cmp op (σ l) (σ r)
  | .sum t => .sum (σ t)
  | .mean t => .mean (σ t)
  | .abs t => .abs (σ t)
  | .max t => .max (σ t)
  | .min t => .min (σ t)
  | .cat ts d => .cat (ts.map σ) d
  | .addAssign t r => .addAssign (σ t) (σ r)
  | .setRequiresGrad t b => .setRequiresGrad (σ t) b
  | .setRetainGrad t b => .setRetainGrad (σ t) b
  | .zeroGrad t => .zeroGrad (σ t)
  | .release t => .release (σ t)
  | .backward t => .backward (σ t)
  | .grad t => .grad (σ t)
  | .all t => .all (σ t)
  | .toString t => .toString (σ t)
  | .stride t => .stride (σ t)
  | .query t => .query (σ t)
  | .scalar dt v => .scalar dt v
  | .empty s dt => .empty s dt
  | .init tree => .init tree
  | .ones s dt => .ones s dt
  | .zeros s dt => .zeros s dt
  | .fullInt s n dt => .fullInt s n dt
  | .fullReal s x dt => .fullReal s x dt
  | .eye n m dt => .eye n m dt
  | .fromBlob data s dt => .fromBlob data s dt
  | .randn rnd s dt => .randn rnd s dt

/-- A command: a call on variables, whose result becomes a new variable; `Tensor b; b = a;` (there is no copy constructor), which
makes a new variable; `b = a;`; `try { a.backward(); } catch (...) {}`. -/
inductive Command (F : Type) where
  | call (c : Call F)
  | copy (v : Nat)
  | assign (v u : Nat)
  | attempt (v : Nat)

/-- What the program does with the library: `vs` are the tensors in the variables. Assigning a `Tensor` copies its pointer to the
tensor object (include/INNC/tensor.hpp:28-60, src/INNC/tensor.cpp:22). -/
def perform : List (Command F) → List Nat → M F (List Nat)
  | [], vs => pure vs
  | .call c :: p, vs => do
    let o ← (rename (fun v => vs.getD v 0) c).run
    perform p (vs ++ o.toList)
  | .copy v :: p, vs => perform p (vs ++ [vs.getD v 0])
  | .assign v u :: p, vs => perform p (vs.set v (vs.getD u 0))
  | .attempt v :: p, vs => fun h => match backward (vs.getD v 0) h with
    | .ok _ h' => perform p vs h'
    | .throw _ h' => perform p vs h'
    | .ub u => .ub u

/-- The program, which does not call `backward`, is defined when started in `w`, and `P` holds afterwards. -/
def Means : List (Command F) → World F → (World F → Prop) → Prop
  | [], w, P => P w
  | .call c :: p, w, P => ∃ Q, Rule w c Q ∧ ∀ w', Q w' → Means p w' P
  | .copy v :: p, w, P => ∃ o, w.vars[v]? = some o ∧ Means p { w with vars := w.vars ++ [o] } P
  | .assign v u :: p, w, P => ∃ o, w.vars[u]? = some o ∧ v < w.vars.length ∧ Means p { w with vars := w.vars.set v o } P
  | .attempt _ :: _, _, _ => False

/-- The same for programs that call `backward()`: it changes nothing that the abstract state describes, from whichever variable it
starts, whether it returns or throws. -/
def Follows : List (Command F) → World F → (World F → Prop) → Prop
  | [], w, P => P w
  | .call c :: p, w, P => ∃ Q, Rule w c Q ∧ ∀ w', Q w' → Follows p w' P
  | .copy v :: p, w, P => ∃ o, w.vars[v]? = some o ∧ Follows p { w with vars := w.vars ++ [o] } P
  | .assign v u :: p, w, P => ∃ o, w.vars[u]? = some o ∧ v < w.vars.length ∧ Follows p { w with vars := w.vars.set v o } P
  | .attempt v :: p, w, P => v < w.vars.length ∧ Follows p w P

/-- The program gets to a `backward()` whose behaviour is undefined. -/
def Breaks (p : List (Command F)) (vs : List Nat) (h : Heap F) : Prop :=
  ∃ a v b vs' h' u, p = a ++ .attempt v :: b ∧ perform a vs h = .ok vs' h' ∧ backward (vs'.getD v 0) h' = .ub u

/-- The state `h` of the library, with the tensors `vs` in the variables, represents the abstract state `w`: variables hold
tensors of the type, shape and elements they have in `w`, with the flag they have in `w`; they hold the same object, and elements
lie at the same place, exactly when they do in `w`. -/
structure Represents (h : Heap F) (vs : List Nat) (w : World F) : Prop where
  length : vs.length = w.vars.length
  holds : ∀ v < w.vars.length, ∃ r dt f, Carries w v r dt f
  denotes : ∀ v r dt f, Carries w v r dt f → ∃ t i, vs[v]? = some t ∧ h.ts[t]? = some i ∧ Denotes h t dt r.sizes f ∧ i.requiresGrad = r.grad
  object : ∀ v u, v < w.vars.length → u < w.vars.length → (vs[v]? = vs[u]? ↔ w.vars[v]? = w.vars[u]?)
  place : ∀ v r dt f u r' dt' f' t t' k k', Carries w v r dt f → Carries w u r' dt' f' → vs[v]? = some t → vs[u]? = some t' →
    InBox r.sizes k → InBox r'.sizes k' → (SamePlace h t k t' k' ↔ r.block = r'.block ∧ r.pos k = r'.pos k')

end INNC.Spec
