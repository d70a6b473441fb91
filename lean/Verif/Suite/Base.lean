import Verif.Spec.Heap
import Verif.Spec.Ieee
import Verif.Model.Call
import Verif.Model.SizeText
/-
The project's own tests (test/test.cpp), run on the model with IEEE 754 arithmetic. These are tests of the model, not proofs
about it: the project is expected to pass them (this sandbox cannot run it), so a model that fails one is a wrong reading of the
code.
-/
namespace INNC.Suite
open Spec Tensor

/-- A test: it returns, or stops at the first assertion that fails. -/
abbrev T := M Ieee

/-- `ASSERT_TRUE`. A failing assertion is an outcome no call has. -/
def assert (b : Bool) : T Unit := fun h => if b then .ok () h else .ub .fuel

/-- `ASSERT_EQ(x.to_string(), s)`. -/
def prints (x : T Nat) (s : String) : T Unit := do
  let t ← x
  let r ← Tensor.toString t
  assert (r == s.toList)

/-- `ASSERT_EQ(x.to_string(), y.to_string())`. -/
def samePrint (x y : T Nat) : T Unit := do
  let t ← x
  let r ← Tensor.toString t
  let u ← y
  let r' ← Tensor.toString u
  assert (r == r')

/-- `ASSERT_EQ(x.size().to_string(), s)`. -/
def hasSize (x : T Nat) (s : String) : T Unit := do
  let t ← x
  let r ← sizeToString t
  assert (r == s.toList)

/-- `ASSERT_EQ(x.type(), dt)`. -/
def hasType (x : T Nat) (dt : DType) : T Unit := do
  let t ← x
  let r ← typeOf t
  assert (r == dt)

/-- `ASSERT_THROW(x, e)`. -/
def throws {α : Type} (e : Exc) (x : T α) : T Unit := fun h =>
  match x h with
  | .throw e' h' => if e' = e then .ok () h' else .ub .fuel
  | _ => .ub .fuel

/-- `Tensor(n)` for an `int`, `Tensor(n)` for a `long`, `Tensor(x)` for a `double` (a decimal fraction). -/
def int (n : Int) : T Nat := createScalar .i32 (.i n)
def long (n : Int) : T Nat := createScalar .i64 (.i n)
def short (n : Int) : T Nat := createScalar .i16 (.i n)
def double (neg : Bool) (a b : Nat) : T Nat := createScalar .f64 (.f (Ieee.decimal .f64 neg a b))
def float (neg : Bool) (a b : Nat) : T Nat := createScalar .f32 (.f (Ieee.decimal .f32 neg a b))

/-- `x.grad()` of a tensor that has a gradient. -/
def gradT (t : Nat) : T Nat := do
  match ← gradOf t with
  | some g => return g
  | none => M.undef .fuel

/-- `ASSERT_EQ(x.grad().to_string(), "[]")`. -/
def noGrad (t : Nat) : T Unit := do
  let r ← tensorToString (← gradOf t)
  assert (r == "[]".toList)

/-- `ASSERT_STRICT_APPROX` (test/test.cpp:18-25). The macro evaluates its arguments three times. -/
def approx (x y : T Nat) : T Unit := do
  let s ← sizeT (← x)
  let s' ← sizeT (← y)
  assert (s == s')
  let d ← typeOf (← x)
  let d' ← typeOf (← y)
  assert (d == d')
  let l ← x
  let r ← y
  let c ← cmp .lt (← absT (← subT l r)) (← double false 1 1000000)
  assert (← allT c)

/-- Integer data behind a pointer. -/
def ints (l : List Int) : List (Val Ieee) := l.map .i

/-- The test passes. -/
def Passes (x : T Unit) : Prop := result (x Heap.empty) = some ()

instance (x : T Unit) : Decidable (Passes x) := inferInstanceAs (Decidable (_ = _))

/-- Global data (test/test.cpp:8-11). -/
def dataI8 : List (Val Ieee) := ints [1, -3, -5, 7, -9, 11]
def dataI16 : List (Val Ieee) := ints [0, -2, 4, 6, 8, -10]
def dataI16b : List (Val Ieee) := ints [0, 1, 2, 3, 4, 5, 6, 7, 8, 9, 10, 11]

end INNC.Suite
