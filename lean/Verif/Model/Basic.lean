/-
Outcomes and machine arithmetic.

Simplification kept throughout the model: memory exhaustion is not modelled except that an
allocation of 2^63 bytes or more fails (it cannot succeed on a 64-bit machine).
-/
namespace INNC

/-- Exception classes thrown by the library:
`run_expect` throws `std::runtime_error` (include/INNC/exceptions.hpp:7-13), `std::stoll` throws
`std::invalid_argument` / `std::out_of_range`, `std::logic_error` is thrown for unsupported layouts,
`new[]` throws `std::bad_alloc`. The message text is not modelled. -/
inductive Exc where
  | runtime
  | invalidArgument
  | outOfRange
  | badAlloc
  deriving DecidableEq, Repr

/-- Kinds of undefined behaviour that an execution of the C++ code can reach. -/
inductive UB where
  /-- element access outside the allocation -/
  | oob
  /-- dereference of a null pointer (empty `shared_ptr`, released or unallocated blob) -/
  | nullptr
  /-- read of an element that was never written -/
  | uninit
  /-- signed integer overflow -/
  | overflow
  /-- integer division by zero -/
  | divZero
  /-- element accessed through a pointer to another element type -/
  | typePun
  /-- `std::vector::operator[]` outside the vector -/
  | vecOob
  /-- index outside a dispatch table (include/INNC/dispatcher.hpp) -/
  | dispatch
  /-- float to integer conversion of a value the integer type cannot represent -/
  | floatToInt
  /-- a `bool` object holding neither 0 nor 1 -/
  | badBool
  /-- not C++ behaviour: a loop of the model ran out of fuel (proved unreachable) -/
  | fuel
  deriving DecidableEq, Repr

/-- Result of a computation that does not touch the heap. -/
inductive Res (α : Type) where
  | ok (a : α)
  | throw (e : Exc)
  | ub (u : UB)
  deriving Repr, DecidableEq

namespace Res
@[inline] protected def bind {α β : Type} (x : Res α) (f : α → Res β) : Res β :=
  match x with
  | .ok a => f a
  | .throw e => .throw e
  | .ub u => .ub u
instance : Monad Res where
  pure := Res.ok
  bind := Res.bind
end Res

/-- `run_expect` (include/INNC/exceptions.hpp:7-13): throw `std::runtime_error` unless `b`. -/
def runExpect (b : Bool) : Res Unit := if b then .ok () else .throw .runtime

/-- `v[i]` on a `std::vector`: undefined outside the vector. -/
def vecAt {α : Type} (v : List α) (i : Nat) : Res α :=
  match v[i]? with
  | some a => .ok a
  | none => .ub .vecOob

/-- Conversion of a mathematical integer to `size_t` (64 bit, modulo 2^64). -/
def wrapU (z : Int) : Nat := (z % 18446744073709551616).toNat

/-- Conversion of a mathematical integer to `long long` (C++20: modulo 2^64). -/
def wrapS (z : Int) : Int := Int.bmod z 18446744073709551616

/-- Is `z` representable as `long long`? -/
def fitsS (z : Int) : Bool := decide (-9223372036854775808 ≤ z ∧ z < 9223372036854775808)

/-- `long long` multiplication: signed overflow is undefined. -/
def sMul (a b : Int) : Res Int := if fitsS (a * b) then .ok (a * b) else .ub .overflow

/-- Largest number of bytes that may possibly be allocated. -/
def maxAlloc : Nat := 9223372036854775808

end INNC
