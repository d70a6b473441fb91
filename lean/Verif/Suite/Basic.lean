import Verif.Suite.Base
/-
`TEST(basic, …)` (test/test.cpp:27-137).
-/
namespace INNC.Suite
open Spec Tensor

/-- `TEST(basic, initialization)` (test/test.cpp:27-82). -/
def initialization : T Unit := do
  prints (zeros [1] .i16) "[0]"
  prints (zeros [1] .i32) "[0]"
  prints (zeros [1, 1] .f32) "[[0.000000]]"
  let a ← zeros [1, 2, 3] .i8
  prints (pure a) "[[[0, 0, 0], [0, 0, 0]]]"
  assert ((← numelOf a) == 6)
  prints (ones [1, 2, 3] .i32) "[[[1, 1, 1], [1, 1, 1]]]"
  prints (ones [2, 1, 1] .f32) "[[[1.000000]], [[1.000000]]]"
  let a ← zeros [3, 2, 5] .i8
  let b ← zerosLike a
  samePrint (pure a) (pure b)
  let a ← ones [4, 5, 6] .i8
  let b ← onesLike a
  samePrint (pure a) (pure b)
  prints (fromBlob dataI8 [2, 3] .i8) "[[1, -3, -5], [7, -9, 11]]"
  prints (int 3) "3"
  let a ← double true 314 100
  prints (pure a) "-3.140000"
  let b := a
  prints (pure b) "-3.140000"
  prints (float false 271828 100000) "2.718280"
  prints (zerosLike a) "0.000000"
  prints (onesLike a) "1.000000"
  prints (fromBlob dataI8 [2, 3] .i8) "[[1, -3, -5], [7, -9, 11]]"
  let a ← full [2, 3, 3] .i64 (.i (-1)) .i32
  approx (sumT a) (long (-18))
  let a ← full [1] .f64 (.f (Ieee.decimal .f64 true 2 1)) .f64
  approx (sumT a) (double true 2 1)
  let a ← full [0] .f64 (.f (Ieee.decimal .f64 true 2 1)) .f64
  hasSize (pure a) "[0]"
  prints (pure a) "[]"
  prints (eye 0 0 .i8) "[]"
  approx (eye 3 3 .i8) (fromBlob (ints [1, 0, 0, 0, 1, 0, 0, 0, 1]) [3, 3] .i8)
  approx (eye 2 3 .i8) (fromBlob (ints [1, 0, 0, 0, 1, 0]) [2, 3] .i8)
  approx (eye 2 3 .f32) (do toType (← fromBlob (ints [1, 0, 0, 0, 1, 0]) [2, 3] .i8) .f32)

example : Passes initialization := by decide +kernel

/-- `TEST(basic, smartInit)` (test/test.cpp:84-98). -/
def smartInit : T Unit := do
  let some a ← ofInit (.leaf .i32 (ints [1, 2, 3])) | assert false
  hasType (pure a) .i32
  prints (pure a) "[1, 2, 3]"
  assert ((← tensorToString (← ofInit (.node []))) == "[]".toList)
  let some a ← ofInit (.node [.node [.leaf .i32 (ints [1, 2]), .leaf .i32 (ints [3, 4]), .leaf .i32 (ints [5, 5])]]) | assert false
  hasSize (pure a) "[1, 3, 2]"
  let some a ← ofInit (.node [.leaf .i32 (ints [1]), .leaf .i32 (ints [2]), .leaf .i32 (ints [3])]) | assert false
  hasSize (pure a) "[3, 1]"
  throws .invalidArgument (ofInit (.node [.leaf .i32 (ints [1, 2, 3]), .leaf .i32 (ints [4, 5])]))
  throws .invalidArgument (ofInit (.node [.leaf .f64 [.f (Ieee.decimal .f64 false 1 1), .f (Ieee.decimal .f64 false 2 1),
    .f (Ieee.decimal .f64 false 3 1)], .leaf .i32 (ints [4, 5, 6])]))

example : Passes smartInit := by decide +kernel

/-- `TEST(basic, type)` (test/test.cpp:100-109). -/
def type : T Unit := do
  let a ← fromBlob dataI8 [2, 3] .i8
  prints (toType a .i64) "[[1, -3, -5], [7, -9, 11]]"
  let a ← fromBlob (dataI8.drop 1) [1] .i8
  let a ← toType a .f64
  prints (pure a) "[-3.000000]"
  prints (toType a .i8) "[-3]"

example : Passes type := by decide +kernel

/-- `TEST(basic, compare)` (test/test.cpp:111-137). -/
def compare : T Unit := do
  let a ← toType (← fromBlob dataI8 [2, 3] .i8) .i64
  let same (x : Nat) (l : List Int) : T Unit := do
    assert (← allT (← cmp .eq x (← fromBlob (ints l) [2, 3] .i8)))
  let b ← cmp .lt a (← int 1)
  assert (!(← allT b))
  same b [0, 1, 1, 0, 1, 0]
  let b ← cmp .lt a (← int 100)
  assert (← allT (← cmp .eq b (← toType (← onesLike a) .i8)))
  same (← cmp .gt a (← int 1)) [0, 0, 0, 1, 0, 1]
  assert (← allT (← cmp .eq a (← toType a .f64)))
  same (← cmp .eq a (← int 1)) [1, 0, 0, 0, 0, 0]
  same (← cmp .ge (← toType a .f32) (← int 1)) [1, 0, 0, 1, 0, 1]
  same (← cmp .le a (← int 1)) [1, 1, 1, 0, 1, 0]
  same (← cmp .ne (← toType a .i16) (← int 1)) [0, 1, 1, 1, 1, 1]

example : Passes compare := by decide +kernel

end INNC.Suite
