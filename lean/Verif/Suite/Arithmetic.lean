import Verif.Suite.Base
/-
`TEST(arithmetic, …)` (test/test.cpp:139-262).
-/
namespace INNC.Suite
open Spec Tensor

/-- `TEST(arithmetic, add)` (test/test.cpp:139-162). -/
def add : T Unit := do
  let a ← ones [2, 3] .i16
  let b ← ones [2, 3] .i32
  hasType (addT a b) .i32
  prints (do addT a (← addT a b)) "[[3, 3, 3], [3, 3, 3]]"
  prints (addT a b) "[[2, 2, 2], [2, 2, 2]]"
  prints (do addT (← int 2) (← int 4)) "6"
  let a ← ones [1] .i64
  let b ← ones [1] .i32
  prints (addT a b) "[2]"
  let a ← slice a "4:5".toList
  throws .runtime (addT a b)
  let a ← fromBlob dataI8 [3, 1, 2, 1] .i8
  let b ← fromBlob dataI16 [3, 1, 2] .i16
  let c ← addT a b
  let rst ← toType (← fromBlob (ints [1, -1, -3, -5, 5, 7, 1, 3, 9, -9, 5, -13,
    -5, -7, 7, 5, -1, 1, 11, 13, 3, -15, 15, -3,
    -9, -11, 11, 9, -5, -3, 15, 17, -1, -19, 19, 1]) [3, 3, 2, 2] .i8) (← typeOf c)
  samePrint (pure c) (pure rst)

example : Passes add := by decide +kernel

/-- `TEST(arithmetic, substract)` (test/test.cpp:164-184). -/
def substract : T Unit := do
  let a ← ones [2, 3] .i16
  let b ← ones [2, 3] .i32
  samePrint (subT a b) (zerosLike b)
  let b ← subT a (← int 1)
  samePrint (pure b) (zerosLike b)
  let a ← fromBlob dataI8 [3, 1, 2, 1] .i8
  let b ← fromBlob dataI16 [3, 1, 2] .i16
  let c ← subT a b
  let rst ← toType (← fromBlob (ints [1, 3, -3, -1, -3, -5, -7, -9, -7, 11, -11, 7,
    -5, -3, 7, 9, -9, -11, 3, 1, -13, 5, -1, 17,
    -9, -7, 11, 13, -13, -15, 7, 5, -17, 1, 3, 21]) [3, 3, 2, 2] .i8) (← typeOf c)
  samePrint (pure c) (pure rst)
  let a ← fromBlob dataI8 [3, 2] .i8
  let rst ← fromBlob (ints [-1, 3, 5, -7, 9, -11]) [3, 2] .i8
  samePrint (negT a) (do toType rst (← typeOf a))

example : Passes substract := by decide +kernel

/-- `TEST(arithmetic, multiplication)` (test/test.cpp:186-206). -/
def multiplication : T Unit := do
  let a ← fromBlob dataI8 [2, 3] .i8
  let b ← fromBlob dataI16 [2, 3] .i16
  prints (mulT a b) "[[0, 6, -20], [42, -72, -110]]"
  prints (do mulT a (← mulT a b)) "[[0, -18, 100], [294, 648, -1210]]"
  prints (do mulT (← int 2) (← int 4)) "8"
  prints (do addT (← ones [1] .i64) (← ones [1] .i32)) "[2]"
  let a ← fromBlob dataI8 [3, 1, 2, 1] .i8
  let b ← fromBlob dataI16 [3, 1, 2] .i16
  let c ← mulT a b
  let rst ← toType (← fromBlob (ints [0, -2, 0, 6, 4, 6, -12, -18, 8, -10, -24, 30,
    0, 10, 0, -14, -20, -30, 28, 42, -40, 50, 56, -70,
    0, 18, 0, -22, -36, -54, 44, 66, -72, 90, 88, -110]) [3, 3, 2, 2] .i8) (← typeOf c)
  samePrint (pure c) (pure rst)

example : Passes multiplication := by decide +kernel

/-- `TEST(arithmetic, divide)` (test/test.cpp:208-227). -/
def divide : T Unit := do
  let a ← fromBlob dataI8 [2, 3] .i8
  let b ← divT a (← int 3)
  samePrint (pure b) (fromBlob (ints [0, -1, -1, 2, -3, 3]) [2, 3] .i8)
  let a ← toType (← fromBlob dataI8 [2, 3] .i8) .f64
  let b ← fromBlob dataI16 [2, 3] .i16
  samePrint (do mulT (← divT b a) a) (toType b .f64)
  let a ← fromBlob dataI8 [3, 1, 2, 1] .i8
  let b ← fromBlob dataI16 [3, 1, 2] .i16
  let c ← divT b a
  let rst ← toType (← fromBlob (ints [0, -2, 0, 0, 4, 6, -1, -2, 8, -10, -2, 3,
    0, 0, 0, 0, 0, -1, 0, 0, -1, 2, 1, -1,
    0, 0, 0, 0, 0, 0, 0, 0, 0, 1, 0, 0]) [3, 3, 2, 2] .i8) (← typeOf c)
  samePrint (pure c) (pure rst)
  approx (pure c) (pure rst)

example : Passes divide := by decide +kernel

/-- `TEST(arithmetic, sum)` (test/test.cpp:229-238). -/
def sum : T Unit := do
  prints (do sumT (← fromBlob dataI8 [2, 3] .i8)) "2"
  prints (do sumT (← fromBlob dataI16 [3, 2] .i16)) "6"
  prints (do sumT (← short 3)) "3"
  prints (do sumT (← ones [1] .i16)) "1"

example : Passes sum := by decide +kernel

/-- `TEST(arithmetic, mean)` (test/test.cpp:240-249). -/
def mean : T Unit := do
  let a ← full [2, 3, 3] .i64 (.i (-1)) .i32
  approx (meanT a) (do toType (← long (-1)) .i64)
  let a ← toType (← fromBlob dataI16b [2, 2, 3] .i16) .f32
  approx (meanT a) (do toType (← double false 55 10) .f64)
  prints (do meanT (← short 3)) "3"
  prints (do meanT (← ones [1] .i16)) "1"

example : Passes mean := by decide +kernel

/-- `TEST(arithmetic, max)` (test/test.cpp:251-262). -/
def max : T Unit := do
  prints (do maxT (← fromBlob dataI8 [2, 3] .i8)) "11"
  prints (do maxT (← fromBlob dataI16 [3, 1, 2] .i16)) "8"
  prints (do maxT (← short 3)) "3"
  let a ← ones [1] .i16
  prints (sumT a) "1"
  let a ← slice a "3:4".toList
  discard (maxT a)

example : Passes max := by decide +kernel

end INNC.Suite
