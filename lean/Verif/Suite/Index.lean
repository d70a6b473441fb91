import Verif.Suite.Base
/-
`TEST(index, …)` (test/test.cpp:264-396).
-/
namespace INNC.Suite
open Spec Tensor

/-- `TEST(index, slice)` (test/test.cpp:264-310). -/
def slices : T Unit := do
  let a ← fromBlob dataI16b [4, 3] .i16
  let part (s : String) (size : String) : T Nat := do
    let b ← slice a s.toList
    hasSize (pure b) size
    return b
  discard (part "" "[4, 3]")
  discard (part "," "[4, 3]")
  discard (part ":,::" "[4, 3]")
  discard (part ":," "[4, 3]")
  prints (part "1, 1" "[]") "4"
  prints (part "2,:" "[3]") "[6, 7, 8]"
  prints (part ":,-1" "[4]") "[2, 5, 8, 11]"
  prints (part "-4:-1:2,-1:0:-2" "[2, 1]") "[[2], [8]]"
  prints (part "-99: 99 :2, 99 : -99:-2" "[2, 2]") "[[2, 0], [8, 6]]"
  prints (part "::2, ::-2" "[2, 2]") "[[2, 0], [8, 6]]"
  let b ← part "99::2, :-99:-2" "[0, 2]"
  prints (pure b) "[]"
  let b ← slice b "-2:,1".toList
  hasSize (pure b) "[0]"
  prints (pure b) "[]"
  prints (part "-5::-2,:-4:2" "[0, 0]") "[]"
  prints (part ":3:-2,2:1:2" "[0, 0]") "[]"
  throws .invalidArgument (slice a " - 1, 2".toList)
  throws .runtime (slice a "99".toList)

example : Passes slices := by decide +kernel

/-- `TEST(index, transpose)` (test/test.cpp:312-329). -/
def transposes : T Unit := do
  prints (do transpose (← fromBlob dataI16b [4, 3] .i16) 0 1) "[[0, 3, 6, 9], [1, 4, 7, 10], [2, 5, 8, 11]]"
  prints (do transpose (← fromBlob dataI8 [2, 3] .i8) 0 1) "[[1, 7], [-3, -9], [-5, 11]]"
  prints (do transpose (← fromBlob dataI16b [2, 3, 2] .i16) 0 2) "[[[0, 6], [2, 8], [4, 10]], [[1, 7], [3, 9], [5, 11]]]"
  let a ← toType (← fromBlob dataI8 [3, 2] .i8) .f64
  let a ← transpose a 0 1
  let b ← fromBlob ([1, -5, -9, -3, 7, 11].map fun n : Int => .f (FOps.ofInt .f64 n)) [2, 3] .f64
  samePrint (pure a) (pure b)
  samePrint (do transpose (← transpose a 0 1) 0 1) (pure a)

example : Passes transposes := by decide +kernel

/-- `TEST(index, reshape)` (test/test.cpp:331-359). -/
def reshapes : T Unit := do
  let a ← fromBlob dataI16b [3, 4] .i16
  prints (reshape a [4, 3]) "[[0, 1, 2], [3, 4, 5], [6, 7, 8], [9, 10, 11]]"
  prints (reshape a [2, 6]) "[[0, 1, 2, 3, 4, 5], [6, 7, 8, 9, 10, 11]]"
  let c ← zeros [12] .i16
  prints (reshapeAs a c) "[0, 1, 2, 3, 4, 5, 6, 7, 8, 9, 10, 11]"
  prints (reshape a [2, -1]) "[[0, 1, 2, 3, 4, 5], [6, 7, 8, 9, 10, 11]]"
  throws .runtime (reshape a [6, 3])
  throws .runtime (reshape a [4, -1, -1])
  throws .runtime (reshape a [7, -1])
  throws .runtime (reshape a [])
  let a ← fromBlob dataI16b [4, 3] .i16
  let b ← slice a "::2, :".toList
  prints (pure b) "[[0, 1, 2], [6, 7, 8]]"
  prints (reshape b [6]) "[0, 1, 2, 6, 7, 8]"
  let a ← ones [] .i8
  prints (reshape a [1]) "[1]"
  prints (reshape a [1, 1, 1]) "[[[1]]]"
  let a ← ones [1] .i8
  prints (reshape a []) "1"

example : Passes reshapes := by decide +kernel

/-- `TEST(index, cat)` (test/test.cpp:361-396). -/
def cat : T Unit := do
  let a ← fromBlob dataI16b [4, 3] .i16
  throws .runtime (catT [a, a, a] 2)
  let b ← catT [a, a, a] 0
  let rst ← toType (← fromBlob (dataI16b ++ dataI16b ++ dataI16b) [12, 3] .i8) .i16
  approx (pure b) (pure rst)
  let b ← catT [a, a, a] 1
  let rst ← toType (← fromBlob (ints [0, 1, 2, 0, 1, 2, 0, 1, 2, 3, 4, 5, 3, 4, 5, 3, 4, 5,
    6, 7, 8, 6, 7, 8, 6, 7, 8, 9, 10, 11, 9, 10, 11, 9, 10, 11]) [4, 9] .i8) .i16
  approx (pure b) (pure rst)
  let x ← fromBlob dataI16b [4, 3] .i16
  let y ← toType (← fromBlob dataI16 [2, 3] .i16) .f32
  let c ← catT [x, y] 0
  let rst ← toType (← fromBlob (dataI16b ++ dataI16) [6, 3] .i8) .f32
  approx (pure c) (pure rst)
  let x ← fromBlob dataI16b [3, 4] .i16
  let y ← fromBlob dataI16 [2, 3] .i16
  throws .runtime (catT [x, y] 0)
  approx (catT [x] 0) (pure x)

example : Passes cat := by decide +kernel

end INNC.Suite
