import Verif.Suite.Base
/-
`TEST(autograd, …)` and `TEST(utils, randn)` (test/test.cpp:398-719).
-/
namespace INNC.Suite
open Spec Tensor

/-- `a.requires_grad(true)`. -/
def needs (t : Nat) : T Unit := setRequiresGrad t true
/-- `a.retain_grad(true)`. -/
def retains (t : Nat) : T Unit := setRetainGrad t true
/-- `x.sum().backward()`. -/
def sumBack (x : T Nat) : T Unit := do backward (← sumT (← x))
/-- The global data converted to a floating type. -/
def blob (l : List (Val Ieee)) (s : List Nat) (src dt : DType) : T Nat := do toType (← fromBlob l s src) dt

/-- `TEST(autograd, add)` (test/test.cpp:398-436). -/
def gradAdd : T Unit := do
  let a ← ones [2, 3] .f64
  let b ← ones [2, 3] .f32
  needs a
  noGrad a
  noGrad b
  let c ← addT a (← addT b a)
  assert ((← getT c).requiresGrad)
  let d ← addT b (← addT a b)
  noGrad c
  sumBack (pure c)
  assert ((← getT c).requiresGrad)
  samePrint (gradT a) (addT a a)
  noGrad b
  needs b
  sumBack (pure d)
  let a ← ones [1] .f32
  let b ← ones [1] .f64
  needs a
  needs b
  let c ← addT a a
  let d ← addT c c
  sumBack (pure d)
  prints (gradT a) "[4.000000]"
  let a ← float false 1 1
  let b ← double false 1 1
  needs a
  needs b
  let c ← addT a (← addT b a)
  let c ← addT c b
  let d ← addT (← addT c c) a
  sumBack (pure d)
  samePrint (gradT a) (float false 5 1)
  samePrint (gradT b) (double false 4 1)
  zeroGrad a
  samePrint (gradT a) (float false 0 1)

example : Passes gradAdd := by decide +kernel

/-- `TEST(autograd, sum)` (test/test.cpp:438-448). -/
def gradSum : T Unit := do
  let a ← ones [2, 3] .f64
  let b ← blob dataI8 [2, 3] .i8 .f32
  needs a
  needs b
  retains a
  retains b
  let c ← mulT (← sumT a) (← sumT b)
  backward c
  approx (gradT a) (do mulT (← ones [2, 3] .f64) (← sumT b))

example : Passes gradSum := by decide +kernel

/-- `TEST(autograd, substract)` (test/test.cpp:450-466). -/
def gradSub : T Unit := do
  let a ← ones [2, 3] .f64
  let b ← ones [2, 1] .f32
  needs a
  needs b
  sumBack (subT a b)
  approx (gradT a) (pure a)
  approx (gradT b) (do mulT b (← int (-3)))
  let b ← double false 1 1
  needs b
  sumBack (subT a b)
  approx (gradT b) (do mulT b (← int (-6)))
  let b ← double false 5 1
  needs b
  sumBack (do addT (← subT a b) b)
  approx (gradT b) (zerosLike b)

example : Passes gradSub := by decide +kernel

/-- `TEST(autograd, multiplication)` (test/test.cpp:468-495). -/
def gradMul : T Unit := do
  let a ← blob dataI8 [2, 3] .i8 .f32
  let b ← blob dataI8 [2, 3] .i8 .f64
  needs a
  needs b
  sumBack (mulT a b)
  approx (gradT a) (do toType b (← typeOf a))
  approx (gradT b) (do toType a (← typeOf b))
  zeroGrad a
  sumBack (mulT a a)
  approx (gradT a) (addT a a)
  zeroGrad a
  setRequiresGrad b false
  sumBack (do mulT (← mulT a (← mulT a b)) b)
  approx (gradT a) (do toType (← mulT (← mulT (← addT a a) b) b) (← typeOf a))
  zeroGrad a
  let b ← fromBlob dataI8 [2, 3] .i8
  sumBack (mulT a b)
  approx (gradT a) (do toType b (← typeOf a))
  zeroGrad a
  let b ← double false 2 1
  needs b
  sumBack (mulT a b)
  approx (gradT a) (do addT (← zerosLike a) (← int 2))
  approx (gradT b) (do addT (← zerosLike b) (← int 2))

example : Passes gradMul := by decide +kernel

/-- `TEST(autograd, divide)` (test/test.cpp:497-512). -/
def gradDiv : T Unit := do
  let a ← blob dataI8 [2, 3] .i8 .f32
  let b ← blob dataI16 [2, 3] .i16 .f64
  needs a
  needs b
  sumBack (divT b a)
  approx (gradT b) (do toType (← divT (← int 1) a) (← typeOf b))
  discard (negT b)
  approx (gradT a) (do toType (← divT (← divT (← negT b) a) a) (← typeOf a))
  let b ← double false 5 1
  needs b
  zeroGrad a
  sumBack (do mulT (← divT b a) a)
  approx (gradT b) (do toType (← int 6) (← typeOf b))
  approx (gradT a) (zerosLike a)

example : Passes gradDiv := by decide +kernel

/-- `TEST(autograd, slice)` (test/test.cpp:514-566). -/
def gradSlice : T Unit := do
  let a ← blob dataI16b [4, 3] .i16 .f32
  needs a
  let after (s : String) (l : List Int) : T Unit := do
    sumBack (slice a s.toList)
    samePrint (gradT a) (blob (ints l) [4, 3] .i8 .f32)
  discard (slice a [])
  sumBack (slice a ":,".toList)
  samePrint (gradT a) (ones [4, 3] .f32)
  zeroGrad a
  let b ← slice a "1, 1".toList
  sumBack (pure b)
  noGrad b
  samePrint (gradT a) (blob (ints [0, 0, 0, 0, 1, 0, 0, 0, 0, 0, 0, 0]) [4, 3] .i8 .f32)
  after "2,:" [0, 0, 0, 0, 1, 0, 1, 1, 1, 0, 0, 0]
  after ":,-1" [0, 0, 1, 0, 1, 1, 1, 1, 2, 0, 0, 1]
  after "-4:-1:2,-1:0:-2" [0, 0, 2, 0, 1, 1, 1, 1, 3, 0, 0, 1]
  after "-99: 99 :2, 99 : -99:-2" [1, 0, 3, 0, 1, 1, 2, 1, 4, 0, 0, 1]
  discard (slice a "::2, ::-2".toList)
  samePrint (gradT a) (blob (ints [1, 0, 3, 0, 1, 1, 2, 1, 4, 0, 0, 1]) [4, 3] .i8 .f32)
  zeroGrad a
  sumBack (slice a "99::2, :-99:-2".toList)
  samePrint (gradT a) (zerosLike a)

example : Passes gradSlice := by decide +kernel

/-- `TEST(autograd, transpose)` (test/test.cpp:568-582). -/
def gradTranspose : T Unit := do
  let a ← blob dataI16 [2, 3] .i16 .f64
  let b ← blob dataI8 [3, 2] .i8 .f64
  needs a
  needs b
  let c ← transpose b 0 1
  retains c
  sumBack (mulT a c)
  samePrint (gradT a) (pure c)
  samePrint (gradT c) (pure a)
  samePrint (gradT b) (transpose a 0 1)
  zeroGrad a
  sumBack (do transpose (← transpose (← transpose a 0 1) 0 1) 0 1)
  samePrint (gradT a) (onesLike a)

example : Passes gradTranspose := by decide +kernel

/-- `TEST(autograd, clone)` (test/test.cpp:584-599). The last assertion holds only because the arrivals counted by one
back-propagation are never reset: the gradient the test expects for `b`, which is not retained, is left over from a visit that
never came. -/
def gradClone : T Unit := do
  let a ← blob dataI16 [2, 3] .i16 .f64
  needs a
  let b ← clone a
  sumBack (pure a)
  samePrint (gradT a) (onesLike a)
  noGrad b
  zeroGrad a
  sumBack (pure b)
  sumBack (addT a b)
  let rst ← onesLike a
  let rst ← addT rst rst
  samePrint (gradT a) (pure rst)
  samePrint (gradT b) (onesLike b)

example : Passes gradClone := by decide +kernel

/-- `TEST(autograd, detach)` (test/test.cpp:601-607). -/
def gradDetach : T Unit := do
  let a ← blob dataI16 [2, 3] .i16 .f64
  needs a
  let b ← detach (← clone a)
  sumBack (addT a b)
  samePrint (gradT a) (onesLike a)

example : Passes gradDetach := by decide +kernel

/-- `TEST(autograd, contiguous)` (test/test.cpp:609-632). -/
def gradContiguous : T Unit := do
  let a ← blob dataI16 [2, 3] .i16 .f64
  needs a
  let b ← transpose a 0 1
  retains b
  assert (!(← isContiguousOf b))
  let c ← contiguous b
  retains c
  assert (← isContiguousOf c)
  let d ← slice c "::2, :".toList
  retains d
  assert (!(← isContiguousOf d))
  sumBack (pure d)
  let rst ← blob (ints [1, 0, 1, 1, 0, 1]) [2, 3] .i8 .f64
  samePrint (gradT d) (onesLike d)
  samePrint (gradT c) (transpose rst 0 1)
  samePrint (gradT b) (transpose rst 0 1)
  samePrint (gradT a) (blob (ints [1, 0, 1, 1, 0, 1]) [2, 3] .i8 .f64)

example : Passes gradContiguous := by decide +kernel

/-- `TEST(autograd, reshape)` (test/test.cpp:634-662). -/
def gradReshape : T Unit := do
  let a ← blob dataI16 [2, 3] .i16 .f32
  let b ← blob dataI8 [6] .i8 .f64
  needs a
  needs b
  let c ← reshape b [2, 3]
  retains c
  sumBack (mulT a c)
  samePrint (gradT a) (do toType c (← typeOf a))
  samePrint (gradT c) (do toType a (← typeOf c))
  samePrint (gradT b) (do toType (← reshape a [-1]) (← typeOf b))
  throws .runtime (reshape a [])
  let a ← blob dataI16b [4, 3] .i16 .f64
  needs a
  let b ← slice a "::2, :".toList
  samePrint (pure b) (blob (ints [0, 1, 2, 6, 7, 8]) [2, 3] .i8 .f64)
  let c ← reshape b [3, 2]
  retains c
  retains b
  let d ← blob dataI16 [3, 2] .i16 .f64
  needs d
  sumBack (mulT d c)
  samePrint (gradT d) (pure c)
  samePrint (gradT c) (pure d)
  samePrint (gradT b) (reshape d [2, 3])

example : Passes gradReshape := by decide +kernel

/-- `TEST(autograd, type)` (test/test.cpp:664-673). -/
def gradType : T Unit := do
  let a ← blob dataI16 [2, 3] .i16 .f32
  let b ← blob dataI8 [2, 3] .i8 .f32
  needs a
  throws .runtime (toType a .i64)
  let c ← toType a .f64
  sumBack (mulT c b)
  samePrint (gradT a) (pure b)

example : Passes gradType := by decide +kernel

/-- `TEST(autograd, cat)` (test/test.cpp:675-693). -/
def gradCat : T Unit := do
  let a ← blob dataI16b [4, 3] .i16 .f32
  let b ← blob dataI16 [2, 3] .i16 .f64
  needs a
  needs b
  let c ← catT [a, b, a] 0
  retains c
  sumBack (pure c)
  samePrint (gradT c) (ones [10, 3] .f64)
  approx (gradT a) (do mulT (← ones [4, 3] .f32) (← int 2))
  approx (gradT b) (ones [2, 3] .f64)

example : Passes gradCat := by decide +kernel

/-- `TEST(autograd, max)` (test/test.cpp:695-702). -/
def gradMax : T Unit := do
  let a ← blob dataI16 [2, 3] .i16 .f32
  needs a
  backward (← maxT a)
  approx (gradT a) (blob (ints [0, 0, 0, 0, 1, 0]) [2, 3] .i8 .f32)

example : Passes gradMax := by decide +kernel

/-- `TEST(autograd, min)` (test/test.cpp:704-711). -/
def gradMin : T Unit := do
  let a ← blob dataI16 [2, 3] .i16 .f32
  needs a
  backward (← minT a)
  approx (gradT a) (blob (ints [0, 0, 0, 0, 0, 1]) [2, 3] .i8 .f32)

example : Passes gradMin := by decide +kernel

/-- `TEST(utils, randn)` (test/test.cpp:717-719), whatever the generator. -/
theorem randn_throws (rnd : Nat → Ieee) : Passes (throws .runtime (randn rnd [3, 5] .i8)) := rfl

end INNC.Suite
