import Verif.SimdShuffle

/-!
# Model of the integer lane operations of the vector types

The operations of `CommonC/SimdFallback.h` on one lane of an integer vector, over the instructions
`CommonC/Simd128_arm.h` and `CommonC/Simd64_arm.h` select.  A lane is a `BitVec w` with `w` one of
8, 16, 32 and 64; `sg` says whether the lane type is signed (`s8` … `s64`) or unsigned.  All the
operations here work on every lane separately, so one lane is modelled (simplification).  The
exception is `countHighestUnset64`, which mixes the halves of 64-bit lanes and is modelled on the
whole vector.

Not modelled: `CCSimdMul` of 64-bit lanes does not exist (Simd128_arm.h lines 771-774, "TODO"), so
the operations built on it (`CCSimdCountSet`, `CCSimdCountLowestUnset`, `CCSimdMod`, the multiply
and add family) only exist for lanes of 8, 16 and 32 bits.
-/
namespace Verif.SimdLane

/-! ## Instructions -/

/-- `vshlq_TYPE(a, b)` (used at Simd128_arm.h line 371 for `CCSimdShiftLeft` and line 539 for
`CCSimdShiftRight`; Simd64_arm.h likewise): shifts left by the signed number in the lowest byte of
`b`; a negative number shifts right, keeping the sign for signed lanes. -/
def vshl (sg : Bool) {w : Nat} (a b : BitVec w) : BitVec w :=
  let s := (b.setWidth 8).toInt
  if 0 ≤ s then a <<< s.toNat
  else if sg then a.sshiftRight (-s).toNat else a >>> (-s).toNat

/-- `CCSimdShiftLeft` (Simd128_arm.h lines 371-373). -/
def shiftLeft (sg : Bool) {w : Nat} (a b : BitVec w) : BitVec w := vshl sg a b

/-- `CCSimdShiftRight` (Simd128_arm.h lines 539-541): `vshlq` by the negated amount. -/
def shiftRight (sg : Bool) {w : Nat} (a b : BitVec w) : BitVec w := vshl sg a (-b)

/-- `CCSimdShiftLeftN` (Simd128_arm.h lines 375-537): a switch over `0 … w - 1`; any other number
reaches `CC_UNREACHABLE`, undefined behaviour: `none`. -/
def shiftLeftN {w : Nat} (a : BitVec w) (n : Nat) : Option (BitVec w) :=
  if n < w then some (a <<< n) else none

/-- `CCSimdShiftRightN` (Simd128_arm.h lines 543-705): `vshrq_n_TYPE`, which keeps the sign for
signed lanes; other numbers are undefined behaviour: `none`. -/
def shiftRightN (sg : Bool) {w : Nat} (a : BitVec w) (n : Nat) : Option (BitVec w) :=
  if n < w then some (if sg then a.sshiftRight n else a >>> n) else none

/-- The all ones or all zeros lane a comparison instruction returns. -/
def lanemask (w : Nat) (c : Bool) : BitVec w := if c then BitVec.allOnes w else 0

/-- `CCSimdMaskCompareEqual` (Simd128_arm.h lines 723-725). -/
def maskEq {w : Nat} (a b : BitVec w) : BitVec w := lanemask w (a == b)

/-- `CCSimdMaskCompareNotEqual` (SimdFallback.h lines 570-578). -/
def maskNe {w : Nat} (a b : BitVec w) : BitVec w := ~~~(maskEq a b)

/-- `CCSimdMaskCompareLessThan` (Simd128_arm.h lines 731-733). -/
def maskLt (sg : Bool) {w : Nat} (a b : BitVec w) : BitVec w :=
  lanemask w (if sg then a.slt b else a.ult b)

/-- `CCSimdMaskCompareLessThanEqual` (Simd128_arm.h lines 739-741). -/
def maskLe (sg : Bool) {w : Nat} (a b : BitVec w) : BitVec w :=
  lanemask w (if sg then a.sle b else a.ule b)

/-- `CCSimdMaskCompareGreaterThan` (Simd128_arm.h lines 747-749). -/
def maskGt (sg : Bool) {w : Nat} (a b : BitVec w) : BitVec w :=
  lanemask w (if sg then b.slt a else b.ult a)

/-- `CCSimdMaskCompareGreaterThanEqual` (Simd128_arm.h lines 755-757). -/
def maskGe (sg : Bool) {w : Nat} (a b : BitVec w) : BitVec w :=
  lanemask w (if sg then b.sle a else b.ule a)

/-! ## Fallbacks -/

/-- `CCSimdAndNot` (SimdFallback.h lines 254-258). -/
def andNot {w : Nat} (a b : BitVec w) : BitVec w := ~~~a &&& b

/-- `CCSimdRotateLeft` (SimdFallback.h lines 260-269). -/
def rotateLeft (sg : Bool) {w : Nat} (a b : BitVec w) : BitVec w :=
  let mask := BitVec.ofNat w (w - 1)
  shiftLeft sg a (b &&& mask) ||| shiftRight sg a (-b &&& mask)

/-- `CCSimdRotateLeftN` (SimdFallback.h lines 271-280); `-n & Mask` is computed in `int`. -/
def rotateLeftN (sg : Bool) {w : Nat} (a : BitVec w) (n : BitVec 8) : Option (BitVec w) := do
  let mask := BitVec.ofNat 32 (w - 1)
  let l ← shiftLeftN a (n.setWidth 32 &&& mask).toNat
  let r ← shiftRightN sg a (-(n.setWidth 32) &&& mask).toNat
  return l ||| r

/-- `CCSimdRotateRight` (SimdFallback.h lines 282-291). -/
def rotateRight (sg : Bool) {w : Nat} (a b : BitVec w) : BitVec w :=
  let mask := BitVec.ofNat w (w - 1)
  shiftRight sg a (b &&& mask) ||| shiftLeft sg a (-b &&& mask)

/-- `CCSimdRotateRightN` (SimdFallback.h lines 293-302). -/
def rotateRightN (sg : Bool) {w : Nat} (a : BitVec w) (n : BitVec 8) : Option (BitVec w) := do
  let mask := BitVec.ofNat 32 (w - 1)
  let r ← shiftRightN sg a (n.setWidth 32 &&& mask).toNat
  let l ← shiftLeftN a (-(n.setWidth 32) &&& mask).toNat
  return r ||| l

/-- `CCSimdLowestUnset` (SimdFallback.h lines 304-308). -/
def lowestUnset {w : Nat} (a : BitVec w) : BitVec w := ~~~a &&& (a + 1)

/-- `CCSimdLowestSet` (SimdFallback.h lines 310-314). -/
def lowestSet {w : Nat} (a : BitVec w) : BitVec w := a &&& -a

/-- The shifts of `CCSimdMask` by lane width (SimdFallback.h lines 341-407): the last shift for
64-bit lanes is 16 again (line 352). -/
def maskShifts : Nat → List Nat
  | 8 => [1, 2, 4]
  | 16 => [1, 2, 4, 8]
  | 32 => [1, 2, 4, 8, 16]
  | 64 => [1, 2, 4, 8, 16, 16]
  | _ => []

/-- `CCSimdMask` (SimdFallback.h lines 341-407); the shifts are of the unsigned type. -/
def mask {w : Nat} (a : BitVec w) : BitVec w := (maskShifts w).foldl (fun r n => r ||| r >>> n) a

/-- `CCSimdHighestSet` (SimdFallback.h lines 316-325); the shift is of the unsigned type. -/
def highestSet {w : Nat} (a : BitVec w) : BitVec w := mask a ^^^ mask a >>> 1

/-- `CCSimdNextPow2` (SimdFallback.h lines 327-339). -/
def nextPow2 {w : Nat} (a : BitVec w) : BitVec w := mask (a - 1) + 1

/-- `CCSimdMaskLowerPow2` (SimdFallback.h lines 409-419). -/
def maskLowerPow2 {w : Nat} (a : BitVec w) : BitVec w := maskNe a 0 &&& ~~~(-a)

/-- `CCSimdMaskHighestUnset` (SimdFallback.h lines 421-428). -/
def maskHighestUnset {w : Nat} (a : BitVec w) : BitVec w :=
  BitVec.ofNat w (0xffffffffffffffff >>> (64 - w)) ^^^ mask a

/-- The constants of `CCSimdCountSet`: a 64-bit pattern shifted down to the lane width. -/
def pattern (w c : Nat) : BitVec w := BitVec.ofNat w (c >>> (64 - w))

/-- `CCSimdCountSet` (SimdFallback.h lines 441-460), lanes of 8, 16 and 32 bits. -/
def countSet (sg : Bool) {w : Nat} (a : BitVec w) : Option (BitVec w) := do
  let s1 ← shiftRightN sg a 1
  let x := a - (s1 &&& pattern w 0x5555555555555555)
  let s2 ← shiftRightN sg x 2
  let y := (x &&& pattern w 0x3333333333333333) + (s2 &&& pattern w 0x3333333333333333)
  let s4 ← shiftRightN sg y 4
  let z := (y + s4) &&& pattern w 0x0f0f0f0f0f0f0f0f
  shiftRightN sg (z * pattern w 0x0101010101010101) (w - 8)

/-- `CCSimdCompareEqual` (SimdFallback.h lines 462-478), integer lanes. -/
def compareEq {w : Nat} (a b : BitVec w) : BitVec w := -(maskEq a b)

/-- `CCSimdCompareNotEqual` (SimdFallback.h lines 480-496), integer lanes. -/
def compareNe {w : Nat} (a b : BitVec w) : BitVec w := -(maskNe a b)

/-- `CCSimdCompareLessThan` (SimdFallback.h lines 498-514), integer lanes. -/
def compareLt (sg : Bool) {w : Nat} (a b : BitVec w) : BitVec w := -(maskLt sg a b)

/-- `CCSimdCompareLessThanEqual` (SimdFallback.h lines 516-532), integer lanes. -/
def compareLe (sg : Bool) {w : Nat} (a b : BitVec w) : BitVec w := -(maskLe sg a b)

/-- `CCSimdCompareGreaterThan` (SimdFallback.h lines 534-550), integer lanes. -/
def compareGt (sg : Bool) {w : Nat} (a b : BitVec w) : BitVec w := -(maskGt sg a b)

/-- `CCSimdCompareGreaterThanEqual` (SimdFallback.h lines 552-568), integer lanes. -/
def compareGe (sg : Bool) {w : Nat} (a b : BitVec w) : BitVec w := -(maskGe sg a b)

/-- The `f32` variants of the six comparisons, from the mask of the comparison: `<< 25 >> 2`. -/
def compareF32 (m : BitVec 32) : Option (BitVec 32) := do shiftRightN false (← shiftLeftN m 25) 2

/-- The `f64` variants of the six comparisons, from the mask of the comparison: `<< 54 >> 2`. -/
def compareF64 (m : BitVec 64) : Option (BitVec 64) := do shiftRightN false (← shiftLeftN m 54) 2

/-- `CCSimdCountLowestUnset` (SimdFallback.h lines 430-439), lanes of 8, 16 and 32 bits. -/
def countLowestUnset (sg : Bool) {w : Nat} (a : BitVec w) : Option (BitVec w) := do
  let allZero := compareEq a 0 * BitVec.ofNat w w
  return (← countSet sg (maskLowerPow2 (lowestSet a))) + allZero

/-- `CCSimdMin` (SimdFallback.h lines 580-589), 64-bit lanes; the others are an instruction. -/
def min (sg : Bool) {w : Nat} (a b : BitVec w) : BitVec w :=
  (maskLt sg a b &&& a) ||| andNot (maskLt sg a b) b

/-- `CCSimdMax` (SimdFallback.h lines 591-600). -/
def max (sg : Bool) {w : Nat} (a b : BitVec w) : BitVec w :=
  (maskGt sg a b &&& a) ||| andNot (maskGt sg a b) b

/-- `CCSimdClamp` (SimdFallback.h lines 932-936). -/
def clamp (sg : Bool) {w : Nat} (a lo hi : BitVec w) : BitVec w := min sg (max sg a lo) hi

/-- `CCSimdDiv` (SimdFallback.h lines 626-642): `/` of the lane types.  Dividing by zero is undefined
behaviour, and so is dividing the least `int` or `int64_t` by -1; the 8 and 16-bit types are
promoted to `int` and the quotient is cut back to the lane type. -/
def div (sg : Bool) {w : Nat} (a b : BitVec w) : Option (BitVec w) :=
  if b = 0 then none
  else if sg then
    if 32 ≤ w ∧ a = BitVec.intMin w ∧ b = BitVec.allOnes w then none else some (a.sdiv b)
  else some (a / b)

/-- `CCSimdMod` (SimdFallback.h lines 644-647), lanes of 8, 16 and 32 bits. -/
def mod (sg : Bool) {w : Nat} (a b : BitVec w) : Option (BitVec w) := do
  return a - (← div sg a b) * b

/-- `CCSimdCountHighestUnset` of two 64-bit lanes (Simd128_arm.h lines 711-720): the lanes are
looked at as four 32-bit ones, low half first (little endian), `vclzq_u32` counts the leading zeros
of each. -/
def countHighestUnset64 (a : List (BitVec 64)) : Option (List (BitVec 64)) := do
  let result := a.flatMap fun (x : BitVec 64) =>
    [x.setWidth 32, (x >>> 32).setWidth 32]
  let m ← SimdShuffle.Q.swizzle4 (result.map fun x => maskEq x 0) [0, 0, 2, 2]
  let result := result.map BitVec.clz
  let s ← SimdShuffle.Q.swizzle4 (List.zipWith (· &&& ·) result m) [1, 1, 3, 3]
  match List.zipWith (· + ·) result s with
  | [a0, a1, b0, b1] =>
    return [← shiftRightN false (a1 ++ a0) 32, ← shiftRightN false (b1 ++ b0) 32]
  | _ => none

end Verif.SimdLane
