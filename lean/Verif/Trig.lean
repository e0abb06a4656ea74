import Mathlib.Analysis.SpecialFunctions.Trigonometric.Arctan

/-!
# Model of the trigonometric functions of SimdFallbackTrig.h

CommonC/SimdFallbackTrig.h defines, for every float vector type, approximations of the trigonometric
functions.  Each lane is treated alike, so the model is about one lane.

Simplifications, which hold for the whole file: the lanes are real numbers and the operations on them
are exact (no rounding, no overflow, no NaN), `CC_PI` is π itself, and there is only one zero (the sign
bit of a lane is set exactly when the lane is negative).  What is modelled is which formula is used
where: the reduction of the argument, the signs, the masks and the constants.
-/

namespace Verif.Trig

open Real

/-- `CCSimdFloor`. -/
noncomputable def floor (a : ℝ) : ℝ := ((⌊a⌋ : ℤ) : ℝ)

/-- `CCSimdMod` of floats, SimdFallback.h 649: `a - floor(a / b) * b`. -/
noncomputable def mod (a b : ℝ) : ℝ := a - floor (a / b) * b

/-- `CCSimdMadd`, SimdFallback.h 603: `a * b + c`. -/
noncomputable def madd (a b c : ℝ) : ℝ := a * b + c

/-- `CCSimdNegMadd`, SimdFallback.h 609: `-(a * b) + c`. -/
noncomputable def negMadd (a b c : ℝ) : ℝ := -(a * b) + c

/-- The xor of a lane with the sign bit `s` (SimdFallbackTrig.h 198, 217): negates the lane when the
bit is set. -/
noncomputable def xorSign (s : Bool) (v : ℝ) : ℝ := if s then -v else v

/-- The sign bit of a lane, shifted down and up again by 31 (SimdFallbackTrig.h 194, 217, 415). -/
noncomputable def signBit (a : ℝ) : Bool := decide (a < 0)

/-- `CCSimdPosPiRadSin`, SimdFallbackTrig.h 104-117. -/
noncomputable def posPiRadSin (a : ℝ) : ℝ :=
  let value := 4 * (a * (π - a))
  (4 * value) / (5 * π * π - value)

/-- `CCSimdHalfPiRadCos`, SimdFallbackTrig.h 126-156; `acc` is `CC_SIMD_HALF_PI_RAD_COS_ACCURACY`
(Simd.h 737-739). -/
noncomputable def halfPiRadCos (acc : Nat) (a : ℝ) : ℝ :=
  let value := a * a
  if acc = 0 then negMadd 4 value (π * π) / (π * π + value)
  else madd value (madd value 0.036791683 (-0.49558085)) 0.99940323

/-- The sign made of the half turn `s`: `-(s + s) - -1`, SimdFallbackTrig.h 174, 216, 299. -/
noncomputable def turnSign (s : ℝ) : ℝ := -(s + s) - (-1)

/-- `CCSimdPosSin`, SimdFallbackTrig.h 165-181. -/
noncomputable def posSin (a : ℝ) : ℝ :=
  let sign := turnSign (floor (mod a (π * 2) / π))
  posPiRadSin (mod a π) * sign

/-- `CCSimdPiRadSin`, SimdFallbackTrig.h 190-199. -/
noncomputable def piRadSin (a : ℝ) : ℝ := xorSign (signBit a) (posPiRadSin |a|)

/-- `CCSimdSin`, SimdFallbackTrig.h 208-225. -/
noncomputable def sin (a : ℝ) : ℝ :=
  let value := |a|
  let sign := xorSign (signBit a) (turnSign (floor (mod value (π * 2) / π)))
  posPiRadSin (mod value π) * sign

/-- `CCSimdCos`, SimdFallbackTrig.h 289-304. -/
noncomputable def cos (acc : Nat) (a : ℝ) : ℝ :=
  let value := a + π / 2
  let sign := turnSign (floor (mod (value / π) 2))
  halfPiRadCos acc (mod value π - π / 2) * sign

/-- `CCSimdTan`, SimdFallbackTrig.h 327-330.  A quotient by zero is an infinity or a NaN in the code
and 0 here; the theorems only speak of arguments where the divisor is not zero. -/
noncomputable def tan (acc : Nat) (a : ℝ) : ℝ := sin a / cos acc a

/-- `CCSimdCsc`, SimdFallbackTrig.h 444-447. -/
noncomputable def csc (a : ℝ) : ℝ := 1 / sin a

/-- `CCSimdSec`, SimdFallbackTrig.h 456-459. -/
noncomputable def sec (acc : Nat) (a : ℝ) : ℝ := 1 / cos acc a

/-- `CCSimdCot`, SimdFallbackTrig.h 468-471. -/
noncomputable def cot (acc : Nat) (a : ℝ) : ℝ := 1 / tan acc a

/-- `CCSimdQtrPiArcTan`, SimdFallbackTrig.h 339-371; `acc` is `CC_SIMD_QTR_PI_ARCTAN_ACCURACY`
(Simd.h 745-747). -/
noncomputable def qtrPiArcTan (acc : Nat) (a : ℝ) : ℝ :=
  if acc < 2 then a / madd (a * a) 0.28 1
  else
    let x1 := a
    let x2 := x1 * x1
    let x3 := x1 * x2
    let x4 := x2 * x2
    let x5 := x2 * x3
    let x7 := x3 * x4
    let x9 := x4 * x5
    let r := 0.9998660 * x1
    let r := madd (-0.3302995) x3 r
    let r := madd 0.1801410 x5 r
    let r := madd (-0.0851330) x7 r
    madd 0.0208351 x9 r

/-- `CCSimdArcTan`, SimdFallbackTrig.h 380-394.  Selecting with a mask (and, and-not, or) is an `if`. -/
noncomputable def arcTan (acc : Nat) (a : ℝ) : ℝ :=
  let sign := decide (a < -1)
  let mask := decide (xorSign sign a ≤ 1)
  let bounds := if mask then 0 else xorSign sign (π / 2)
  let radians := qtrPiArcTan acc (if mask then a else 1 / a)
  if mask then radians else bounds - radians

/-- `CCSimdArcTan2`, SimdFallbackTrig.h 403-435, without `CC_SIMD_ARCTAN2_UNDEFINED_AS_ZERO` and
`CC_SIMD_ARCTAN2_UNDEFINED` (these name a macro, `CCSimdMaskCompareNotEqual`, the file does not
define).  With one zero only, `CC_SIMD_ARCTAN2_PRINCIPAL` (sign by comparison) and its absence (sign
bit) agree. -/
noncomputable def arcTan2 (acc : Nat) (y x : ℝ) : ℝ :=
  let maskX := decide (x ≠ 0)
  let maskY := decide (x ≤ 0)
  let sign := signBit y
  let resultYX := if maskX then arcTan acc (y / x) else 0
  let resultPi := xorSign sign (if maskX then (if maskY then π else 0) else π / 2)
  resultYX + resultPi

end Verif.Trig
