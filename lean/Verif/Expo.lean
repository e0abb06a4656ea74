import Verif.Trig
import Mathlib.Data.Int.Log
import Mathlib.Analysis.SpecialFunctions.Log.Base

/-!
# Model of the exponentials, logarithms, powers and inverse sines of SimdFallbackTrig.h

As in `Trig.lean` one lane is modelled, holding a real number, and the operations are exact; the
conversion of a bit pattern to a float (SimdFallbackTrig.h 489), which rounds to 24 bits, is exact too.
Where the code builds a float out of bits, the bits are modelled; a lane that ends up infinite or
not a number is `none`.  Only 32-bit lanes are modelled (the constants of the bit patterns are those of
32-bit floats).
-/

namespace Verif.Expo

open Real Verif.Trig

/-- The number a 32-bit float stands for; `none` for the infinities and NaN. -/
noncomputable def decode (b : BitVec 32) : Option ℝ :=
  let s : ℝ := if b.getLsbD 31 then -1 else 1
  let e : Nat := (b.toNat / 2 ^ 23) % 256
  let m : Nat := b.toNat % 2 ^ 23
  if e = 255 then none
  else if e = 0 then some (s * (m / 2 ^ 149))
  else some (s * ((1 + (m : ℝ) / 2 ^ 23) * 2 ^ ((e : ℤ) - 127)))

/-- `CCSimdRoundZero`, and the conversion to integer lanes: the part after the point is dropped. -/
noncomputable def trunc (a : ℝ) : ℤ := if 0 ≤ a then ⌊a⌋ else ⌈a⌉

/-- the bits made by `CCSimdPow2` out of an integer lane, SimdFallbackTrig.h 530-532 -/
def pow2Bits (n : ℤ) : BitVec 32 := (BitVec.ofInt 32 n + 0x7f#32) <<< 23

/-- `CCSimdPow2`, SimdFallbackTrig.h 528-533.  The conversion of an exponent that does not fit 32 bits
is modelled as wrapping. -/
noncomputable def pow2 (exponent : ℝ) : Option ℝ := decode (pow2Bits (trunc exponent))

/-- The exponent field (with the sign bit above it) less 127, and the significand, of the float of
value `a`: what the bits of `a` are, read as a number in units of 2^23, is their sum plus 126. -/
noncomputable def fields (a : ℝ) : ℤ × ℝ :=
  let b := |a|
  let s : ℤ := if a < 0 then 256 else 0
  if b < 2 ^ (-126 : ℤ) then (s - 127, 1 + b * 2 ^ (126 : ℤ))
  else (s + Int.log 2 b, b / 2 ^ Int.log 2 b)

/-- `CCSimdLog2`, SimdFallbackTrig.h 480-494: `U` is the significand with the exponent of 0.5. -/
noncomputable def log2 (a : ℝ) : ℝ :=
  let u := (fields a).2 / 2
  let result := ((fields a).1 : ℝ) + 126 + (fields a).2
  result - 124.22551499 - 1.498030302 * u - 1.72587999 / (0.3520887068 + u)

/-- `CCSimdLog`, SimdFallbackTrig.h 503-507. -/
noncomputable def log (a : ℝ) : ℝ := 0.69314718 * log2 a

/-- The Taylor series of `CCSimdExp`, SimdFallbackTrig.h 544-581, for `CC_SIMD_EXP_ACCURACY` below 4. -/
noncomputable def expTaylor (acc : Nat) (a : ℝ) : ℝ :=
  let x0 := 1
  let x1 := a
  let x2 := x1 * x1
  let x3 := x1 * x2
  let x4 := x2 * x2
  let x5 := x2 * x3
  let x6 := x3 * x3
  let x7 := x3 * x4
  let x8 := x4 * x4
  let x9 := x4 * x5
  let r := x0 + x1
  let r := madd x2 (1 / 2) r
  let r := madd x3 (1 / 6) r
  let r := if acc ≥ 1 then madd x5 (1 / 120) (madd x4 (1 / 24) r) else r
  let r := if acc ≥ 2 then madd x7 (1 / 5040) (madd x6 (1 / 720) r) else r
  let r := if acc ≥ 3 then madd x9 (1 / 362880) (madd x8 (1 / 40320) r) else r
  max r 0

/-- `CCSimdClamp`, SimdFallback.h 933: the smaller of `hi` and the larger of `a` and `lo`. -/
noncomputable def clamp (a lo hi : ℝ) : ℝ := min (max a lo) hi

/-- the power of two taken out of the argument by `CCSimdExp`, SimdFallbackTrig.h 600-601 -/
noncomputable def expPx (a : ℝ) : ℝ :=
  floor (madd (clamp a (-88.3762626647949) (-(-88.3762626647949))) 1.44269504088896341 0.5)

/-- `CCSimdExp` with `CC_SIMD_EXP_ACCURACY` 4 or more, SimdFallbackTrig.h 582-617. -/
noncomputable def expCephes (a : ℝ) : Option ℝ :=
  let x := clamp a (-88.3762626647949) (-(-88.3762626647949))
  let px := expPx a
  let x := negMadd px 0.693359375 x
  let x := negMadd px (-2.12194440e-4) x
  let xx := x * x
  let r := 1.9875691500e-4
  let r := madd r x 1.3981999507e-3
  let r := madd r x 8.3334519073e-3
  let r := madd r x 4.1665795894e-2
  let r := madd r x 1.6666665459e-1
  let r := madd r x 5.0000001201e-1
  let r := madd r xx x
  let r := r + 1
  (pow2 px).map (r * ·)

/-- `CCSimdExp`, SimdFallbackTrig.h 542-619; `acc` is `CC_SIMD_EXP_ACCURACY` (Simd.h 729-731). -/
noncomputable def exp (acc : Nat) (a : ℝ) : Option ℝ :=
  if acc < 4 then some (expTaylor acc a) else expCephes a

/-- `CCSimdExp2` with `CC_SIMD_EXP2_ACCURACY` below 2, SimdFallbackTrig.h 628-644. -/
noncomputable def exp2 (a : ℝ) : Option ℝ :=
  let fractional := a - (trunc a : ℝ)
  let r := fractional
  let r := madd r 0.05700169 0.24858144
  let r := madd r fractional 0.69282515
  let r := madd r fractional 0.99916080
  (pow2 a).map (r * ·)

/-- `CCSimdPow`, SimdFallbackTrig.h 516-519. -/
noncomputable def pow (acc : Nat) (base exponent : ℝ) : Option ℝ := exp acc (exponent * log base)

/-- `CCSimdCbrt`, SimdFallbackTrig.h 675-678. -/
noncomputable def cbrt (acc : Nat) (a : ℝ) : Option ℝ := pow acc a (1 / 3)

/-- the polynomial of `CCSimdArcSin`, SimdFallbackTrig.h 238-275; `acc` is `CC_SIMD_ARCSIN_ACCURACY`
(Simd.h 741-743) -/
noncomputable def arcSinPoly (acc : Nat) (a : ℝ) : ℝ :=
  if acc < 2 then
    let x1 := a
    let x2 := x1 * x1
    let x3 := x1 * x2
    let r := 1.5707288
    let r := madd (-0.2121144) x1 r
    let r := madd 0.0742610 x2 r
    madd (-0.0187293) x3 r
  else
    let x1 := a
    let x2 := x1 * x1
    let x3 := x1 * x2
    let x4 := x2 * x2
    let x5 := x2 * x3
    let x6 := x3 * x3
    let x7 := x3 * x4
    let r := 1.5707963050
    let r := madd (-0.2145988016) x1 r
    let r := madd 0.0889789874 x2 r
    let r := madd (-0.0501743046) x3 r
    let r := madd 0.0308918810 x4 r
    let r := madd (-0.0170881256) x5 r
    let r := madd 0.0066700901 x6 r
    madd (-0.0012624911) x7 r

/-- `CCSimdArcSin`, SimdFallbackTrig.h 234-280; `accE` is the accuracy of `CCSimdExp`. -/
noncomputable def arcSin (acc accE : Nat) (a : ℝ) : Option ℝ :=
  (pow accE (1 - a) 0.5).map fun s => π / 2 - s * arcSinPoly acc a

/-- `CCSimdArcCos`, SimdFallbackTrig.h 313-318. -/
noncomputable def arcCos (acc accE : Nat) (a : ℝ) : Option ℝ :=
  (arcSin acc accE a).map (π / 2 - ·)

end Verif.Expo
