import Mathlib.Analysis.SpecialFunctions.Trigonometric.Basic
import Mathlib.Analysis.SpecialFunctions.Sqrt
/-!
# Model of the random points and ranges (`Random.h` 340-385)

Over the real numbers: the rounding of `float` and `double` is left out, and so is that `CCRandomf` (345-348) and `CCRandomd` (340-343) return one of finitely many fractions.  What they return is a parameter, a number from 0 to 1, one for every call.
-/
namespace Verif.RandomPoint

/-- `CCClamp` (`ExtremaTemplate.h` 46-48, 61-64), with the `CC_MIN` and `CC_MAX` of `Maths.h` 87-88. -/
noncomputable def clamp (x min max : ℝ) : ℝ :=
  let m := if x > min then x else min
  if m < max then m else max

/-- `CCRandomRanged` (`Random.h` 355-358) and `CCRandomRangef` (360-363), `u` being the random number. -/
noncomputable def range (min max u : ℝ) : ℝ := clamp (u * (max - min) + min) min max

/-- `CCRandomPointInRect` (`Random.h` 371-374), `u` and `v` being the two random numbers. -/
noncomputable def pointInRect (x y w h u v : ℝ) : ℝ × ℝ := (x + u * w, y + v * h)

/-- `CCRandomPointInEllipse` (`Random.h` 376-380), `u` being the random number under the root and `v` that of the angle. -/
noncomputable def pointInEllipse (cx cy rx ry u v : ℝ) : ℝ × ℝ :=
  let r := √u
  let angle := (Real.pi * 2) * v
  ((Real.cos angle * r * rx) + cx, (Real.sin angle * r * ry) + cy)

/-- `CCRandomPointInCircle` (`Random.h` 382-385). -/
noncomputable def pointInCircle (cx cy r u v : ℝ) : ℝ × ℝ := pointInEllipse cx cy r r u v

end Verif.RandomPoint
