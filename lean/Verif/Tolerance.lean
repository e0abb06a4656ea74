import Mathlib.Algebra.Order.Field.Rat
import Mathlib.Algebra.Order.Group.Unbundled.Abs
import Mathlib.Algebra.Order.Group.Abs

/-!
The comparisons of floats that allow for a difference: `CCFloatEqualRelative` and `CCFloatEqualAbsolute` (Maths.h 152-165).

A float is a number, one of the two infinities or not a number; the two zeros are not told apart, for neither function can tell them apart.  How a difference or a product is rounded is left open: any rounding will do that has the
three laws of `Rounding`, which rounding to nearest and rounding toward zero of IEEE 754 have.  The operations are taken to be done in `float` (`FLT_EVAL_METHOD` 0).
-/

namespace Verif.Tolerance

/-- The type `float` of Maths.h 152-165: an infinity with its sign (`true` is negative), not a number, or a number. -/
inductive F where
  | nan
  | inf (negative : Bool)
  | fin (q : ℚ)
deriving DecidableEq

/-- The operator `<=` of Maths.h 159 and 164: nothing compares with what is not a number. -/
def le : F → F → Bool
  | .nan, _ => false
  | _, .nan => false
  | .inf true, _ => true
  | _, .inf false => true
  | .inf false, _ => false
  | _, .inf true => false
  | .fin p, .fin q => decide (p ≤ q)

/-- The operator `>` of Maths.h 159. -/
def gt : F → F → Bool
  | .nan, _ => false
  | _, .nan => false
  | a, b => !le a b

/-- The negative of a float, for the law of `Rounding`; not in Maths.h 152-165. -/
def neg : F → F
  | .nan => .nan
  | .inf s => .inf !s
  | .fin q => .fin (-q)

/-- What the functions (Maths.h 152-165) rely on in the arithmetic: which numbers are floats, how numbers are rounded.  Floats are not changed by rounding, rounding keeps the order, and does the same on both sides of zero. -/
structure Rounding where
  float : ℚ → Prop
  rnd : ℚ → F
  zero : float 0
  exact : ∀ q, float q → rnd q = .fin q
  mono : ∀ p q, p ≤ q → le (rnd p) (rnd q) = true
  odd : ∀ q, rnd (-q) = neg (rnd q)

/-- The operator `-` of Maths.h 154 and 164. -/
def sub (R : Rounding) : F → F → F
  | .nan, _ => .nan
  | _, .nan => .nan
  | .inf s, .inf t => if s = t then .nan else .inf s
  | .inf s, .fin _ => .inf s
  | .fin _, .inf t => .inf !t
  | .fin p, .fin q => R.rnd (p - q)

/-- The operator `*` of Maths.h 159. -/
def mul (R : Rounding) : F → F → F
  | .nan, _ => .nan
  | _, .nan => .nan
  | .inf s, .inf t => .inf (s != t)
  | .inf s, .fin q => if q = 0 then .nan else .inf (s != decide (q < 0))
  | .fin p, .inf t => if p = 0 then .nan else .inf (t != decide (p < 0))
  | .fin p, .fin q => R.rnd (p * q)

/-- `fabsf`, called in Maths.h 154-157 and 164. -/
def fabs : F → F
  | .nan => .nan
  | .inf _ => .inf false
  | .fin q => .fin |q|

/-- `CCFloatEqualRelative` (Maths.h 152-160). -/
def equalRelative (R : Rounding) (a b relativeDiff : F) : Bool :=
  let diff := fabs (sub R a b)
  let a := fabs a
  let b := fabs b
  le diff (mul R (if gt a b then a else b) relativeDiff)

/-- `CCFloatEqualAbsolute` (Maths.h 162-165). -/
def equalAbsolute (R : Rounding) (a b diff : F) : Bool := le (fabs (sub R a b)) diff

end Verif.Tolerance
