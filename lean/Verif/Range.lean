/-!
# Model of `CommonC/ExtremaTemplate.h`, `CommonC/RangeTemplate.h` for the integer types

Floating point and vector instantiations are not modelled.
-/
namespace Verif.Range

/-- A C integer type. -/
structure Ty where
  bits : Nat
  signed : Bool

def Ty.lo (t : Ty) : Int := if t.signed then -(2 ^ (t.bits - 1) : Nat) else 0
def Ty.hi (t : Ty) : Int := if t.signed then (2 ^ (t.bits - 1) : Nat) - 1 else (2 ^ t.bits : Nat) - 1
/-- The integer is a value of the type. -/
def Ty.has (t : Ty) (v : Int) : Prop := t.lo ≤ v ∧ v ≤ t.hi
instance (t : Ty) (v : Int) : Decidable (t.has v) := inferInstanceAs (Decidable (_ ∧ _))

/-- Result of storing the exact value `v` in type `t`: unsigned types wrap; for signed types an unrepresentable value is undefined behaviour
(implementation-defined for types narrower than `int`): `none`. -/
def Ty.wrap (t : Ty) (v : Int) : Option Int :=
  if t.signed then (if t.has v then some v else none) else some (v % (2 ^ t.bits : Nat))

/-- `CCNumericAdd`, `CCNumericSubtract` (NumericTemplate.h): the operands and the result have type `t`. -/
def add (t : Ty) (a b : Int) : Option Int := t.wrap (a + b)
def sub (t : Ty) (a b : Int) : Option Int := t.wrap (a - b)

/-- `CCMin` (ExtremaTemplate.h:38-40, 51-54). -/
def min (a b : Int) : Int := if a < b then a else b
/-- `CCMax` (ExtremaTemplate.h:42-44, 56-59). -/
def max (a b : Int) : Int := if a > b then a else b
/-- `CCClamp` (ExtremaTemplate.h:46-48, 61-64). -/
def clamp (v lo hi : Int) : Int := min (max v lo) hi

/-- A range (Range.h:31-42). -/
structure Rng where
  start : Int
  length : Int

/-- `CCRangeContains` (RangeTemplate.h:72-75).  `&&` does not evaluate its second operand when the first is false. -/
def contains (t : Ty) (r inner : Rng) : Option Bool :=
  if r.start ≤ inner.start then do
    let e ← add t r.start r.length
    let e' ← add t inner.start inner.length
    return decide (e ≥ e')
  else some false

/-- `CCRangeIntersects` (RangeTemplate.h:77-80). -/
def intersects (t : Ty) (a b : Rng) : Option Bool := do
  let eb ← add t b.start b.length
  if a.start ≤ eb then do
    let ea ← add t a.start a.length
    return decide (ea ≥ b.start)
  else return false

/-- `CCRangeGetIntersection` (RangeTemplate.h:82-87). -/
def getIntersection (t : Ty) (a b : Rng) : Option Rng := do
  let start := max a.start b.start
  let ea ← add t a.start a.length
  let eb ← add t b.start b.length
  let len ← sub t (min ea eb) start
  return ⟨start, len⟩

end Verif.Range
