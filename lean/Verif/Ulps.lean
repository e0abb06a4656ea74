import Verif.Vec

/-!
# Model of the comparisons by units in the last place (`CommonC/Maths.h`, `Vector2D.h`, `Vector3D.h`, `Vector4D.h`)

A `float` here is its bits: a natural number below `2 ^ 32` (IEEE 754 binary32).  The comparisons of `float`s are modelled by the
sign and the magnitude of the bits; a number is greater the greater its magnitude bits are, so no rounding is involved.
-/
namespace Verif.Ulps

open Verif.Vec (V4 V3 V2 Level)

/-- `signbit`. -/
def sign (a : Nat) : Bool := decide (2 ^ 31 ≤ a)

/-- The bits but for the sign. -/
def mag (a : Nat) : Nat := a % 2 ^ 31

/-- The bits of not-a-number: above those of infinity. -/
def nan (a : Nat) : Bool := decide (0x7f800000 < mag a)

/-- The place of a number among the numbers: zero is 0, the least positive number 1, the greatest negative number -1. -/
def place (a : Nat) : Int := if sign a then -(mag a : Int) else mag a

/-- `a == b` of `float`s. -/
def feq (a b : Nat) : Bool := !nan a && !nan b && decide (place a = place b)

/-- `a < b` of `float`s. -/
def flt (a b : Nat) : Bool := !nan a && !nan b && decide (place a < place b)

/-- `CCFloatGetUlps` (Maths.h 140-143). -/
def getUlps (a b : Nat) : Nat := if a > b then a - b else b - a

/-- `CCFloatEqualUlps` (145-150). -/
def equalUlps (a b maxUlps : Nat) : Bool := if sign a != sign b then feq a b else decide (getUlps a b ≤ maxUlps)

/-- The bits of `1.0f`. -/
def one : Nat := 0x3f800000

/-- `_mm_max_ps` in a lane: `a > b ? a : b`. -/
def maxPs (a b : Nat) : Nat := if flt b a then a else b

/-- `_mm_min_ps` in a lane: `a < b ? a : b`. -/
def minPs (a b : Nat) : Nat := if flt a b then a else b

/-- `_mm_sub_epi32` in a lane. -/
def subEpi (a b : Nat) : Nat := (a + 2 ^ 32 - b) % 2 ^ 32

/-- One lane of `_mm_and_ps(_mm_cmpeq_epi32(_mm_max_ps(_mm_sub_epi32(_mm_max_ps(a, b), _mm_min_ps(a, b)), MaxUlps), MaxUlps), _mm_set1_ps(1.0f))`. -/
def laneUlps (a b maxUlps : Nat) : Nat := if maxPs (subEpi (maxPs a b) (minPs a b)) maxUlps = maxUlps then one else 0

/-- `_mm_and_ps(_mm_cmpeq_ps(a, b), _mm_set1_ps(1.0f))` in a lane. -/
def laneEq (a b : Nat) : Nat := if feq a b then one else 0

/-- `CCFloatEqualUlps` as a lane of `CCVector2CompareEqualUlps` (Vector2D.h 382-385) and the like. -/
def lanePlain (a b maxUlps : Nat) : Nat := if equalUlps a b maxUlps then one else 0

/-- `CCVectorize2CompareEqualUlps` (Vector2D.h 759-769). -/
def z2 (l : Level) (a b m : V4 Nat) : V4 Nat :=
  if l.hasSse2 then
    if (sign a.x != sign b.x) && (sign a.y != sign b.y) then ⟨laneEq a.x b.x, laneEq a.y b.y, laneEq a.z b.z, laneEq a.w b.w⟩
    else ⟨laneUlps a.x b.x m.x, laneUlps a.y b.y m.y, laneUlps a.z b.z m.z, laneUlps a.w b.w m.w⟩
  else ⟨lanePlain a.x b.x m.x, lanePlain a.y b.y m.y, 0, 0⟩

/-- `CCVectorize3CompareEqualUlps` (Vector3D.h 541-551). -/
def z3 (l : Level) (a b m : V4 Nat) : V4 Nat :=
  if l.hasSse2 then
    if (sign a.x != sign b.x) && (sign a.y != sign b.y) && (sign a.z != sign b.z) then
      ⟨laneEq a.x b.x, laneEq a.y b.y, laneEq a.z b.z, laneEq a.w b.w⟩
    else ⟨laneUlps a.x b.x m.x, laneUlps a.y b.y m.y, laneUlps a.z b.z m.z, laneUlps a.w b.w m.w⟩
  else ⟨lanePlain a.x b.x m.x, lanePlain a.y b.y m.y, lanePlain a.z b.z m.z, 0⟩

/-- `CCVectorize4CompareEqualUlps` (Vector4D.h 547-557). -/
def z4 (l : Level) (a b m : V4 Nat) : V4 Nat :=
  if l.hasSse2 then
    if (sign a.x != sign b.x) && (sign a.y != sign b.y) && (sign a.z != sign b.z) && (sign a.w != sign b.w) then
      ⟨laneEq a.x b.x, laneEq a.y b.y, laneEq a.z b.z, laneEq a.w b.w⟩
    else ⟨laneUlps a.x b.x m.x, laneUlps a.y b.y m.y, laneUlps a.z b.z m.z, laneUlps a.w b.w m.w⟩
  else ⟨lanePlain a.x b.x m.x, lanePlain a.y b.y m.y, lanePlain a.z b.z m.z, lanePlain a.w b.w m.w⟩

/-- `CCVectorize2PackedCompareEqualUlps` (Vector2D.h 1113-1122). -/
def p2 (a b m : V4 Nat) : V4 Nat :=
  ⟨lanePlain a.x b.x m.x, lanePlain a.y b.y m.y, lanePlain a.z b.z m.z, lanePlain a.w b.w m.w⟩

end Verif.Ulps
