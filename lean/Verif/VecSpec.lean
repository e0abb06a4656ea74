import Verif.Vec

/-!
# Specification of the vectors

The textbook formulas of the operations on components, and the laws of arithmetic the theorems about the vectors need.
-/
namespace Verif.VecSpec

open Verif.Vec

variable {F : Type} [Arith F]

/-- Adding does not care which comes first (so it is with `float`). -/
def Comm (F : Type) [Arith F] : Prop := ∀ x y : F, x + y = y + x

/-- Adding zero changes nothing (so it is with `float`, but for the sign of a zero). -/
def AddZero (F : Type) [Arith F] : Prop := ∀ x : F, x + Arith.zero = x

/-- Sums may be regrouped.  This does *not* hold of `float`, only where all the sums are exact. -/
def Assoc (F : Type) [Arith F] : Prop := ∀ x y z : F, x + y + z = x + (y + z)

def dot2 (a b : V2 F) : F := a.x * b.x + a.y * b.y

def dot3 (a b : V3 F) : F := a.x * b.x + a.y * b.y + a.z * b.z

def dot4 (a b : V4 F) : F := a.x * b.x + a.y * b.y + a.z * b.z + a.w * b.w

def cross2 (a b : V2 F) : F := a.x * b.y - a.y * b.x

def cross3 (a b : V3 F) : V3 F := ⟨a.y * b.z - a.z * b.y, a.z * b.x - a.x * b.z, a.x * b.y - a.y * b.x⟩

def sub2 (a b : V2 F) : V2 F := ⟨a.x - b.x, a.y - b.y⟩

def len2 (a : V2 F) : F := Arith.sqrt (dot2 a a)

def len3 (a : V3 F) : F := Arith.sqrt (dot3 a a)

def len4 (a : V4 F) : F := Arith.sqrt (dot4 a a)

/-- The cosine of the angle between two vectors. -/
def cos2 (a b : V2 F) : F := dot2 a b / (len2 a * len2 b)

def cos3 (a b : V3 F) : F := dot3 a b / (len3 a * len3 b)

def lerp2 (a b : V2 F) (t : F) : V2 F := ⟨a.x + (b.x - a.x) * t, a.y + (b.y - a.y) * t⟩

/-- The part of the first vector in the direction of the second. -/
def proj2 (a b : V2 F) : V2 F := ⟨b.x * (dot2 a b / dot2 b b), b.y * (dot2 a b / dot2 b b)⟩

def proj3 (a b : V3 F) : V3 F :=
  ⟨b.x * (dot3 a b / dot3 b b), b.y * (dot3 a b / dot3 b b), b.z * (dot3 a b / dot3 b b)⟩

/-- The two vectors of two in a vector of four. -/
def lower (a : V4 F) : V2 F := ⟨a.x, a.y⟩

def upper (a : V4 F) : V2 F := ⟨a.z, a.w⟩

def first3 (a : V4 F) : V3 F := ⟨a.x, a.y, a.z⟩

end Verif.VecSpec
