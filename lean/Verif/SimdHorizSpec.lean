/-!
# What the horizontal operations mean

Specification for C95, from the documentation of `CCSimdHadd`, `CCSimdHsub` and `CCSimdDot`
(CommonC/Simd128.h lines 6009-6586).  A vector is the list of its lanes.
-/
namespace Verif.SimdHoriz.Spec

/-- The lanes whose bits are set in the lane mask `v`, in order. -/
def selected {α : Type} (a : List α) (v : Nat) : List α :=
  (List.range a.length).filterMap fun k => if v.testBit k then a[k]? else none

/-- The sum of the lanes selected. -/
def Added {w : Nat} (a : List (BitVec w)) (v : Nat) (x : BitVec w) : Prop := x = (selected a v).sum

/-- The first lane selected less all the others. -/
def Subtracted {w : Nat} (a : List (BitVec w)) (v : Nat) (x : BitVec w) : Prop :=
  ∃ first rest, selected a v = first :: rest ∧ x = first - rest.sum

/-- Lane `j` of the result is what `what` says about the lanes selected by argument `j`; a mask of 0
says "do nothing (the value stored will be undefined)". -/
def Lanes {w : Nat} (what : List (BitVec w) → Nat → BitVec w → Prop) (a : List (BitVec w))
    (vs : List Nat) (r : List (BitVec w)) : Prop :=
  r.length = vs.length ∧
    ∀ (j v : Nat), vs[j]? = some v → v ≠ 0 → ∃ x, r[j]? = some x ∧ what a v x

/-- The horizontal operation `f` on vectors of `n` lanes: with lane masks it returns a vector with the
lanes asked for, with a mask that names more lanes than there are it aborts. -/
def Horizontal {w : Nat} (what : List (BitVec w) → Nat → BitVec w → Prop) (n : Nat)
    (f : List (BitVec w) → List Nat → Option (List (BitVec w))) : Prop :=
  ∀ (a : List (BitVec w)) (vs : List Nat), a.length = n → vs.length = n →
    ((∀ v ∈ vs, v < 2 ^ n) → ∃ r, f a vs = some r ∧ Lanes what a vs r) ∧
    ((∃ v ∈ vs, 2 ^ n ≤ v) → f a vs = none)

/-- The lane by lane product. -/
def products {w : Nat} (a b : List (BitVec w)) : List (BitVec w) := List.zipWith (· * ·) a b

end Verif.SimdHoriz.Spec
