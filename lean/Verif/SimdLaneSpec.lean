/-!
# What the integer operations on a lane mean

Specification for C94, from the documentation of the operations (CommonC/Simd128.h lines
2912-4186 and 7159-7355) for a lane of `w` bits.
-/
namespace Verif.SimdLane.Spec

/-- The lane widths of integer vectors. -/
def Width (w : Nat) : Prop := w = 8 ∨ w = 16 ∨ w = 32 ∨ w = 64

/-- Bit `i` of the lane is one. -/
def bit {w : Nat} (a : BitVec w) (i : Nat) : Prop := a.getLsbD i = true

/-- The number in a lane of a signed or an unsigned type. -/
def num (sg : Bool) {w : Nat} (a : BitVec w) : Int := if sg then a.toInt else a.toNat

/-- `r` is `a` rotated left by `n` bits: bit `i` moves up to bit `i + n`, around the end. -/
def IsRotl {w : Nat} (a : BitVec w) (n : Nat) (r : BitVec w) : Prop :=
  ∀ i < w, r.getLsbD ((i + n) % w) = a.getLsbD i

/-- `r` is `a` rotated right by `n` bits: bit `i + n` moves down to bit `i`, around the end. -/
def IsRotr {w : Nat} (a : BitVec w) (n : Nat) (r : BitVec w) : Prop :=
  ∀ i < w, r.getLsbD i = a.getLsbD ((i + n) % w)

/-- `k` is the position of the lowest one bit. -/
def LowestOne {w : Nat} (a : BitVec w) (k : Nat) : Prop := k < w ∧ bit a k ∧ ∀ j < k, ¬ bit a j

/-- `k` is the position of the lowest zero bit. -/
def LowestZero {w : Nat} (a : BitVec w) (k : Nat) : Prop := k < w ∧ ¬ bit a k ∧ ∀ j < k, bit a j

/-- `k` is the position of the highest one bit. -/
def HighestOne {w : Nat} (a : BitVec w) (k : Nat) : Prop := k < w ∧ bit a k ∧ ∀ j > k, ¬ bit a j

/-- Number of one bits. -/
def ones {w : Nat} (a : BitVec w) : Nat := (List.range w).countP (fun i => a.getLsbD i)

/-- `r` has ones from bit 0 up to the highest one of `a`, and zeros above. -/
def IsMask {w : Nat} (a r : BitVec w) : Prop := ∀ i < w, bit r i ↔ ∃ j ≥ i, bit a j

/-- `r` has ones above the highest one of `a`, and zeros below. -/
def IsUnsetMask {w : Nat} (a r : BitVec w) : Prop := ∀ i < w, bit r i ↔ ∀ j ≥ i, ¬ bit a j

/-- `r` is the highest one bit of `a` on its own, or zero if there is none. -/
def IsHighest {w : Nat} (a r : BitVec w) : Prop :=
  (∀ k, HighestOne a k → r.toNat = 2 ^ k) ∧ (a = 0 → r = 0)

/-- `r` is the least power of two that is no less than `a`. -/
def IsNextPow2 {w : Nat} (a r : BitVec w) : Prop :=
  (∃ k, r.toNat = 2 ^ k) ∧ a.toNat ≤ r.toNat ∧ ∀ k, a.toNat ≤ 2 ^ k → r.toNat ≤ 2 ^ k

/-- `n` is the number of zero bits above the highest one bit. -/
def LeadingZeros {w : Nat} (a : BitVec w) (n : Nat) : Prop :=
  n ≤ w ∧ (∀ i, w - n ≤ i → ¬ bit a i) ∧ (n < w → bit a (w - 1 - n))

/-- Somewhere below the highest one bit there are 48 zero bits in a row. -/
def LongGap (a : BitVec 64) : Prop := ∃ i, (∃ j ≥ i, bit a j) ∧ ∀ d < 48, ¬ bit a (i + d)

end Verif.SimdLane.Spec
