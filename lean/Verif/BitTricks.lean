/-!
# Model of `CommonC/BitTricks.h` on 64-bit words
-/
namespace Verif.BitTricks

abbrev U64 := BitVec 64

/-- `CCBitMaskForValue` (BitTricks.h:156-166). -/
def maskForValue (x : U64) : U64 :=
  let x := x ||| x >>> 1
  let x := x ||| x >>> 2
  let x := x ||| x >>> 4
  let x := x ||| x >>> 8
  let x := x ||| x >>> 16
  x ||| x >>> 32

/-- `CCBitLowestUnset` (BitTricks.h:130-133). -/
def lowestUnset (x : U64) : U64 := ~~~x &&& (x + 1)

/-- `CCBitLowestSet` (BitTricks.h:136-139). -/
def lowestSet (x : U64) : U64 := x &&& -x

/-- `CCBitHighestSet` (BitTricks.h:142-147). -/
def highestSet (x : U64) : U64 :=
  let x := maskForValue x
  x ^^^ x >>> 1

/-- `CCBitNextPowerOf2` (BitTricks.h:150-153). -/
def nextPowerOf2 (x : U64) : U64 := maskForValue (x - 1) + 1

/-- `CCBitMaskForLowerPowerOf2` (BitTricks.h:169-173). -/
def maskForLowerPowerOf2 (x : U64) : U64 := if x ≠ 0 then ~~~(-x) else 0

/-- `CCBitMaskForUnsetValue` (BitTricks.h:176-179). -/
def maskForUnsetValue (x : U64) : U64 := BitVec.allOnes 64 ^^^ maskForValue x

/-- `CCBitCountSet` (BitTricks.h:182-201). -/
def countSet (x : U64) : U64 :=
  let x := x - (x >>> 1 &&& 0x5555555555555555#64)
  let x := (x &&& 0x3333333333333333#64) + (x >>> 2 &&& 0x3333333333333333#64)
  let x := (x + x >>> 4) &&& 0x0f0f0f0f0f0f0f0f#64
  (x * 0x0101010101010101#64) >>> 56

/-- `CCBitCountLowestUnset` (BitTricks.h:203-212), the portable branch (the other branch calls the compiler's `__builtin_ctzll`). -/
def countLowestUnset (x : U64) : U64 := if x = 0 then 64 else countSet (maskForLowerPowerOf2 (lowestSet x))

/-- `CCBitSet` (BitTricks.h:215-218).  A shift by more than 63 is undefined behaviour: `none`. -/
def setLow (n : U64) : Option U64 :=
  if n = 64 then some (BitVec.allOnes 64) else if n.toNat < 64 then some (((1#64) <<< n.toNat) - 1#64) else none

/-- `CCBitIsPowerOf2` (BitTricks.h:221-224). -/
def isPowerOf2 (x : U64) : Bool := x != 0 && (x &&& ~~~(-x)) == 0

/-- `CCBitFloat32IsPowerOf2` (BitTricks.h:227-231) on the bit pattern of the float: `x != 0.0f` is false exactly for the two zero patterns
(NaN compares unequal). -/
def float32IsPowerOf2 (x : BitVec 32) : Bool := (x != 0#32 && x != 0x80000000#32) && (x &&& 0x7fffff#32) == 0#32

/-- `CCBitFloat64IsPowerOf2` (BitTricks.h:234-238) on the bit pattern of the double. -/
def float64IsPowerOf2 (x : BitVec 64) : Bool := (x != 0#64 && x != 0x8000000000000000#64) && (x &&& 0xfffffffffffff#64) == 0#64

end Verif.BitTricks
