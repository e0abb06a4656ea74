import Verif.BigIntFast
import Verif.Str
/-!
# Model of the key callbacks (`TypeCallbacks.c` 138-206)

`uintmax_t` has 64 bits. An assertion or undefined behaviour is `none`. Keys are passed by a pointer to them, which is left out.
-/
namespace Verif.TypeKeys
open Verif.BigInt Verif.BigIntFast

/-- `CCComparisonResult` (`Comparator.h` 34-43). -/
inductive Result
  | ascending
  | equal
  | descending
  | invalid
  deriving DecidableEq, Repr

def Result.ofOrdering : Ordering → Result
  | .lt => .ascending
  | .eq => .equal
  | .gt => .descending

/-- `CCComparisonResultFlipOrder` (`Comparator.h` 62-69). -/
def flipOrder : Result → Result
  | .ascending => .descending
  | .descending => .ascending
  | r => r

/-- `(uint64_t)CCBigIntGetSign(*Key) << 63` (154, 166, 174, 186). -/
def signBit (sign : Bool) : BitVec 64 := (if sign then 1#64 else 0#64) <<< 63

/-- `CCBigIntHasher` (143-155). -/
def hashBig (b : BI) : BitVec 64 := b.comps.foldl (fun h c => h ^^^ BitVec.ofNat 64 c) 0#64 ||| signBit b.sign

/-- `(Value ^ Mask) - Mask` (161-164, 181-184), as `uint64_t`. -/
def absBits (v : BitVec 64) : BitVec 64 := (v ^^^ v.sshiftRight 63) - v.sshiftRight 63

/-- `CCBigIntFastHasher` (157-170). -/
def hashFast : Fast → BitVec 64
  | .tagged bits => absBits (bits.sshiftRight 1) ||| signBit (decide (getTagged bits < 0))
  | .big b => hashBig b

/-- `CCBigIntLowHasher` (172-175). -/
def hashLow (b : BI) : Option (BitVec 64) := b.comps[0]?.map fun c => BitVec.ofNat 64 c ||| signBit b.sign

/-- `CCBigIntFastLowHasher` (177-190). -/
def hashFastLow : Fast → Option (BitVec 64)
  | .tagged bits => some (absBits (bits.sshiftRight 1) ||| signBit (decide (getTagged bits < 0)))
  | .big b => hashLow b

/-- `CCBigIntComparator` (197-200). -/
def compareBigKeys (a b : BI) : Result := .ofOrdering (BigInt.compareBig a b)

/-- `CCBigIntFastComparator` (202-205). -/
def compareFastKeys (a b : Fast) : Option Result := (compareFast a b).map .ofOrdering

/-- `CCStringHasher` (138-141). -/
def hashString (M : Str.Maps) (s : Str.Str) : Option (BitVec 64) := (Str.getHash M s).map fun h => h.toBitVec.setWidth 64

/-- `CCStringComparator` (192-195). `same`: the two pointers are equal. -/
def compareStringKeys (M : Str.Maps) (same : Bool) (s t : Str.Str) : Option Result :=
  (Str.equal M same s t).map fun r => if r then .equal else .invalid

end Verif.TypeKeys
