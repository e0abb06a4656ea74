import Verif.BitTricks
/-!
# Model of the entry handles of the separate chaining hash maps

`IndexToEntry` and `EntryToIndex` are textually the same in HashMapSeparateChainingArray.c:78-108,
HashMapSeparateChainingArrayDataOrientedHash.c and HashMapSeparateChainingArrayDataOrientedAll.c.
`size_t`, `uintmax_t` and `CCHashMapEntry` (`uintptr_t`, HashMapInterface.h:46) are 64-bit words.
-/
namespace Verif.HashEntry
open Verif.BitTricks

/-- `BucketMask` (HashMapSeparateChainingArray.c:80, 98). -/
def bucketMask (bucketCount : U64) : U64 := maskForValue (bucketCount + 1)

/-- `ItemShift` (HashMapSeparateChainingArray.c:81, 102). -/
def itemShift (bucketCount : U64) : Nat := (countSet (bucketMask bucketCount)).toNat

/-- `IndexToEntry` (HashMapSeparateChainingArray.c:78-91).  `none`: the shift count is 64, undefined behaviour.  Entry 0 is the failure result. -/
def indexToEntry (bucketCount bucket item : U64) : Option U64 :=
  let shift := itemShift bucketCount
  if shift < 64 then
    if item &&& (~~~(bucketMask bucketCount) >>> shift) = item then some (item <<< shift ||| (bucket + 1)) else some 0
  else none

/-- `EntryToIndex` (HashMapSeparateChainingArray.c:93-108): outer `none` is undefined behaviour (shift by 64), inner `none` the FALSE result. -/
def entryToIndex (bucketCount entry : U64) : Option (Option (U64 × U64)) :=
  if entry ≠ 0 then
    let shift := itemShift bucketCount
    if shift < 64 then
      some (some ((entry &&& bucketMask bucketCount) - 1, (entry &&& ~~~(bucketMask bucketCount)) >>> shift))
    else none
  else some none

end Verif.HashEntry
