import Verif.HashEntry
/-!
# Model of the separate chaining hash map

`CommonC/HashMapSeparateChainingArray.c` and the parts of `CommonC/HashMap.c` that dispatch to it.
The variants HashMapSeparateChainingArrayDataOrientedHash.c and HashMapSeparateChainingArrayDataOrientedAll.c keep hash, key and value of an
item in parallel arrays instead of one; they are modelled in `HashLayout.lean` and shown to behave the same (C62).

Simplifications: `CCArray` is a `List` (C01 shows that it behaves like one), allocation does not fail, an item is a record
of its stored hash word, its key and its value bytes (`none`: never written).  `count` is a natural number.
Every function returns in `Option`; `none` is undefined behaviour or a failed assertion.
-/
namespace Verif.HashMap
open Verif.BitTricks (U64)

/-- What a map is created with (HashMap.c:41-72): hash callback, key comparison (`compareKeys(..) == CCComparisonResultEqual`, or equality of the bytes when there is no
callback), and bucket count. -/
structure Cfg (K : Type) where
  hash : K → U64
  eq : K → K → Bool
  c : Nat

/-- An item of a bucket: hash word, key, value (HashMapSeparateChainingArray.c:124-151). -/
structure Item (K V : Type) where
  tag : U64
  key : K
  value : Option V

/-- `CCHashMapSeparateChainingArrayInternal` (HashMapSeparateChainingArray.h): `buckets` is NULL until the first insertion, and so is each bucket. -/
structure Map (K V : Type) where
  count : Nat
  buckets : Option (List (Option (List (Item K V))))

/-- HashMapSeparateChainingArray.c:110-112. -/
def reservedMask : U64 := 0x3fffffffffffffff#64
def emptyBit : U64 := 0x8000000000000000#64
def initBit : U64 := 0x4000000000000000#64

/-- `HashIsEmpty` (114-117). -/
def isEmpty (t : U64) : Bool := (t &&& emptyBit) != 0#64
/-- `HashIsInitialized` (119-122). -/
def isInit (t : U64) : Bool := (t &&& initBit) != 0#64

/-- `CCHashMapSeparateChainingArrayConstructor` (264-276). -/
def create {K V : Type} : Map K V := ⟨0, none⟩

variable {K V : Type}

/-- The handle of a place (`IndexToEntry`, 78-91). -/
def toEntry (cfg : Cfg K) (b i : Nat) : Option U64 :=
  HashEntry.indexToEntry (BitVec.ofNat 64 cfg.c) (BitVec.ofNat 64 b) (BitVec.ofNat 64 i)

/-- The place of a handle (`EntryToIndex`, 93-108); inner `none`: the null entry. -/
def toIndex (cfg : Cfg K) (e : U64) : Option (Option (Nat × Nat)) :=
  (HashEntry.entryToIndex (BitVec.ofNat 64 cfg.c) e).map (·.map fun p => (p.1.toNat, p.2.toNat))

/-- `CCArrayGetElementAtIndex(*(CCArray*)CCArrayGetElementAtIndex(Internal->buckets, BucketIndex), ItemIndex)`: no NULL array may be involved
and the indices are asserted to be in bounds. -/
def itemAt (m : Map K V) (b i : Nat) : Option (Item K V) := do
  let bs ← m.buckets
  let bkt ← bs[b]?
  let row ← bkt
  row[i]?

/-- Writing the item back through the pointer obtained by `itemAt`. -/
def putItem (m : Map K V) (b i : Nat) (x : Item K V) : Map K V :=
  { m with buckets := m.buckets.map fun bs => bs.modify b fun bkt => bkt.map fun row => row.set i x }

/-- What `AddValue` stores in a slot whose previous value bytes are `old`; `v` is the `Value` pointer (NULL or the bytes it points to). -/
def newItem (h : U64) (k : K) (v : Option (Option V)) (old : Option V) : Item K V :=
  ⟨if v.isSome then h ||| initBit else h, k, v.getD old⟩

/-- The slot selection of `AddValue` (168-197) inside the bucket: the first empty slot is reused, otherwise one is appended. -/
def addRow (row : List (Item K V)) (h : U64) (k : K) (v : Option (Option V)) : List (Item K V) × Nat :=
  match row.findIdx? (fun it => isEmpty it.tag) with
  | some i => (row.modify i fun it => newItem h k v it.value, i)
  | none => (row ++ [newItem h k v none], row.length)

/-- `AddValue` (154-198). -/
def addValue (cfg : Cfg K) (m : Map K V) (b : Nat) (h : U64) (k : K) (v : Option (Option V)) : Option (Map K V × Nat) := do
  let bs := m.buckets.getD (List.replicate cfg.c none)
  let bkt ← bs[b]?
  let (row, i) := addRow (bkt.getD []) h k v
  return (⟨m.count + 1, some (bs.set b (some row))⟩, i)

/-- `RemoveValue` (200-218). -/
def removeAt (cfg : Cfg K) (m : Map K V) (e : U64) : Option (Map K V) := do
  match ← toIndex cfg e with
  | none => return m
  | some (b, i) =>
    let it ← itemAt m b i
    if isEmpty it.tag then none
    else
      let m' := putItem m b i { it with tag := (it.tag ||| emptyBit) &&& ~~~initBit }
      return { m' with count := m.count - 1 }

/-- `GetKey` (220-262): the hash, the bucket index, and the item index if found.  `% bucketCount` is undefined for 0 buckets. -/
def getKeyIndex (cfg : Cfg K) (m : Map K V) (k : K) : Option (U64 × Nat × Option Nat) :=
  let h := cfg.hash k &&& reservedMask
  if cfg.c = 0 then none
  else
    let b := h.toNat % cfg.c
    match m.buckets with
    | none => some (h, b, none)
    | some bs => do
      let bkt ← bs[b]?
      return (h, b, (bkt.getD []).findIdx? fun it => h == (it.tag &&& ~~~initBit) && cfg.eq k it.key)

/-- `CCHashMapSeparateChainingArrayEntryIsInitialized` (301-317). -/
def entryIsInitialized (cfg : Cfg K) (m : Map K V) (e : U64) : Option Bool := do
  match ← toIndex cfg e with
  | none => return false
  | some (b, i) =>
    let it ← itemAt m b i
    if isEmpty it.tag then none else return isInit it.tag

/-- `CCHashMapSeparateChainingArrayFindKey` (319-328). -/
def findKey (cfg : Cfg K) (m : Map K V) (k : K) : Option U64 := do
  let (_, b, r) ← getKeyIndex cfg m k
  match r with
  | some i => toEntry cfg b i
  | none => return 0

/-- `CCHashMapSeparateChainingArrayEntryForKey` (330-345); the Boolean is `*Created`. -/
def entryForKey (cfg : Cfg K) (m : Map K V) (k : K) : Option (Map K V × U64 × Bool) := do
  let (h, b, r) ← getKeyIndex cfg m k
  match r with
  | some i => return (m, ← toEntry cfg b i, false)
  | none =>
    let (m', i) ← addValue cfg m b h k none
    return (m', ← toEntry cfg b i, true)

/-- `CCHashMapSeparateChainingArrayGetKey` (347-362); `none` inside: NULL. -/
def getKey (cfg : Cfg K) (m : Map K V) (e : U64) : Option (Option K) := do
  match ← toIndex cfg e with
  | none => return none
  | some (b, i) =>
    let it ← itemAt m b i
    if isEmpty it.tag then none else return some it.key

/-- `CCHashMapSeparateChainingArrayGetEntry` (364-379): NULL or the value bytes pointed to. -/
def getEntry (cfg : Cfg K) (m : Map K V) (e : U64) : Option (Option (Option V)) := do
  match ← toIndex cfg e with
  | none => return none
  | some (b, i) =>
    let it ← itemAt m b i
    if isEmpty it.tag then none else return some it.value

/-- `CCHashMapSeparateChainingArraySetEntry` (381-395). -/
def setEntry (cfg : Cfg K) (m : Map K V) (e : U64) (v : Option V) : Option (Map K V) := do
  match ← toIndex cfg e with
  | none => return m
  | some (b, i) =>
    let it ← itemAt m b i
    if isEmpty it.tag then none else return putItem m b i { it with tag := it.tag ||| initBit, value := v }

/-- `CCHashMapSeparateChainingArrayRemoveEntry` (397-400). -/
def removeEntry (cfg : Cfg K) (m : Map K V) (e : U64) : Option (Map K V) := removeAt cfg m e

/-- `CCHashMapSeparateChainingArrayGetValue` (402-409): NULL or the value bytes pointed to. -/
def getValue (cfg : Cfg K) (m : Map K V) (k : K) : Option (Option (Option V)) := do
  let (_, b, r) ← getKeyIndex cfg m k
  match r with
  | some i => return some (← itemAt m b i).value
  | none => return none

/-- `CCHashMapSeparateChainingArraySetValue` (411-431).  The test at line 418 looks at the masked hash, in which the bit is never set, so the bit is always
set in the item. -/
def setValue (cfg : Cfg K) (m : Map K V) (k : K) (v : Option V) : Option (Map K V) := do
  let (h, b, r) ← getKeyIndex cfg m k
  match r with
  | some i =>
    let it ← itemAt m b i
    return putItem m b i { it with tag := if isInit h then it.tag else it.tag ||| initBit, value := v }
  | none => return (← addValue cfg m b h k (some v)).1

/-- `CCHashMapSeparateChainingArrayRemoveValue` (433-437). -/
def removeValue (cfg : Cfg K) (m : Map K V) (k : K) : Option (Map K V) := do
  let (_, b, r) ← getKeyIndex cfg m k
  match r with
  | some i => removeAt cfg m (← toEntry cfg b i)
  | none => return m

/-- Elements appended by `CCHashMapSeparateChainingArrayGetKeys` (439-464), in order. -/
def getKeys (m : Map K V) : List K :=
  match m.buckets with
  | none => []
  | some bs => bs.flatMap fun bkt => match bkt with
    | none => []
    | some row => row.flatMap fun it => if isEmpty it.tag then [] else [it.key]

/-- Elements appended by `CCHashMapSeparateChainingArrayGetValues` (466-491), in order. -/
def getValues (m : Map K V) : List (Option V) :=
  match m.buckets with
  | none => []
  | some bs => bs.flatMap fun bkt => match bkt with
    | none => []
    | some row => row.flatMap fun it => if isEmpty it.tag then [] else [it.value]

/-- Inner loop of `GetHeadEntry` / `GetNextEntry` (504-510, 559-565): first non-empty slot at index `i` or later; `row` is what is left of the bucket from there. -/
def scanUp : List (Item K V) → Nat → Option Nat
  | [], _ => none
  | it :: row, i => if isEmpty it.tag then scanUp row (i + 1) else some i

/-- Outer loop of `GetHeadEntry` / `GetNextEntry` (499-513, 554-570) over the buckets from index `b` on, starting in slot `i`
of the first non-NULL one (`ItemIndex` is reset only after a non-NULL bucket). -/
def scanBucketsUp : List (Option (List (Item K V))) → Nat → Nat → Option (Nat × Nat)
  | [], _, _ => none
  | none :: bs, b, i => scanBucketsUp bs (b + 1) i
  | some row :: bs, b, i =>
    match scanUp (row.drop i) i with
    | some j => some (b, j)
    | none => scanBucketsUp bs (b + 1) 0

/-- Result of a walk step: the handle of the place found or the null entry. -/
def foundEntry (cfg : Cfg K) : Option (Nat × Nat) → Option U64
  | some (b, i) => toEntry cfg b i
  | none => some 0

/-- `GetHeadEntry` (493-516). -/
def headEntry (cfg : Cfg K) (m : Map K V) : Option U64 :=
  match m.buckets with
  | none => some 0
  | some bs => foundEntry cfg (scanBucketsUp bs 0 0)

/-- `GetNextEntry` (543-573).  For the null entry `BucketIndex` is read uninitialised: undefined behaviour. -/
def nextEntry (cfg : Cfg K) (m : Map K V) (e : U64) : Option U64 :=
  match m.buckets with
  | none => some 0
  | some bs => do
    match ← toIndex cfg e with
    | none => none
    | some (b, i) => foundEntry cfg (scanBucketsUp (bs.drop b) b (i + 1))

/-- Inner loop of `GetTailEntry` / `GetPrevEntry` (529-535, 591-597): last non-empty slot below index `n`. -/
def scanDown (row : List (Item K V)) : Nat → Option (Option Nat)
  | 0 => some none
  | n + 1 => do
    let it ← row[n]?
    if isEmpty it.tag then scanDown row n else some (some n)

/-- Outer loop of `GetTailEntry` / `GetPrevEntry` (524-538, 586-602), `Loop = n`; `i` is `ItemIndex` (0: start at the end of the bucket, otherwise below slot `i - 1`). -/
def scanBucketsDown (bs : List (Option (List (Item K V)))) : Nat → Nat → Option (Option (Nat × Nat))
  | 0, _ => some none
  | n + 1, i => do
    match ← bs[n]? with
    | none => scanBucketsDown bs n i
    | some row =>
      match ← scanDown row (if i ≠ 0 then i - 1 else row.length) with
      | some j => some (some (n, j))
      | none => scanBucketsDown bs n 0

/-- `GetTailEntry` (518-541). -/
def tailEntry (cfg : Cfg K) (m : Map K V) : Option U64 :=
  match m.buckets with
  | none => some 0
  | some bs => do foundEntry cfg (← scanBucketsDown bs bs.length 0)

/-- `GetPrevEntry` (575-605). -/
def prevEntry (cfg : Cfg K) (m : Map K V) (e : U64) : Option U64 :=
  match m.buckets with
  | none => some 0
  | some bs => do
    match ← toIndex cfg e with
    | none => none
    | some (b, i) => foundEntry cfg (← scanBucketsDown bs (b + 1) (i + 1))

/-- The loop of `CCHashMapRehash` (HashMap.c:90-98): `e` is the enumerator's entry; `fuel` bounds the number of iterations (a map with `n` items needs `n + 1`;
running out is reported as `none`). -/
def rehashLoop (cfg cfg' : Cfg K) (m : Map K V) : Nat → U64 → Map K V → Option (Map K V)
  | 0, _, _ => none
  | fuel + 1, e, acc => do
    match ← getKey cfg m e with
    | none => return acc
    | some k =>
      match ← getEntry cfg m e with
      | none => none
      | some v =>
        let acc ← setValue cfg' acc k v
        rehashLoop cfg cfg' m fuel (← nextEntry cfg m e) acc

/-- `CCHashMapRehash` (HashMap.c:80-106) with the default implementation (these maps set `.rehash = NULL`). -/
def rehash (cfg : Cfg K) (m : Map K V) (c' : Nat) : Option (Cfg K × Map K V) := do
  let cfg' := { cfg with c := c' }
  let m' ← rehashLoop cfg cfg' m (m.count + 1) (← headEntry cfg m) create
  return (cfg', m')

end Verif.HashMap
