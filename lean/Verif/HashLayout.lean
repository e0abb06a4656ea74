import Verif.HashMap
/-!
# Model of the data oriented hash maps

`CommonC/HashMapSeparateChainingArrayDataOrientedHash.c` (below: "Hash") and `CommonC/HashMapSeparateChainingArrayDataOrientedAll.c` ("All").
Both keep the hash words of the items in arrays of their own.  Hash keeps key and value of an item together in a second array per bucket, All keeps them in two.
The two files are the same text except for these accesses, which are collected in `Payload`; the rest is modelled once, with the lines of both.

Simplifications: as in `HashMap.lean`.
-/
namespace Verif.HashLayout
open Verif.BitTricks (U64)
open Verif.HashMap (Cfg toEntry toIndex foundEntry isEmpty isInit initBit emptyBit reservedMask)

/-- `CCHashMapInterface` (HashMapInterface.h:229-263), as far as these maps implement it.  The enumerator action (All 600-633, Hash 609-642) is the choice of one of the
four walks followed by `getKey` or `getEntry`.  The outer `none` of a result is undefined behaviour or a failed assertion. -/
structure Impl (K V S : Type) where
  create : S
  count : S → Nat
  initialized : Cfg K → S → U64 → Option Bool
  findKey : Cfg K → S → K → Option U64
  entryForKey : Cfg K → S → K → Option (S × U64 × Bool)
  getKey : Cfg K → S → U64 → Option (Option K)
  getEntry : Cfg K → S → U64 → Option (Option (Option V))
  setEntry : Cfg K → S → U64 → Option V → Option S
  removeEntry : Cfg K → S → U64 → Option S
  getValue : Cfg K → S → K → Option (Option (Option V))
  setValue : Cfg K → S → K → Option V → Option S
  removeValue : Cfg K → S → K → Option S
  keys : S → Option (List K)
  values : S → Option (List (Option V))
  head : Cfg K → S → Option U64
  next : Cfg K → S → U64 → Option U64
  tail : Cfg K → S → Option U64
  prev : Cfg K → S → U64 → Option U64

/-- `HashMapSeparateChainingArray.c`, modelled in `HashMap.lean`. -/
def base (K V : Type) : Impl K V (HashMap.Map K V) where
  create := HashMap.create
  count m := m.count
  initialized := HashMap.entryIsInitialized
  findKey := HashMap.findKey
  entryForKey := HashMap.entryForKey
  getKey := HashMap.getKey
  getEntry := HashMap.getEntry
  setEntry := HashMap.setEntry
  removeEntry := HashMap.removeEntry
  getValue := HashMap.getValue
  setValue := HashMap.setValue
  removeValue := HashMap.removeValue
  keys m := some (HashMap.getKeys m)
  values m := some (HashMap.getValues m)
  head := HashMap.headEntry
  next := HashMap.nextEntry
  tail := HashMap.tailEntry
  prev := HashMap.prevEntry

/-! ## Arrays of arrays -/

/-- A `CCArray` of `CCArray`s, one per bucket: NULL until first used, and so is each bucket. -/
abbrev Cells (α : Type) := Option (List (Option (List α)))

/-- `CCArrayGetElementAtIndex(*(CCArray*)CCArrayGetElementAtIndex(Cells, BucketIndex), ItemIndex)`. -/
def cellAt {α : Type} (a : Cells α) (b i : Nat) : Option α := do
  let bs ← a
  let bkt ← bs[b]?
  let row ← bkt
  row[i]?

/-- Writing through that pointer. -/
def putCell {α : Type} (a : Cells α) (b i : Nat) (x : α) : Cells α :=
  a.map fun bs => bs.modify b fun bkt => bkt.map fun row => row.set i x

/-- `CCArrayReplaceElementAtIndex` of that element; the index is asserted, and a NULL element leaves the old one. -/
def replaceCell {α : Type} (a : Cells α) (b i : Nat) (x : Option α) : Option (Cells α) := do
  let _ ← cellAt a b i
  return match x with
    | none => a
    | some x => putCell a b i x

/-- Creating the array and the bucket if they are NULL, and `CCArrayAppendElement` to the bucket (All 159-191, Hash 181-200). -/
def appendCell {α : Type} (c : Nat) (a : Cells α) (b : Nat) (x : α) : Option (Cells α × Nat) := do
  let bs := a.getD (List.replicate c none)
  let bkt ← bs[b]?
  let row := bkt.getD []
  return (some (bs.set b (some (row ++ [x]))), row.length)

/-! ## Where keys and values are -/

/-- How a layout keeps keys and values. -/
structure Payload (K V P : Type) where
  empty : P
  key : P → Nat → Nat → Option K
  value : P → Nat → Nat → Option (Option V)
  /-- store key and value (NULL or its bytes) in a slot that is used again -/
  reuse : P → Nat → Nat → K → Option (Option V) → Option P
  /-- append key and value; the second component is what `AddValue` returns -/
  append : Nat → P → Nat → K → Option (Option V) → Option (P × Nat)
  setValue : P → Nat → Nat → Option V → Option P

/-- All: `keys` and `values` (262-266, 152-153, 164-191, 354, 370, 387). -/
def all (K V : Type) : Payload K V (Cells K × Cells (Option V)) where
  empty := (none, none)
  key p b i := cellAt p.1 b i
  value p b i := cellAt p.2 b i
  reuse p b i k v := do return (← replaceCell p.1 b i (some k), ← replaceCell p.2 b i v)
  append c p b k v := do
    let (ks, _) ← appendCell c p.1 b k
    let (vs, i) ← appendCell c p.2 b (v.getD none)
    return ((ks, vs), i)
  setValue p b i w := do return (p.1, ← replaceCell p.2 b i (some w))

/-- Hash: `buckets` of key and value (276, 124-142, 172-174, 184-202, 363, 379, 396). -/
def hash (K V : Type) : Payload K V (Cells (K × Option V)) where
  empty := none
  key p b i := (cellAt p b i).map (·.1)
  value p b i := (cellAt p b i).map (·.2)
  reuse p b i k v := do
    let x ← cellAt p b i
    return putCell p b i (k, v.getD x.2)
  append c p b k v := appendCell c p b (k, v.getD none)
  setValue p b i w := do
    let x ← cellAt p b i
    return putCell p b i (x.1, w)

/-! ## The common text -/

/-- `CCHashMapSeparateChainingArrayDataOriented{All,Hash}Internal`: count, `hashes`, and the rest. -/
structure Split (P : Type) where
  count : Nat
  hashes : Cells U64
  load : P

variable {K V P : Type}

/-- The search for an empty slot in the bucket (All 147-156, Hash 167-179). -/
def firstEmpty (row : List U64) : Option Nat := row.findIdx? isEmpty

/-- `AddValue` (All 124-192, Hash 144-203).  Nothing is written before an assertion can fail, so that the order of the writes is not visible. -/
def addValue (pl : Payload K V P) (cfg : Cfg K) (m : Split P) (b : Nat) (h : U64) (k : K) (v : Option (Option V)) : Option (Split P × Nat) := do
  let h := if v.isSome then h ||| initBit else h
  let bs := m.hashes.getD (List.replicate cfg.c none)
  let bkt ← bs[b]?
  let row := bkt.getD []
  match firstEmpty row with
  | some i =>
    let p ← pl.reuse m.load b i k v
    return (⟨m.count + 1, some (bs.set b (some (row.set i h))), p⟩, i)
  | none =>
    let (p, i) ← pl.append cfg.c m.load b k v
    return (⟨m.count + 1, some (bs.set b (some (row ++ [h]))), p⟩, i)

/-- `RemoveValue` (All 194-212, Hash 205-223). -/
def removeAt (cfg : Cfg K) (m : Split P) (e : U64) : Option (Split P) := do
  match ← toIndex cfg e with
  | none => return m
  | some (b, i) =>
    let t ← cellAt m.hashes b i
    if isEmpty t then none
    else return { m with hashes := putCell m.hashes b i ((t ||| emptyBit) &&& ~~~initBit), count := m.count - 1 }

/-- The loop of `GetKey` (All 229-252, Hash 240-263) over the hash words from index `i` on. -/
def findLoop (pl : Payload K V P) (cfg : Cfg K) (p : P) (b : Nat) (h : U64) (k : K) : List U64 → Nat → Option (Option Nat)
  | [], _ => some none
  | t :: ts, i =>
    if h == (t &&& ~~~initBit) then do
      let ek ← pl.key p b i
      if cfg.eq k ek then some (some i) else findLoop pl cfg p b h k ts (i + 1)
    else findLoop pl cfg p b h k ts (i + 1)

/-- `GetKey` (All 214-255, Hash 225-266). -/
def getKeyIndex (pl : Payload K V P) (cfg : Cfg K) (m : Split P) (k : K) : Option (U64 × Nat × Option Nat) :=
  let h := cfg.hash k &&& reservedMask
  if cfg.c = 0 then none
  else
    let b := h.toNat % cfg.c
    match m.hashes with
    | none => some (h, b, none)
    | some bs => do
      let bkt ← bs[b]?
      let r ← findLoop pl cfg m.load b h k (bkt.getD []) 0
      return (h, b, r)

/-- `...EntryIsInitialized` (All 298-314, Hash 307-323). -/
def entryIsInitialized (cfg : Cfg K) (m : Split P) (e : U64) : Option Bool := do
  match ← toIndex cfg e with
  | none => return false
  | some (b, i) =>
    let t ← cellAt m.hashes b i
    if isEmpty t then none else return isInit t

/-- `...FindKey` (All 316-325, Hash 325-334). -/
def findKey (pl : Payload K V P) (cfg : Cfg K) (m : Split P) (k : K) : Option U64 := do
  let (_, b, r) ← getKeyIndex pl cfg m k
  match r with
  | some i => toEntry cfg b i
  | none => return 0

/-- `...EntryForKey` (All 327-342, Hash 336-351). -/
def entryForKey (pl : Payload K V P) (cfg : Cfg K) (m : Split P) (k : K) : Option (Split P × U64 × Bool) := do
  let (h, b, r) ← getKeyIndex pl cfg m k
  match r with
  | some i => return (m, ← toEntry cfg b i, false)
  | none =>
    let (m', i) ← addValue pl cfg m b h k none
    return (m', ← toEntry cfg b i, true)

/-- `...GetKey` (All 344-358, Hash 353-367). -/
def getKey (pl : Payload K V P) (cfg : Cfg K) (m : Split P) (e : U64) : Option (Option K) := do
  match ← toIndex cfg e with
  | none => return none
  | some (b, i) =>
    let t ← cellAt m.hashes b i
    if isEmpty t then none else return some (← pl.key m.load b i)

/-- `...GetEntry` (All 360-374, Hash 369-383). -/
def getEntry (pl : Payload K V P) (cfg : Cfg K) (m : Split P) (e : U64) : Option (Option (Option V)) := do
  match ← toIndex cfg e with
  | none => return none
  | some (b, i) =>
    let t ← cellAt m.hashes b i
    if isEmpty t then none else return some (← pl.value m.load b i)

/-- `...SetEntry` (All 376-389, Hash 385-398). -/
def setEntry (pl : Payload K V P) (cfg : Cfg K) (m : Split P) (e : U64) (w : Option V) : Option (Split P) := do
  match ← toIndex cfg e with
  | none => return m
  | some (b, i) =>
    let t ← cellAt m.hashes b i
    if isEmpty t then none
    else return { m with hashes := putCell m.hashes b i (t ||| initBit), load := ← pl.setValue m.load b i w }

/-- `...GetValue` (All 396-403, Hash 405-412). -/
def getValue (pl : Payload K V P) (cfg : Cfg K) (m : Split P) (k : K) : Option (Option (Option V)) := do
  let (_, b, r) ← getKeyIndex pl cfg m k
  match r with
  | some i => return some (← pl.value m.load b i)
  | none => return none

/-- `...SetValue` (All 405-424, Hash 414-433).  As in the other layout, the test looks at the masked hash. -/
def setValue (pl : Payload K V P) (cfg : Cfg K) (m : Split P) (k : K) (w : Option V) : Option (Split P) := do
  let (h, b, r) ← getKeyIndex pl cfg m k
  match r with
  | some i =>
    let t ← cellAt m.hashes b i
    return { m with hashes := if isInit h then m.hashes else putCell m.hashes b i (t ||| initBit), load := ← pl.setValue m.load b i w }
  | none => return (← addValue pl cfg m b h k (some w)).1

/-- `...RemoveValue` (All 426-430, Hash 435-439). -/
def removeValue (pl : Payload K V P) (cfg : Cfg K) (m : Split P) (k : K) : Option (Split P) := do
  let (_, b, r) ← getKeyIndex pl cfg m k
  match r with
  | some i => removeAt cfg m (← toEntry cfg b i)
  | none => return m

/-- Inner loop of `...GetKeys` and `...GetValues` (All 445-451, 472-478; Hash 454-460, 481-487): what is read at the indices of the non-empty hash words. -/
def gatherRow {α : Type} (get : Nat → Option α) : List U64 → Nat → Option (List α)
  | [], _ => some []
  | t :: ts, i =>
    if isEmpty t then gatherRow get ts (i + 1)
    else do
      let x ← get i
      let xs ← gatherRow get ts (i + 1)
      return x :: xs

/-- Outer loop (All 439-455, 466-482; Hash 448-464, 475-491). -/
def gather {α : Type} (get : Nat → Nat → Option α) : List (Option (List U64)) → Nat → Option (List α)
  | [], _ => some []
  | none :: bs, b => gather get bs (b + 1)
  | some row :: bs, b => do
    let xs ← gatherRow (get b) row 0
    let ys ← gather get bs (b + 1)
    return xs ++ ys

/-- `...GetKeys` (All 432-457, Hash 441-466). -/
def getKeys (pl : Payload K V P) (m : Split P) : Option (List K) :=
  match m.hashes with
  | none => some []
  | some bs => gather (pl.key m.load) bs 0

/-- `...GetValues` (All 459-484, Hash 468-493). -/
def getValues (pl : Payload K V P) (m : Split P) : Option (List (Option V)) :=
  match m.hashes with
  | none => some []
  | some bs => gather (pl.value m.load) bs 0

/-- Inner loop of `GetHeadEntry` / `GetNextEntry` (All 497-503, 552-558; Hash 506-512, 561-567). -/
def scanUp : List U64 → Nat → Option Nat
  | [], _ => none
  | t :: row, i => if isEmpty t then scanUp row (i + 1) else some i

/-- Outer loop (All 492-506, 547-563; Hash 501-515, 556-572). -/
def scanBucketsUp : List (Option (List U64)) → Nat → Nat → Option (Nat × Nat)
  | [], _, _ => none
  | none :: bs, b, i => scanBucketsUp bs (b + 1) i
  | some row :: bs, b, i =>
    match scanUp (row.drop i) i with
    | some j => some (b, j)
    | none => scanBucketsUp bs (b + 1) 0

/-- `GetHeadEntry` (All 486-509, Hash 495-518). -/
def headEntry (cfg : Cfg K) (m : Split P) : Option U64 :=
  match m.hashes with
  | none => some 0
  | some bs => foundEntry cfg (scanBucketsUp bs 0 0)

/-- `GetNextEntry` (All 536-566, Hash 545-575). -/
def nextEntry (cfg : Cfg K) (m : Split P) (e : U64) : Option U64 :=
  match m.hashes with
  | none => some 0
  | some bs => do
    match ← toIndex cfg e with
    | none => none
    | some (b, i) => foundEntry cfg (scanBucketsUp (bs.drop b) b (i + 1))

/-- Inner loop of `GetTailEntry` / `GetPrevEntry` (All 522-528, 584-590; Hash 531-537, 593-599). -/
def scanDown (row : List U64) : Nat → Option (Option Nat)
  | 0 => some none
  | n + 1 => do
    let t ← row[n]?
    if isEmpty t then scanDown row n else some (some n)

/-- Outer loop (All 517-531, 579-595; Hash 526-540, 588-604). -/
def scanBucketsDown (bs : List (Option (List U64))) : Nat → Nat → Option (Option (Nat × Nat))
  | 0, _ => some none
  | n + 1, i => do
    match ← bs[n]? with
    | none => scanBucketsDown bs n i
    | some row =>
      match ← scanDown row (if i ≠ 0 then i - 1 else row.length) with
      | some j => some (some (n, j))
      | none => scanBucketsDown bs n 0

/-- `GetTailEntry` (All 511-534, Hash 520-543). -/
def tailEntry (cfg : Cfg K) (m : Split P) : Option U64 :=
  match m.hashes with
  | none => some 0
  | some bs => do foundEntry cfg (← scanBucketsDown bs bs.length 0)

/-- `GetPrevEntry` (All 568-598, Hash 577-607). -/
def prevEntry (cfg : Cfg K) (m : Split P) (e : U64) : Option U64 :=
  match m.hashes with
  | none => some 0
  | some bs => do
    match ← toIndex cfg e with
    | none => none
    | some (b, i) => foundEntry cfg (← scanBucketsDown bs (b + 1) (i + 1))

/-- The interfaces of the two data oriented maps (All 55-76, Hash 55-76). -/
def split (pl : Payload K V P) : Impl K V (Split P) where
  create := ⟨0, none, pl.empty⟩
  count m := m.count
  initialized := entryIsInitialized
  findKey := findKey pl
  entryForKey := entryForKey pl
  getKey := getKey pl
  getEntry := getEntry pl
  setEntry := setEntry pl
  removeEntry := removeAt
  getValue := getValue pl
  setValue := setValue pl
  removeValue := removeValue pl
  keys := getKeys pl
  values := getValues pl
  head := headEntry
  next := nextEntry
  tail := tailEntry
  prev := prevEntry

/-! ## The calls of `HashMap.h` -/

/-- The loop of `CCHashMapRehash` (HashMap.c:90-98), see `HashMap.rehashLoop`. -/
def rehashLoop {S : Type} (I : Impl K V S) (cfg cfg' : Cfg K) (m : S) : Nat → U64 → S → Option S
  | 0, _, _ => none
  | fuel + 1, e, acc => do
    match ← I.getKey cfg m e with
    | none => return acc
    | some k =>
      match ← I.getEntry cfg m e with
      | none => none
      | some v =>
        let acc ← I.setValue cfg' acc k v
        rehashLoop I cfg cfg' m fuel (← I.next cfg m e) acc

/-- `CCHashMapRehash` (HashMap.c:80-106); none of the layouts has a `rehash` of its own. -/
def rehash {S : Type} (I : Impl K V S) (cfg : Cfg K) (m : S) (c' : Nat) : Option (Cfg K × S) := do
  let cfg' := { cfg with c := c' }
  let m' ← rehashLoop I cfg cfg' m (I.count m + 1) (← I.head cfg m) I.create
  return (cfg', m')

/-- A call of `HashMap.h`; `head` ... `prev` are the moves of the enumerators of `HashMapEnumerator.h`. -/
inductive Call (K V : Type) where
  | count
  | initialized (e : U64)
  | findKey (k : K)
  | entryForKey (k : K)
  | getKey (e : U64)
  | getEntry (e : U64)
  | setEntry (e : U64) (w : Option V)
  | removeEntry (e : U64)
  | getValue (k : K)
  | setValue (k : K) (w : Option V)
  | removeValue (k : K)
  | keys
  | values
  | head
  | next (e : U64)
  | tail
  | prev (e : U64)
  | rehash (c : Nat)

/-- What a call returns. -/
inductive Answer (K V : Type) where
  | done
  | count (n : Nat)
  | bool (b : Bool)
  | entry (e : U64)
  | created (e : U64) (b : Bool)
  | key (k : Option K)
  | value (v : Option (Option V))
  | keys (l : List K)
  | values (l : List (Option V))

/-- One call (HashMap.c:80-312, HashMapEnumerator.h). -/
def call {S : Type} (I : Impl K V S) (cfg : Cfg K) (m : S) : Call K V → Option ((Cfg K × S) × Answer K V)
  | .count => some ((cfg, m), .count (I.count m))
  | .initialized e => (I.initialized cfg m e).map fun r => ((cfg, m), .bool r)
  | .findKey k => (I.findKey cfg m k).map fun r => ((cfg, m), .entry r)
  | .entryForKey k => (I.entryForKey cfg m k).map fun r => ((cfg, r.1), .created r.2.1 r.2.2)
  | .getKey e => (I.getKey cfg m e).map fun r => ((cfg, m), .key r)
  | .getEntry e => (I.getEntry cfg m e).map fun r => ((cfg, m), .value r)
  | .setEntry e w => (I.setEntry cfg m e w).map fun m' => ((cfg, m'), .done)
  | .removeEntry e => (I.removeEntry cfg m e).map fun m' => ((cfg, m'), .done)
  | .getValue k => (I.getValue cfg m k).map fun r => ((cfg, m), .value r)
  | .setValue k w => (I.setValue cfg m k w).map fun m' => ((cfg, m'), .done)
  | .removeValue k => (I.removeValue cfg m k).map fun m' => ((cfg, m'), .done)
  | .keys => (I.keys m).map fun r => ((cfg, m), .keys r)
  | .values => (I.values m).map fun r => ((cfg, m), .values r)
  | .head => (I.head cfg m).map fun r => ((cfg, m), .entry r)
  | .next e => (I.next cfg m e).map fun r => ((cfg, m), .entry r)
  | .tail => (I.tail cfg m).map fun r => ((cfg, m), .entry r)
  | .prev e => (I.prev cfg m e).map fun r => ((cfg, m), .entry r)
  | .rehash c => (rehash I cfg m c).map fun r => (r, .done)

/-- The answers to a sequence of calls. -/
def answers {S : Type} (I : Impl K V S) (cfg : Cfg K) (m : S) : List (Call K V) → Option (List (Answer K V))
  | [] => some []
  | c :: cs => do
    let ((cfg', m'), a) ← call I cfg m c
    let as ← answers I cfg' m' cs
    return a :: as

end Verif.HashLayout
