import Verif.HashLayout
/-!
# Model of the hash maps when memory runs out while an entry is added

`HashMap.lean` and `HashLayout.lean` let every allocation succeed.  Here `AddValue` of the three layouts (`HashMapSeparateChainingArray.c`, below "plain", and the data oriented "Hash" and
"All") meets allocations that fail.  A failed `CCArrayCreate` returns NULL, and the next use of the array fails an assertion.  A failed `CCArrayAppendElement` returns `SIZE_MAX` and leaves
the array as it was (Array.c:64-83); that of the array of buckets cannot fail, as room for the buckets is made when it is created.  The outcome `none` is a failed assertion.
-/
namespace Verif.HashFail
open Verif.BitTricks (U64)
open Verif.HashMap (Cfg toEntry toIndex isEmpty isInit initBit emptyBit reservedMask)
open Verif.HashLayout

/-- Whether arrays that are NULL can be created (`CCArrayCreate`, Array.c:37-56), and whether there is room for one more element (the reallocation Array.c:70). -/
structure Avail where
  create : Bool
  grow : Bool
deriving DecidableEq, Repr

/-- Nothing fails. -/
def plenty : Avail := ⟨true, true⟩

/-- `SIZE_MAX`. -/
def sizeMax : Nat := 2 ^ 64 - 1

/-- The array and the bucket are created if they are NULL: the array of buckets and the bucket of the index (plain 161-173, All 132-143, 162-173, 178-189, Hash 152-163, 184-195). -/
def openRow {α : Type} (c : Nat) (a : Cells α) (b : Nat) (r : Avail) : Option (List (Option (List α)) × List α) :=
  match a with
  | none => if r.create then (List.replicate c (none : Option (List α)))[b]?.map fun _ => (List.replicate c none, []) else none
  | some bs => match bs[b]? with
    | none => none
    | some none => if r.create then some (bs, []) else none
    | some (some row) => some (bs, row)

/-- `CCArrayAppendElement` to the bucket so opened, and what it returns. -/
def appendCellF {α : Type} (c : Nat) (a : Cells α) (b : Nat) (x : α) (r : Avail) : Option (Cells α × Nat) :=
  match openRow c a b r with
  | none => none
  | some (bs, row) => if r.grow then some (some (bs.set b (some (row ++ [x]))), row.length) else some (some (bs.set b (some row)), sizeMax)

/-- How a layout appends a key and a value, with the memory for its one or two arrays. -/
abbrev AppendF (K V P : Type) := Nat → P → Nat → K → Option (Option V) → Avail → Avail → Option (P × Nat)

variable {K V P : Type}

/-- All: the keys (162-175), then the values (178-191); nothing is looked at but what the last returns. -/
def allF : AppendF K V (Cells K × Cells (Option V)) := fun c p b k v r1 r2 =>
  match appendCellF c p.1 b k r1 with
  | none => none
  | some (ks, _) => match appendCellF c p.2 b (v.getD none) r2 with
    | none => none
    | some (vs, i) => some ((ks, vs), i)

/-- Hash: key and value (184-202); the element is then fetched, which asserts its index. -/
def hashF : AppendF K V (Cells (K × Option V)) := fun c p b k v r1 _ =>
  match appendCellF c p b (k, v.getD none) r1 with
  | none => none
  | some (p, i) => if r1.grow then some (p, i) else none

/-- `AddValue` (All 124-192, Hash 144-203): the hash with the memory `rh`, and what the append of the hash (All 159, Hash 181) returns is not looked at. -/
def addValueF (pl : Payload K V P) (ap : AppendF K V P) (cfg : Cfg K) (m : Split P) (b : Nat) (h : U64) (k : K) (v : Option (Option V)) (rh r1 r2 : Avail) : Option (Split P × Nat) :=
  let h := if v.isSome then h ||| initBit else h
  match openRow cfg.c m.hashes b rh with
  | none => none
  | some (bs, row) => match firstEmpty row with
    | some i => match pl.reuse m.load b i k v with
      | none => none
      | some p => some (⟨m.count + 1, some (bs.set b (some (row.set i h))), p⟩, i)
    | none => match ap cfg.c m.load b k v r1 r2 with
      | none => none
      | some (p, i) => some (⟨m.count + 1, some (bs.set b (some (if rh.grow then row ++ [h] else row))), p⟩, i)

/-- `...SetValue` (All 405-424, Hash 414-433). -/
def setValueF (pl : Payload K V P) (ap : AppendF K V P) (cfg : Cfg K) (m : Split P) (k : K) (w : Option V) (rh r1 r2 : Avail) : Option (Split P) :=
  match getKeyIndex pl cfg m k with
  | none => none
  | some (_, _, some _) => setValue pl cfg m k w
  | some (h, b, none) => (addValueF pl ap cfg m b h k (some w) rh r1 r2).map (·.1)

/-- `...EntryForKey` (All 327-342, Hash 336-351). -/
def entryForKeyF (pl : Payload K V P) (ap : AppendF K V P) (cfg : Cfg K) (m : Split P) (k : K) (rh r1 r2 : Avail) : Option (Split P × U64 × Bool) :=
  match getKeyIndex pl cfg m k with
  | none => none
  | some (_, _, some _) => entryForKey pl cfg m k
  | some (h, b, none) => match addValueF pl ap cfg m b h k none rh r1 r2 with
    | none => none
    | some (m', i) => (toEntry cfg b i).map fun e => (m', e, true)

/-- `AddValue` of the plain map (154-198): the appended element is fetched, which asserts its index. -/
def addPlain (cfg : Cfg K) (m : HashMap.Map K V) (b : Nat) (h : U64) (k : K) (v : Option (Option V)) (r : Avail) : Option (HashMap.Map K V × Nat) :=
  match openRow cfg.c m.buckets b r with
  | none => none
  | some (bs, row) => match row.findIdx? fun it => isEmpty it.tag with
    | some i => some (⟨m.count + 1, some (bs.set b (some (row.modify i fun it => HashMap.newItem h k v it.value)))⟩, i)
    | none => if r.grow then some (⟨m.count + 1, some (bs.set b (some (row ++ [HashMap.newItem h k v none])))⟩, row.length) else none

/-- `CCHashMapSeparateChainingArraySetValue` (411-431). -/
def setPlain (cfg : Cfg K) (m : HashMap.Map K V) (k : K) (w : Option V) (r : Avail) : Option (HashMap.Map K V) :=
  match HashMap.getKeyIndex cfg m k with
  | none => none
  | some (_, _, some _) => HashMap.setValue cfg m k w
  | some (h, b, none) => (addPlain cfg m b h k (some w) r).map (·.1)

/-- `CCHashMapSeparateChainingArrayEntryForKey` (330-345). -/
def entryPlain (cfg : Cfg K) (m : HashMap.Map K V) (k : K) (r : Avail) : Option (HashMap.Map K V × U64 × Bool) :=
  match HashMap.getKeyIndex cfg m k with
  | none => none
  | some (_, _, some _) => HashMap.entryForKey cfg m k
  | some (h, b, none) => match addPlain cfg m b h k none r with
    | none => none
    | some (m', i) => (toEntry cfg b i).map fun e => (m', e, true)

/-- A call that may add an entry, and the memory it meets. -/
inductive Add (K V : Type) where
  | set (k : K) (w : Option V) (rh r1 r2 : Avail)
  | entry (k : K) (rh r1 r2 : Avail)

/-- The key of the call. -/
def Add.key : Add K V → K
  | .set k .. => k
  | .entry k .. => k

/-- Calls in turn, on a data oriented map. -/
def run (pl : Payload K V P) (ap : AppendF K V P) (cfg : Cfg K) : Split P → List (Add K V) → Option (Split P)
  | m, [] => some m
  | m, .set k w rh r1 r2 :: l => match setValueF pl ap cfg m k w rh r1 r2 with
    | none => none
    | some m => run pl ap cfg m l
  | m, .entry k rh r1 r2 :: l => match entryForKeyF pl ap cfg m k rh r1 r2 with
    | none => none
    | some (m, _) => run pl ap cfg m l

end Verif.HashFail
