import Verif.HashMap
/-!
# Model of serialising a hash map and reading it back (`CommonC/ReflectedTypes.c` 1685-1737, `CommonC/Reflect.c` 1996-2001, 2028-2060, 2196-2201, 2233-2278)

A hash map is mapped to a structure of two enumerables, one of its keys and one of its values, which are serialised one after the other; reading
them back gives two enumerables, from which a new map is filled.

Simplified: the stream is a list of units of any type; how a count, a key and a value are written and read is given as a `Codec`
(C75, C76, C100 and C104 are about those), the description of the mapped type (C84) is left out; the elements read
into the zone are handed out in order (C103).  The map is that of `HashMap.lean`; the other layouts behave the same (C62).
-/
namespace Verif.MapStream
open Verif.HashMap
open Verif.BitTricks (U64)

/-- How values of a type are written to the stream and read from it. -/
structure Codec (X T : Type) where
  write : X → List T
  read : List T → Option (X × List T)

/-- The types of a `CCReflectCCHashMap`. -/
structure Format (K V T : Type) where
  counts : Codec Nat T
  keys : Codec K T
  values : Codec V T

variable {K V T E : Type}

/-- The internal enumerator state (HashMapSeparateChainingArray.c 607-640): the entry and what `GetElement` returned for it (`none`: NULL). -/
structure En (E : Type) where
  entry : U64
  ptr : Option E

/-- `CCHashMapEnumeratorActionHead` (613-617); `get` is `GetKey` for a key enumerator and `GetEntry` for a value enumerator. -/
def head (cfg : Cfg K) (m : Map K V) (get : U64 → Option (Option E)) : Option (En E) := do
  let e ← headEntry cfg m
  return ⟨e, ← get e⟩

/-- `CCHashMapEnumeratorActionNext` (625-628). -/
def next (cfg : Cfg K) (m : Map K V) (get : U64 → Option (Option E)) (en : En E) : Option (En E) := do
  let e ← nextEntry cfg m en.entry
  return ⟨e, ← get e⟩

/-- The loop `for (Element = CCEnumerableGetCurrent(..); Element; Element = CCEnumerableNext(..))` (Reflect.c 2053-2056), in at most `fuel` rounds. -/
def elements (cfg : Cfg K) (m : Map K V) (get : U64 → Option (Option E)) : Nat → En E → Option (List E)
  | _, ⟨_, none⟩ => some []
  | 0, ⟨_, some _⟩ => none
  | fuel + 1, ⟨e, some x⟩ => do
    let en ← next cfg m get ⟨e, some x⟩
    let xs ← elements cfg m get fuel en
    return x :: xs

/-- What `CCHashMapGetKeyEnumerable` hands out (HashMap.c 276-283, 299-305). -/
def keyList (cfg : Cfg K) (m : Map K V) : Option (List K) := do elements cfg m (getKey cfg m) m.count (← head cfg m (getKey cfg m))

/-- What `CCHashMapGetValueEnumerable` hands out (HashMap.c 285-292, 307-313): the bytes of the values, `none` if never written. -/
def valueList (cfg : Cfg K) (m : Map K V) : Option (List (Option V)) := do elements cfg m (getEntry cfg m) m.count (← head cfg m (getEntry cfg m))

/-- Serialising the elements of an enumerable whose count is known (Reflect.c 2030, 2047-2057). -/
def writeEnumerable (f : Format K V T) (n : Nat) (c : Codec E T) (xs : List E) : List T := f.counts.write n ++ xs.flatMap c.write

/-- `CCReflectCCHashMapMapper` and `CCReflectSerializeBinary` (ReflectedTypes.c 1685-1709; Reflect.c 1996-2001).  Bytes of a value that were never
written are not defined. -/
def write (cfg : Cfg K) (f : Format K V T) (m : Map K V) : Option (List T) := do
  let ks ← keyList cfg m
  let vs ← valueList cfg m
  let vs ← vs.mapM id
  return writeEnumerable f m.count f.keys ks ++ writeEnumerable f m.count f.values vs

/-- The loop that reads the elements (Reflect.c 2265-2272). -/
def readElements (c : Codec E T) : Nat → List T → Option (List E × List T)
  | 0, ts => some ([], ts)
  | n + 1, ts => do
    let (x, ts) ← c.read ts
    let (xs, ts) ← readElements c n ts
    return (x :: xs, ts)

/-- Reading an enumerable (Reflect.c 2233-2278). -/
def readEnumerable (f : Format K V T) (c : Codec E T) (ts : List T) : Option (List E × List T) := do
  let (n, ts) ← f.counts.read ts
  readElements c n ts

/-- The loop of `CCReflectCCHashMapUnmapper` (ReflectedTypes.c 1726): as long as there is a key and a value. -/
def fill (cfg : Cfg K) : List K → List V → Map K V → Option (Map K V)
  | k :: ks, v :: vs, m => do fill cfg ks vs (← setValue cfg m k (some v))
  | _, _, m => some m

/-- `CCReflectDeserializeBinary` and `CCReflectCCHashMapUnmapper` (Reflect.c 2196-2201; ReflectedTypes.c 1711-1737); `cfg` is given by the type it is
read as. -/
def read (cfg : Cfg K) (f : Format K V T) (ts : List T) : Option (Map K V × List T) := do
  let (ks, ts) ← readEnumerable f f.keys ts
  let (vs, ts) ← readEnumerable f f.values ts
  let m ← fill cfg ks vs create
  return (m, ts)

end Verif.MapStream
