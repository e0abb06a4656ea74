import Verif.HashMap
import Verif.HashMapSpec
/-!
# Model of the dictionary over the hash map

`CommonC/Dictionary.c` with `CommonC/DictionaryHashMap.c`, the only implementation of the dictionary interface.

Simplifications: those of `Verif/HashMap.lean`.  The destructor callbacks are a log of what they are called with: `klog` keys, `vlog` the value bytes (`none`: bytes never written).
The growth test `CCHashMapGetLoadFactor(Internal) >= 0.75f` (DictionaryHashMap.c:135, 170) is a parameter `full`, a function of the item count and the bucket count: no property below depends
on float arithmetic.  `none` is undefined behaviour or a failed assertion.
-/
namespace Verif.Dictionary
open Verif.BitTricks (U64)
open Verif.HashMap (Cfg Map)
open Verif.HashMap.Spec (Op)

/-- `CCDictionaryInfo` (Dictionary.h) reduced to the map, whether the two destructor callbacks are set, and the logs. -/
structure Dict (K V : Type) where
  cfg : Cfg K
  m : Map K V
  kd : Bool
  vd : Bool
  klog : List K
  vlog : List (Option V)

/-- `BucketSizes` (DictionaryHashMap.c:71-82). -/
def bucketSizes : List Nat :=
  [3, 6, 11, 19, 32, 52, 85, 118,
   155, 237, 390, 672, 1065, 1732, 2795, 4543,
   7391, 12019, 19302, 31324, 50629, 81956, 132580, 214215,
   346784, 561026, 907847, 1468567, 2376414, 3844982, 6221390, 10066379,
   16287773, 26354132, 42641916, 68996399, 111638327, 180634415, 292272755, 472907503]

/-- The search for the next bucket count (DictionaryHashMap.c:137-145, 172-180). -/
def nextSize (c : Nat) : Nat := (bucketSizes.find? fun n => decide (n > c)).getD c

variable {K V : Type}

/-- `CCDictionaryCreateWithImplementation` (Dictionary.c:146-179); the bucket count of the map is 3, 118 or 1065 depending on the hint (DictionaryHashMap.c:109-123). -/
def create (cfg : Cfg K) (kd vd : Bool) : Dict K V := ⟨cfg, HashMap.create, kd, vd, [], []⟩

/-- Growing before an insertion (DictionaryHashMap.c:135-148, 170-183). -/
def grow (full : Nat → Nat → Bool) (d : Dict K V) : Option (Dict K V) :=
  if full d.m.count d.cfg.c then do
    let (cfg', m') ← HashMap.rehash d.cfg d.m (nextSize d.cfg.c)
    return { d with cfg := cfg', m := m' }
  else some d

/-- `CCDictionaryEntryForKey` (Dictionary.c:238-243, DictionaryHashMap.c:133-151). -/
def entryForKey (full : Nat → Nat → Bool) (d : Dict K V) (k : K) : Option (Dict K V × U64) := do
  let d ← grow full d
  let (m', e, _) ← HashMap.entryForKey d.cfg d.m k
  return ({ d with m := m' }, e)

/-- `CCDictionaryFindKey` (Dictionary.c:254-259). -/
def findKey (d : Dict K V) (k : K) : Option U64 := HashMap.findKey d.cfg d.m k

/-- The call of the value destructor on a (non-null) entry, if there is a destructor and the entry is initialised (Dictionary.c:194, 206, 131-138). -/
def destroyValue (d : Dict K V) (e : U64) : Option (Dict K V) :=
  if d.vd then do
    let i ← HashMap.entryIsInitialized d.cfg d.m e
    if i then do
      let v ← HashMap.getEntry d.cfg d.m e
      let v ← v
      return { d with vlog := d.vlog ++ [v] }
    else return d
  else some d

/-- The call of the key destructor on a (non-null) entry (Dictionary.c:205). -/
def destroyKey (d : Dict K V) (e : U64) : Option (Dict K V) :=
  if d.kd then do
    let k ← HashMap.getKey d.cfg d.m e
    let k ← k
    return { d with klog := d.klog ++ [k] }
  else some d

/-- `CCDictionarySetEntry` (Dictionary.c:188-197). -/
def setEntry (d : Dict K V) (e : U64) (v : V) : Option (Dict K V) :=
  if e = 0 then some d
  else do
    let d ← destroyValue d e
    return { d with m := ← HashMap.setEntry d.cfg d.m e (some v) }

/-- `CCDictionaryRemoveEntry` (Dictionary.c:199-209). -/
def removeEntry (d : Dict K V) (e : U64) : Option (Dict K V) :=
  if e = 0 then some d
  else do
    let d ← destroyKey d e
    let d ← destroyValue d e
    return { d with m := ← HashMap.removeEntry d.cfg d.m e }

/-- `CCDictionarySetValue` (Dictionary.c:211-224, DictionaryHashMap.c:168-186). -/
def setValue (full : Nat → Nat → Bool) (d : Dict K V) (k : K) (v : V) : Option (Dict K V) :=
  if d.vd then do
    let (d, e) ← entryForKey full d k
    if e = 0 then none else setEntry d e v
  else do
    let d ← grow full d
    return { d with m := ← HashMap.setValue d.cfg d.m k (some v) }

/-- `CCDictionaryRemoveValue` (Dictionary.c:226-236). -/
def removeValue (d : Dict K V) (k : K) : Option (Dict K V) :=
  if !d.kd && !d.vd then do
    return { d with m := ← HashMap.removeValue d.cfg d.m k }
  else do
    removeEntry d (← findKey d k)

/-- The key destructor in the loop of the destructor gets the key the enumerator stands on (Dictionary.c:128-130). -/
def destroyLoop (d : Dict K V) : Nat → U64 → Option (Dict K V)
  | 0, _ => none
  | fuel + 1, e => do
    match ← HashMap.getKey d.cfg d.m e with
    | none => return d
    | some k =>
      let d ← destroyValue (if d.kd then { d with klog := d.klog ++ [k] } else d) e
      destroyLoop d fuel (← HashMap.nextEntry d.cfg d.m e)

/-- `CCDictionaryDestructor` (Dictionary.c:121-144); the loop runs at most once per item, and once more to see the end (`fuel`). -/
def destroy (d : Dict K V) : Option (Dict K V) :=
  if d.kd || d.vd then do
    destroyLoop d (d.m.count + 1) (← HashMap.headEntry d.cfg d.m)
  else some d

/-- The API calls behind the edits of the specification. -/
def exec (full : Nat → Nat → Bool) (d : Dict K V) : Op K V → Option (Dict K V)
  | .set k v => setValue full d k v
  | .create k => (entryForKey full d k).map (·.1)
  | .setEntry k v => do setEntry d (← findKey d k) v
  | .createSet k v => do
    let (d, e) ← entryForKey full d k
    setEntry d e v
  | .remove k => removeValue d k
  | .removeEntry k => do removeEntry d (← findKey d k)

end Verif.Dictionary
