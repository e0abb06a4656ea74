import Verif.VarIntProps

/-!
# Model of writing and reading descriptions of types (`CommonC/Reflect.c` 1383-1944, `CommonC/ReflectedTypes.c` 195-345)

The descriptors are a graph: `g` gives what is at an address (of type `N`).  What is read is a graph again: its descriptors are in
a heap of their own (`Ref.fresh`), or are those the lookup knows (`Ref.known`).  A failing assertion, a read past the end of the
stream and a null type are `none`, as is running out of `fuel` (theorem `C84_types` has that there is enough).

Simplified: a little endian machine with a `size_t` of 64 bits; what a pointer type has beside its type (the mappers, or the
destructor), and what an opaque type has beside its size, is of any type `X`, and is written and read by functions `enc` and `dec` that
are parameters: in the code they are written as values of the mapped type with its description, by `CCReflectSerializeBinary`.
-/
namespace Verif.TypeGraph

open Verif.VarInt

/-- A field of a struct: `CCReflectStructField` (Reflect.h 128-132), the name being a number. -/
structure Field (α : Type) where
  name : Nat
  offset : Nat
  type : α
  deriving DecidableEq, Repr

/-- The descriptors: `CCReflectPointer` and so on (Reflect.h 73-176), with the members that are written.  `custom` is whether a dynamic pointer
has an allocator of its own. -/
inductive Desc (X α : Type) where
  | pointer (storage own : Nat) (type : α) (custom : Bool) (extra : X)
  | integer (sign fixed : Bool) (endian size : Nat)
  | float (endian size : Nat)
  | struct (size : Nat) (fields : List (Field α))
  | opaque (typeSize : Nat) (extra : X)
  | array (count : Nat) (type : α)
  | validator
  | enumerable (count : Nat) (type : α)
  deriving DecidableEq, Repr

/-- The bytes of a `size_t`. -/
def bytes8 (n : Nat) : List UInt8 := (List.range 8).map fun i => UInt8.ofNat (n / 256 ^ i % 256)

/-- `CCReflectSerializeBinaryVariableLengthIntegerValue(CCReflectEndianNative, &n, sizeof(size_t), FALSE, Stream, Write)`. -/
def putNat (n : Nat) : Option (List UInt8) := writeVar .native false (bytes8 n)

/-- `CCReflectDeserializeBinaryVariableLengthIntegerValue(CCReflectEndianNative, &n, sizeof(size_t), FALSE, Stream, Read)`. -/
def getNat (inp : List UInt8) : Option (Nat × List UInt8) := (readVar .native false 8 inp).map fun r => (value r.1, r.2)

/-- The same with `TRUE` (1632). -/
def putSigned (n : Nat) : Option (List UInt8) := writeVar .native true (bytes8 n)

/-- The same with `TRUE` (1921). -/
def getSigned (inp : List UInt8) : Option (Nat × List UInt8) := (readVar .native true 8 inp).map fun r => (value r.1, r.2)

/-! ## Types that are looked up -/

/-- The byte of a lookup ID (1440-1502); `none` if the type is not to be looked up. -/
def lookupByte (id : Nat) : Option Nat :=
  if id ≤ 127 then some (id ||| 0x80)
  else if id ≤ 127 + 8 then some ((id - 128) ||| 8)
  else if id ≤ 127 + 8 + 12 then
    let id := id - (128 + 8)
    some ((((id + 4) / 4) <<< 2 + id % 4) ||| 0x20)
  else if id ≤ 127 + 8 + 12 + 2 then
    let id := id - (128 + 8 + 12)
    some (id <<< 2 ||| 3)
  else if id ≤ 127 + 8 + 12 + 2 + 5 then
    let id := id - (128 + 8 + 12 + 2)
    if id < 4 then some (id <<< 2 ||| 0x13) else some 0x23
  else none

/-- The lookup ID of a byte (1681-1751); `none` if it starts a description. -/
def lookupID (b : Nat) : Option Nat :=
  if b &&& 0x80 ≠ 0 then some (b ^^^ 0x80)
  else if b >>> 3 = 1 then some ((b &&& 7) + 128)
  else if b >>> 4 = 2 ∧ b &&& 0xc ≠ 0 then
    let b := b &&& 0xf
    some ((b >>> 2 - 1) * 4 + (b &&& 3) + 128 + 8)
  else if b >>> 4 = 0 ∧ b &&& 3 = 3 then some (((b >>> 2) &&& 1) + 128 + 8 + 12)
  else if b >>> 4 = 1 ∧ b &&& 3 = 3 then some (((b >>> 2) &&& 3) + 128 + 8 + 12 + 2)
  else if b >>> 4 = 2 ∧ b &&& 3 = 3 then some (128 + 8 + 12 + 2 + 4)
  else none

/-- `CCReflectSerializeBinaryTypeLookupDefaults` (ReflectedTypes.c 195-278) of the type with the number `i` in the list, or of another type. -/
def defaultsWrite (i : Option Nat) (offset : Nat) : Nat :=
  if offset < 255 then
    match i with
    | some i => if i + offset < 255 then i + offset else 255
    | none => 255
  else 255

/-- The number of `CCReflectTypeLookups` (ReflectedTypes.c 280-334). -/
def defaultsCount : Nat := 53

/-- `CCReflectDeserializeBinaryTypeLookupDefaults` (ReflectedTypes.c 336-348): the number of the type.  `none` is the assertion, `some none` is `NULL`. -/
def defaultsRead (index offset : Nat) : Option (Option Nat) :=
  if offset < 255 ∧ index < 255 then
    let index := (index + offset) % 256
    if index < defaultsCount then some (some index) else none
  else some none

/-! ## Writing -/

section Put
variable {N X : Type} [DecidableEq N]

/-- A type that is referred to: the number it has (`CCDictionaryGetValue(Indexes, ...)`), else the next number and its description
(1515-1526, 1573-1584, 1608-1619, 1634-1645).  `seen` has the types in the order of their numbers: it is `Indexes` and `*Index`
both. -/
def putRef (rec : List N → N → Option (List UInt8 × List N)) (seen : List N) (t : N) : Option (List UInt8 × List N) :=
  if t ∈ seen then (putNat (seen.idxOf t)).map fun a => (a, seen)
  else do
    let a ← putNat seen.length
    let (b, seen) ← rec seen t
    some (a ++ b, seen)

/-- The fields (1569-1585). -/
def putFields (rec : List N → N → Option (List UInt8 × List N)) : List (Field N) → List N → Option (List UInt8 × List N)
  | [], seen => some ([], seen)
  | f :: fs, seen => do
    let a ← putNat f.offset
    let (b, seen) ← putRef rec seen f.type
    let (c, seen) ← putFields rec fs seen
    some (a ++ b ++ c, seen)

/-- What follows the lookup (1505-1649). -/
def putDesc (enc : X → List UInt8) (rec : List N → N → Option (List UInt8 × List N)) (seen : List N) : Desc X N → Option (List UInt8 × List N)
  | .pointer storage own type custom extra => do
    let (a, seen) ← putRef rec seen type
    if storage ≠ 0 ∧ custom then none
    else some (UInt8.ofNat (0 <<< 4 ||| storage <<< 2 ||| own) :: a ++ enc extra, seen)
  | .integer sign fixed endian size => do
    let a ← putNat size
    some (UInt8.ofNat (1 <<< 4 ||| sign.toNat <<< 3 ||| fixed.toNat <<< 2 ||| endian) :: a, seen)
  | .float endian size => do
    let a ← putNat size
    some (UInt8.ofNat (2 <<< 4 ||| endian) :: a, seen)
  | .struct size fields => do
    let a ← putNat size
    let b ← putNat fields.length
    let (c, seen) ← putFields rec fields seen
    some (UInt8.ofNat (3 <<< 4) :: a ++ b ++ c, seen)
  | .opaque typeSize extra => do
    let a ← putNat typeSize
    some (UInt8.ofNat (4 <<< 4) :: a ++ enc extra, seen)
  | .array count type => do
    let a ← putNat count
    let (b, seen) ← putRef rec seen type
    some (UInt8.ofNat (5 <<< 4) :: a ++ b, seen)
  | .validator => none
  | .enumerable count type => do
    let a ← putSigned count
    let (b, seen) ← putRef rec seen type
    some (UInt8.ofNat (7 <<< 4) :: a ++ b, seen)

/-- The byte of a type that is looked up (1427-1503); `look` is `CCReflectSerializeBinaryTypeLookup`, if there is one. -/
def lookedUp (look : Option (N → Nat)) (t : N) : Option Nat := look.bind fun f => lookupByte (f t)

/-- `CCReflectSerializeBinaryTypeData` (1421-1650). -/
def put (g : N → Desc X N) (look : Option (N → Nat)) (enc : X → List UInt8) : Nat → List N → N → Option (List UInt8 × List N)
  | 0, _, _ => none
  | fuel + 1, seen, t =>
    match lookedUp look t with
    | some b => some ([UInt8.ofNat b], seen ++ [t])
    | none => putDesc enc (put g look enc fuel) (seen ++ [t]) (g t)

end Put

/-! ## Reading -/

/-- Where a type that was read is. -/
inductive Ref (N : Type) where
  | known (t : N)
  | fresh (k : Nat)
  deriving DecidableEq, Repr

/-- `Types`, and the zone: a descriptor that is being read is `none`. -/
structure Zone (N X : Type) where
  types : List (Ref N)
  heap : List (Option (Desc X (Ref N)))

section Get
variable {N X : Type}

/-- `CCMemoryZoneAllocate(Zone, ...)` and `CCArrayAppendElement(Types, ...)`. -/
def alloc (z : Zone N X) : Zone N X := ⟨z.types ++ [.fresh z.heap.length], z.heap ++ [none]⟩

/-- The descriptor at `k` is complete.  (The code fills it in while it is being read: nothing looks at it before.) -/
def finish (k : Nat) (d : Desc X (Ref N)) (z : Zone N X) : Zone N X := ⟨z.types, z.heap.set k (some d)⟩

/-- A reference: a number below the number of types is one of these, any other is followed by the description (1768-1771, 1854-1857, 1900-1903,
1923-1926). -/
def getRef (rec : Zone N X → List UInt8 → Option (Ref N × Zone N X × List UInt8)) (z : Zone N X) (inp : List UInt8) :
    Option (Ref N × Zone N X × List UInt8) := do
  let (i, inp) ← getNat inp
  match z.types[i]? with
  | some r => some (r, z, inp)
  | none => rec z inp

/-- The fields (1848-1858): their names are not in the stream. -/
def getFields (rec : Zone N X → List UInt8 → Option (Ref N × Zone N X × List UInt8)) :
    Nat → Zone N X → List UInt8 → Option (List (Field (Ref N)) × Zone N X × List UInt8)
  | 0, z, inp => some ([], z, inp)
  | n + 1, z, inp => do
    let (offset, inp) ← getNat inp
    let (r, z, inp) ← getRef rec z inp
    let (fs, z, inp) ← getFields rec n z inp
    some (⟨0, offset, r⟩ :: fs, z, inp)

/-- What follows the lookup (1754-1933). -/
def getDesc (dec : List UInt8 → Option (X × List UInt8)) (rec : Zone N X → List UInt8 → Option (Ref N × Zone N X × List UInt8)) (b : Nat)
    (z : Zone N X) (inp : List UInt8) : Option (Ref N × Zone N X × List UInt8) :=
  let k := z.heap.length
  match b >>> 4 with
  | 0 => do
    let (r, z, inp) ← getRef rec (alloc z) inp
    let (x, inp) ← dec inp
    some (.fresh k, finish k (.pointer ((b &&& 4) >>> 2) (b &&& 3) r false x) z, inp)
  | 1 => do
    let (size, inp) ← getNat inp
    some (.fresh k, finish k (.integer (b &&& 8 != 0) (b &&& 4 != 0) (b &&& 3) size) (alloc z), inp)
  | 2 => do
    let (size, inp) ← getNat inp
    some (.fresh k, finish k (.float (b &&& 3) size) (alloc z), inp)
  | 3 => do
    let (size, inp) ← getNat inp
    let (count, inp) ← getNat inp
    let (fs, z, inp) ← getFields rec count (alloc z) inp
    some (.fresh k, finish k (.struct size fs) z, inp)
  | 4 => do
    let (size, inp) ← getNat inp
    let (x, inp) ← dec inp
    some (.fresh k, finish k (.opaque size x) (alloc z), inp)
  | 5 => do
    let (count, inp) ← getNat inp
    let (r, z, inp) ← getRef rec (alloc z) inp
    some (.fresh k, finish k (.array count r) z, inp)
  | 7 => do
    let (count, inp) ← getSigned inp
    let (r, z, inp) ← getRef rec (alloc z) inp
    some (.fresh k, finish k (.enumerable count r) z, inp)
  | _ => none

/-- `CCReflectDeserializeBinaryTypeData` (1674-1933); `look` is `CCReflectDeserializeBinaryTypeLookup`, if there is one. -/
def get (look : Option (Nat → Option N)) (dec : List UInt8 → Option (X × List UInt8)) :
    Nat → Zone N X → List UInt8 → Option (Ref N × Zone N X × List UInt8)
  | 0, _, _ => none
  | _ + 1, _, [] => none
  | fuel + 1, z, b :: inp =>
    match look with
    | none => getDesc dec (get look dec fuel) b.toNat z inp
    | some f =>
      match lookupID b.toNat with
      | some id => (f id).map fun t => (.known t, ⟨z.types ++ [.known t], z.heap⟩, inp)
      | none => getDesc dec (get look dec fuel) b.toNat z inp

end Get

/-! ## Strings -/

/-- `CCReflectSerializeBinaryStringValue` (1383-1392), of the bytes of the string. -/
def putString (s : List UInt8) : Option (List UInt8) := (putNat s.length).map (· ++ s)

/-- `CCReflectDeserializeBinaryStringValue` (1394-1406). -/
def getString (inp : List UInt8) : Option (List UInt8 × List UInt8) := do
  let (n, inp) ← getNat inp
  if n ≤ inp.length then some (inp.take n, inp.drop n) else none

end Verif.TypeGraph
