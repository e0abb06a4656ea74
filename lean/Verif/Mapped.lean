import Verif.BigIntText
import Verif.BigIntFast
import Verif.Str
import Verif.VarInt
import Verif.Rle
/-!
# Model of how strings and big integers are mapped for serialisation (`CommonC/ReflectedTypes.c` 482-546, 573-777)

What the mapper hands to `CCReflectSerializeBinary` is an array, which is written element by element with the integer
encoding of `Reflect.c` (`VarInt.lean`); the reader gets the array back and hands it to the unmapper.  Simplified: the
description of the mapped type, which is written in front (C84), is left out, the number of elements being known to the reader
from it; the reader's buffer has just the bytes of the array, followed by the bytes `rest` of the zone; allocations succeed; the
list of components is appended to one by one (`PList.lean`).  Null handles are mapped to a null pointer or the number 0, which
is not modelled.
-/
namespace Verif.Mapped

open Verif.BigInt (BI W)
open Verif.BigIntFast (Fast)
open Verif.VarInt (Endian writeInt readInt)
open Verif.Rle (le ofLe)

/-! ## Big integers -/

/-- The loop of `CCBigIntMapper` (587-597) over the components from some component on, with `Remainder`. -/
def mapLoop : List Nat → Nat → List Nat
  | [], r => if r ≠ 0 then [r] else []
  | c :: cs, r => ((c <<< 1) % W ||| r) :: mapLoop cs (c >>> 63)

/-- `CCBigIntMapper` for serialising (580-600): the elements of the array. -/
def mapBig (b : BI) : List Nat := mapLoop b.comps (if b.sign then 1 else 0)

/-- The number of elements of the buffer that the mapper allocates (583). -/
def mapBuffer (b : BI) : Nat := b.comps.length + 1

/-- The loop of `CCBigIntUnmapper` (638-650) over the elements from `Loop` on, with `Component`. -/
def unmapLoop : List Nat → Nat → List Nat
  | [], c => if c ≠ 0 then [c] else []
  | d :: ds, c => (c ||| (d &&& 1) <<< 63) :: unmapLoop ds (d >>> 1)

/-- `CCBigIntUnmapper` of an array (628-655).  Without elements the first one is read outside of the array. -/
def unmapBig : List Nat → Option BI
  | [] => none
  | d :: ds => some ⟨(d &&& 1) ≠ 0, unmapLoop ds (d >>> 1)⟩

/-- What `CCBigIntFastMapper` hands over for serialising (686-714): the word of a tagged integer as a number, or an array. -/
inductive FastMap where
  | word (w : Nat)
  | array (ds : List Nat)
  deriving DecidableEq, Repr

/-- `CCBigIntFastMapper` for serialising (686-714). -/
def mapFast : Fast → FastMap
  | .tagged bits => .word bits.toNat
  | .big b => .array (mapBig b)

/-- `CCBigIntFastUnmapper` (726-777): a number is the word of the integer, an array becomes a big integer. -/
def unmapFast : FastMap → Option Fast
  | .word w => some (.tagged (BitVec.ofNat 64 w))
  | .array ds => match unmapBig ds with
    | some b => some (.big b)
    | none => none

/-! ## Numbers in the stream -/

/-- `CCReflectSerializeBinary` of the elements of the mapped array (Reflect.c 2010-2021, 1985-1987): numbers of `n` bytes,
unsigned: `CC_REFLECT(uint64_t)` has a fixed width, `CC_REFLECT(unsigned char)` not (ReflectedTypes.c 365-400). -/
def writeAll (n : Nat) (fixed : Bool) (prefer : Nat) (se : Endian) : List Nat → Option (List UInt8)
  | [] => some []
  | d :: ds => do
    let out ← writeInt .native (le n d) false fixed prefer se
    let outs ← writeAll n fixed prefer se ds
    some (out ++ outs)

/-- `CCReflectDeserializeBinary` of an array of `count` numbers (Reflect.c 2214-2226, 2182-2184). -/
def readAll (n : Nat) (fixed : Bool) (prefer : Nat) (se : Endian) : Nat → List UInt8 → Option (List Nat × List UInt8)
  | 0, inp => some ([], inp)
  | count + 1, inp => do
    let (xs, inp) ← readInt .native n false fixed prefer se inp
    let (ds, inp) ← readAll n fixed prefer se count inp
    some (ofLe xs :: ds, inp)

/-- Serialising a big integer, and reading it back from the stream. -/
def storeBig (prefer : Nat) (se : Endian) (b : BI) (rest : List UInt8) : Option (BI × List UInt8) := do
  let out ← writeAll 8 true prefer se (mapBig b)
  let (ds, inp) ← readAll 8 true prefer se (mapBig b).length (out ++ rest)
  let b' ← unmapBig ds
  some (b', inp)

/-- The stream between a mapped integer and its reader. -/
def storeFast (prefer : Nat) (se : Endian) (f : Fast) (rest : List UInt8) : Option (Fast × List UInt8) :=
  match mapFast f with
  | .word w => do
    let out ← writeAll 8 true prefer se [w]
    let (ds, inp) ← readAll 8 true prefer se 1 (out ++ rest)
    let f' ← unmapFast (.word (ds.headD 0))
    some (f', inp)
  | .array ds => do
    let out ← writeAll 8 true prefer se ds
    let (ds, inp) ← readAll 8 true prefer se ds.length (out ++ rest)
    let f' ← unmapFast (.array ds)
    some (f', inp)

/-! ## Strings -/

section
variable (M : Str.Maps)

/-- `CC_STRING_TEMP_BUFFER` (CCString.h 69-74, CCString.c 874-879): the readable bytes of the buffer. -/
def tempBuffer (s : Str.Str) : Option (List Nat) :=
  match s with
  | .info i => if i.unsafeBuf then do
      let n ← Str.getLength M s
      let bs ← Str.copyCharacters M s 0 n
      some (bs ++ [0])
    else some i.bytes
  | .tagged _ => do
    let n ← Str.getLength M s
    let bs ← Str.copyCharacters M s 0 n
    some (bs ++ [0])

/-- `CCStringMapper` for serialising (520-528): the bytes of the array.  Reading outside of the buffer is `none`. -/
def mapStr (s : Str.Str) : Option (List Nat) := do
  let buf ← tempBuffer M s
  let n ← Str.getLength M s
  if n ≤ buf.length then some (buf.take n) else none

/-- `CCStringUnmapper` of an array (531-541) that is followed by `rest`. -/
def unmapStr (bs rest : List Nat) : Option Str.Str := Str.createWithSize M .utf8 .copy none (bs ++ rest) bs.length

/-- Serialising a string, and reading it back from the stream; `junk` is what follows the array in the zone. -/
def storeStr (prefer : Nat) (se : Endian) (s : Str.Str) (junk : List Nat) (rest : List UInt8) : Option (Str.Str × List UInt8) := do
  let bs ← mapStr M s
  let out ← writeAll 1 false prefer se bs
  let (ds, inp) ← readAll 1 false prefer se bs.length (out ++ rest)
  let s' ← unmapStr M ds junk
  some (s', inp)

end

end Verif.Mapped
