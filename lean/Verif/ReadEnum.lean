import Verif.ZoneEnum
/-!
# Model of reading a sequence of elements into a memory zone (`Reflect.c` 2233-2278)

The elements of a serialised sequence of elements (`CCReflectTypeEnumerable`) are read one after the other into memory of
the zone, with the state of the zone saved before and restored after reading each of them, and an enumerable of the zone
is made that is meant to hand them out.  The containers are then filled from that enumerable (`ReflectedTypes.c` 588, 1512-1523,
1571, 1616, 1621, 1726, 1848, 1982).

Copying a sequence of elements (`Reflect.c` 955-977) makes the same calls on the zone with the elements of another
enumerable in place of those of the stream.

The model is about the memory: what reading an element does to the zone is given as the calls it makes.  The bytes of the
stream and of the elements are not modelled here (see `Reflect.lean` for those).
-/
namespace Verif.ReadEnum

open Verif.Zone (Zone Block Op)
open Verif.ZoneEnum (En Addr)

/-- The calls reading an element makes on the zone, one after the other. -/
def work (Z : Zone) : List Op → Option Zone
  | [] => some Z
  | op :: ops => do
    let (Z, _) ← Zone.step Z op
    work Z ops

/-- What happens to the zone while one element is read: the addresses of new blocks for the element and for the saved
state, should they be needed, and the calls made by reading the contents. -/
structure Item where
  env : Option Nat
  envSave : Option Nat
  ops : List Op
deriving DecidableEq, Repr

/-- Reading one element (`Reflect.c` 2253-2257, 2267-2271).  When the zone has no memory for the element NULL is given to
`CCReflectDeserializeBinary`, which asserts that it is not. -/
def element (Z : Zone) (size : Nat) (it : Item) : Option (Zone × (Nat × Nat)) := do
  let (Z, r) ← Zone.alloc Z size it.env
  let c ← r
  let (Z, _) ← Zone.save Z it.envSave
  let Z ← work Z it.ops
  some (Zone.restore Z, c)

/-- The loops over the elements (`Reflect.c` 2246-2260, 2265-2272): both read the elements the stream has and count
them.  The result has the places of the elements. -/
def elements (Z : Zone) (size : Nat) : List Item → Option (Zone × List (Nat × Nat))
  | [] => some (Z, [])
  | it :: its => do
    let (Z, c) ← element Z size it
    let (Z, cs) ← elements Z size its
    some (Z, c :: cs)

/-- The chain of blocks from the first one on. -/
def chain (Z : Zone) : List Block := Z.blocks.reverse

/-- `CCMemoryZoneBlockGetCurrentOffset` of `CCMemoryZoneGetCurrentBlock` (`MemoryZone.h` 221-226, 285-290). -/
def currentOffset (Z : Zone) : Nat :=
  match Z.blocks with
  | [] => 0
  | b :: _ => b.offset

/-- Reading a sequence of elements (`Reflect.c` 2233-2278): the place reached before, the elements, and the enumerable
of as many elements from that place. -/
def read (Z : Zone) (size : Nat) (its : List Item) : Option (Zone × List (Nat × Nat) × En) := do
  let i := Z.blocks.length - 1
  let offset := currentOffset Z
  let (Z', cs) ← elements Z size its
  some (Z', cs, ZoneEnum.getEnumerable (chain Z') i offset size cs.length)

/-- The loop of the unmappers (`ReflectedTypes.c` 588, 1512-1523, 1571, 1616, 1621, 1982): get the current element, then the next
one until there is none.  `fuel` is the number of rounds looked at. -/
def visit (bs : List Block) : Nat → En → Option Addr → Option (List Addr)
  | _, _, none => some []
  | 0, _, some _ => none
  | fuel + 1, e, some a => do
    let (e, r) ← ZoneEnum.next bs e
    let l ← visit bs fuel e r
    some (a :: l)

end Verif.ReadEnum
