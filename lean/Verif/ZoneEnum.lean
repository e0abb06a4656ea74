import Verif.Zone
import Verif.EnumerableProps
/-!
# Model of the enumerable of a memory zone (`MemoryZone.c` 245-352)

The chain is given from the first block on (the direction of the `next` pointers); a block is named by its position in
the chain and an address is a block and an offset in its data.  `size_t` values are natural numbers, except that
`count - 1` wraps; the other sums are bounded by the number of bytes of the zone.

The outer `none` is undefined behaviour: following a NULL block, or a `while` loop that would not have ended after more
rounds than there are blocks.
-/
namespace Verif.ZoneEnum

open Verif.Zone (Block)
open Verif.Enumerable (Call dec)

/-- An address: a block and an offset in its data. -/
abbrev Addr := Nat × Nat

/-- `CCEnumerator` in the batch format (`Enumerator.h` 40-68) as the zone uses it: `ref` is the block, `base` the
offset of `batch.ptr` in the data of that block, `before` and `limit` are `batch.extra[0]` and `batch.extra[1]`. -/
structure En where
  ref : Option Nat
  base : Nat
  count : Nat
  stride : Nat
  index : Nat
  before : Nat
  limit : Nat
  deriving DecidableEq, Repr

/-- `batch.ptr + index * stride`.  With the block NULL the count is 0 and the expression is not reached. -/
def at_ (e : En) : Option Addr := e.ref.map fun j => (j, e.base + e.index * e.stride)

/-- The end of the handler (`MemoryZone.c` 324-326). -/
def finish (e : En) : Option Addr := if e.index ≥ e.count then none else at_ e

/-- `CCMemoryZoneEnumerableHandler` for `CCEnumerableActionNext` (`MemoryZone.c` 259-293). -/
def hNext (bs : List Block) (e : En) : Option (En × Option Addr) :=
  if e.before + e.count = e.limit then some (e, none)
  else do
    let j ← e.ref
    let b ← bs[j]?
    match bs[j + 1]? with
    | some b' =>
      let before := e.before + e.count
      let e := { e with before := before, ref := some (j + 1), base := 0, index := 0,
                        count := min (b'.offset / e.stride) (e.limit - before) }
      some (e, finish e)
    | none =>
      if b.offset / e.stride = e.count then some (e, none)
      else
        let e := { e with count := b.offset / e.stride, index := e.index + 1 }
        some (e, finish e)

/-- `CCMemoryZoneEnumerableHandler` for `CCEnumerableActionPrevious` (`MemoryZone.c` 295-319).  The first block of
the zone has no block before it: undefined. -/
def hPrevious (bs : List Block) (e : En) : Option (En × Option Addr) :=
  if e.before = 0 then some (e, none)
  else do
    let j ← e.ref
    if j = 0 then none
    else
      let b ← bs[j - 1]?
      let count := b.offset / e.stride
      let base := if e.before < count then (count - e.before) * e.stride else 0
      let count := if e.before < count then e.before else count
      let e := { e with ref := some (j - 1), base := base, count := count, index := dec count, before := e.before - count }
      some (e, finish e)

/-- The loop of `CCEnumerableActionHead` (`MemoryZone.c` 250). -/
def headLoop (bs : List Block) : Nat → En → Option En
  | 0, _ => none
  | fuel + 1, e => do
    let (e, r) ← hPrevious bs e
    match r with
    | none => some e
    | some _ => headLoop bs fuel e

/-- The loop of `CCEnumerableActionTail` (`MemoryZone.c` 255). -/
def tailLoop (bs : List Block) : Nat → En → Option En
  | 0, _ => none
  | fuel + 1, e => do
    let (e, r) ← hNext bs e
    match r with
    | none => some e
    | some _ => tailLoop bs fuel e

/-- `CCEnumerableGetHead` (`Enumerable.h` 161-164, `MemoryZone.c` 249-252, 324-326). -/
def getHead (bs : List Block) (e : En) : Option (En × Option Addr) := do
  let e ← headLoop bs (bs.length + 2) e
  let e := { e with index := 0 }
  some (e, finish e)

/-- `CCEnumerableGetTail` (`Enumerable.h` 166-169, `MemoryZone.c` 254-257, 324-326). -/
def getTail (bs : List Block) (e : En) : Option (En × Option Addr) := do
  let e ← tailLoop bs (bs.length + 2) e
  let e := { e with index := dec e.count }
  some (e, finish e)

/-- `CCEnumerableGetCurrent` in the batch format (`Enumerable.h` 151-152). -/
def current (e : En) : Option Addr := if e.count ≠ 0 then at_ e else none

/-- `CCEnumerableNext` in the batch format (`Enumerable.h` 180-183, 194). -/
def next (bs : List Block) (e : En) : Option (En × Option Addr) :=
  if e.count = 0 then some (e, none)
  else if e.index + 1 < e.count then
    let e := { e with index := e.index + 1 }
    some (e, at_ e)
  else hNext bs e

/-- `CCEnumerablePrevious` in the batch format (`Enumerable.h` 206-209, 220). -/
def previous (bs : List Block) (e : En) : Option (En × Option Addr) :=
  if e.count = 0 then some (e, none)
  else if e.index > 0 then
    let e := { e with index := e.index - 1 }
    some (e, at_ e)
  else hPrevious bs e

/-- The calls on an enumerable. -/
def step (bs : List Block) (e : En) : Call → Option (En × Option Addr)
  | .current => some (e, current e)
  | .head => getHead bs e
  | .tail => getTail bs e
  | .next => next bs e
  | .previous => previous bs e

/-- `CCMemoryZoneBlockGetPointer` (`MemoryZone.h` 236-267) with the positions of the blocks: the block, the offset in it
and the readable size.  `j` is the position of the first block of the list. -/
def locate : Nat → List Block → Nat → Option (Nat × Nat × Nat)
  | _, [], _ => none
  | j, b :: bs, k => if k < b.offset then some (j, k, b.offset - k) else locate (j + 1) bs (k - b.offset)

/-- `CCMemoryZoneBlockGetEnumerable` (`MemoryZone.c` 329-352) from block `i` of the chain.  The division by a zero
stride is a precondition. -/
def getEnumerable (bs : List Block) (i offset stride count : Nat) : En :=
  match locate i (bs.drop i) offset with
  | some (j, k, size) => ⟨some j, k, min (size / stride) count, stride, 0, 0, count⟩
  | none => ⟨none, 0, min (0 / stride) count, stride, 0, 0, count⟩

/-- What happens while enumerating: calls, and allocations that extend the last block or add a block
(`CCMemoryZoneAllocate`, `MemoryZone.c` 129-164). -/
inductive Ev
  | call (c : Call)
  | grow (bytes : Nat)
  | add (b : Block)
  deriving DecidableEq, Repr

/-- The last block is extended. -/
def growLast (k : Nat) : List Block → List Block
  | [] => []
  | [b] => [{ b with offset := b.offset + k }]
  | b :: c :: bs => b :: growLast k (c :: bs)

/-- The chain after an event. -/
def chain (bs : List Block) : Ev → List Block
  | .call _ => bs
  | .grow k => growLast k bs
  | .add b => bs ++ [b]

/-- The answers to the calls of a history. -/
def run (bs : List Block) (e : En) : List Ev → Option (List (Option Addr))
  | [] => some []
  | .call c :: evs => do
    let (e, r) ← step bs e c
    let rs ← run bs e evs
    some (r :: rs)
  | .grow k :: evs => run (growLast k bs) e evs
  | .add b :: evs => run (bs ++ [b]) e evs

end Verif.ZoneEnum
