import Verif.ZoneEnum
/-!
# What a client of a zone enumerable relies on (C59)
-/
namespace Verif.ZoneEnum.Spec

open Verif.Zone (Block)
open Verif.Enumerable (Call)

/-- The items of size `stride` lying wholly inside the blocks: in the first block from offset `k` on, in each of the
following blocks from its beginning. -/
def itemsFrom (stride : Nat) : Nat → List Block → Nat → List Addr
  | _, [], _ => []
  | j, b :: bs, k =>
    ((List.range ((b.offset - k) / stride)).map fun n => (j, k + n * stride)) ++ itemsFrom stride (j + 1) bs 0

/-- The items from offset `k` of block `i`, at most `limit` of them. -/
def items (bs : List Block) (i k stride limit : Nat) : List Addr := (itemsFrom stride i (bs.drop i) k).take limit

/-- The answers of a cursor in the items the zone has at the time of each call. -/
def run (i k stride limit : Nat) (bs : List Block) (pos : Nat) : List Ev → List (Option Addr)
  | [] => []
  | .call c :: evs =>
    (Enumerable.Spec.step (items bs i k stride limit) pos c).2 ::
      run i k stride limit bs (Enumerable.Spec.step (items bs i k stride limit) pos c).1 evs
  | .grow n :: evs => run i k stride limit (growLast n bs) pos evs
  | .add b :: evs => run i k stride limit (bs ++ [b]) pos evs

/-- A history the enumerable copes with.  `fresh` says that the client has reached the end (asked for the tail, or was
told that there is no next item) since the last block was last extended.
* the last block is extended only as long as the zone holds no more items than were asked for;
* a block is added only when the client is at that point, and the new block holds an item. -/
def Careful (i k stride limit : Nat) (bs : List Block) (pos : Nat) (fresh : Bool) : List Ev → Prop
  | [] => True
  | .call c :: evs =>
    let s := Enumerable.Spec.step (items bs i k stride limit) pos c
    Careful i k stride limit bs s.1 (fresh || c = .tail || (c = .next && s.2.isNone)) evs
  | .grow n :: evs =>
    (itemsFrom stride i ((growLast n bs).drop i) k).length ≤ limit ∧ Careful i k stride limit (growLast n bs) pos false evs
  | .add b :: evs => fresh = true ∧ stride ≤ b.offset ∧ Careful i k stride limit (bs ++ [b]) pos fresh evs

end Verif.ZoneEnum.Spec
