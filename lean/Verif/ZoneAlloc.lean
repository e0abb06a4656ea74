import Verif.Zone
/-!
# Model of the zone and autorelease allocators (`Allocator.c` 279-408)

The two differ only in who keeps the zone alive (`CCRetain`/`CCMemoryZoneDestroy`), which is not modelled; neither is
reallocating into another zone than the one the memory came from.  A byte is a block and an offset in it, as in the model of the
zone; the contents of the bytes are a function.  The header in front of an allocation (`CCZoneMemoryHeader`, `Allocator.c` 282-285) is
kept in `Alloc`; clients do not overwrite it.  A block has `blockSize` bytes of data (`MemoryZone.c` 83, 145).

The outer `none` is a failed assertion or undefined behaviour: an allocation that fails is written to without a test, and
`memcpy` may neither read outside the data of the block nor copy between overlapping ranges.
-/
namespace Verif.ZoneAlloc

open Verif.Zone

/-- An allocation: the pointer the allocator returned, and the size in its header. -/
structure Alloc where
  ptr : Nat × Nat
  size : Nat
  deriving DecidableEq, Repr

/-- The contents of the zone. -/
abbrev Bytes := Nat × Nat → UInt8

/-- `CCMemoryZoneAlignedAllocate(Zone, Size + sizeof(CCZoneMemoryHeader), alignof(max_align_t))` and the pointer
behind the header (`Allocator.c` 292, 297, 331-332). -/
def fresh (Z : Zone) (size : Nat) (env : Option Nat) : Option (Zone × (Nat × Nat)) :=
  match allocAligned Z (size + 16) 16 env with
  | some (Z', some (c, p)) => (addr Z' c).map fun start => (Z', (c.1, c.2 + (p - start) + 16))
  | _ => none

/-- `ZoneAllocator` (`Allocator.c` 287-298), `AutoreleaseAllocator` (354-365). -/
def zoneAlloc (Z : Zone) (size : Nat) (env : Option Nat) : Option (Zone × Alloc) :=
  if size + 16 < Z.blockSize then (fresh Z size env).map fun r => (r.1, ⟨r.2, size⟩) else none

/-- `memcpy` of `n` bytes inside a zone. -/
def copy (m : Bytes) (dst src : Nat × Nat) (n : Nat) : Bytes := fun x =>
  if x.1 = dst.1 ∧ dst.2 ≤ x.2 ∧ x.2 < dst.2 + n then m (src.1, src.2 + (x.2 - dst.2)) else m x

/-- The two ranges have a byte in common. -/
def Overlap (a b : Nat × Nat) (n : Nat) : Prop := a.1 = b.1 ∧ a.2 < b.2 + n ∧ b.2 < a.2 + n

instance (a b : Nat × Nat) (n : Nat) : Decidable (Overlap a b n) := by unfold Overlap; infer_instance

/-- `ZoneReallocator` (`Allocator.c` 300-342), `AutoreleaseReallocator` (367-407).  The block of the pointer is the one
it was allocated in (C51 is about the lookup), and it has no next block exactly if it is the current one. -/
def zoneRealloc (Z : Zone) (m : Bytes) (al : Alloc) (size : Nat) (env : Option Nat) : Option (Zone × Bytes × Alloc) :=
  if ¬ size + 16 < Z.blockSize then none
  else if size ≤ al.size then some (Z, m, al)
  else match Z.blocks with
    | [] => none
    | b :: _ =>
      if b.id = al.ptr.1 ∧ b.offset - al.size = al.ptr.2 ∧ al.ptr.2 + size ≤ Z.blockSize then
        (alloc Z (size - al.size) env).map fun r => (r.1, m, { al with size := size })
      else do
        let (Z', dst) ← fresh Z size env
        if al.ptr.2 + size ≤ Z.blockSize ∧ ¬ Overlap dst al.ptr size then some (Z', copy m dst al.ptr size, ⟨dst, size⟩) else none

end Verif.ZoneAlloc
