import Verif.PoolAlloc
/-!
# What a client of a pool allocator relies on (C36)

The client keeps a list of the blocks it holds and the number of its own references to the pool.
-/
namespace Verif.PoolAlloc

/-- The books of the client: blocks it was given and has not freed, and its references to the pool. -/
structure Client where
  live : List Nat
  owners : Nat

namespace Client

/-- The client keeps to the contract: it uses the pool only while it has a reference to it, frees and
reallocates only blocks it holds, and does not hold 2^31 references. -/
def Valid (C : Client) : Op → Prop
  | .alloc _ => 0 < C.owners ∧ C.owners + C.live.length + 1 < 2 ^ 31
  | .realloc b _ => b ∈ C.live
  | .free b => b ∈ C.live
  | .retain => 0 < C.owners ∧ C.owners + C.live.length + 1 < 2 ^ 31
  | .destroy => 0 < C.owners

/-- The books after a call that gave the result `r`. -/
def after (C : Client) : Op → Res → Client
  | .alloc _, .block b => { C with live := b :: C.live }
  | .free b, _ => { C with live := C.live.erase b }
  | .retain, _ => { C with owners := C.owners + 1 }
  | .destroy, _ => { C with owners := C.owners - 1 }
  | _, _ => C

/-- The results a client may see, for a pool of `max` blocks of `blockSize` bytes (32 of which are
headers). -/
def Permitted (blockSize max : Nat) (C : Client) : Op → Res → Prop
  | .alloc s, .block b => s.toNat + 32 ≤ blockSize ∧ C.live.length < max ∧ b ∉ C.live ∧ b < max
  | .alloc s, .null => blockSize < s.toNat + 32 ∨ C.live.length = max
  | .realloc b s, .block b' => b' = b ∧ s.toNat + 32 ≤ blockSize
  | .realloc _ s, .null => blockSize < s.toNat + 32
  | .free _, .unit => True
  | .retain, .unit => True
  | .destroy, .unit => True
  | _, _ => False

end Client

/-- Histories: a pool was created, and the client made calls that keep to the contract. -/
inductive Reach (blockSize max : Nat) : Pool → Client → Prop
  | create : Reach blockSize max (create blockSize max) { live := [], owners := 1 }
  | call {P P' : Pool} {C : Client} {op : Op} {r : Res} :
      Reach blockSize max P C → C.Valid op → step P op = some (P', r) → Reach blockSize max P' (C.after op r)

end Verif.PoolAlloc
