/-!
# Model of the concurrent buffer (`ConcurrentBuffer.c`)

Any number of threads; every atomic operation is one step; sequentially consistent.  A datum is a number, `none` is `NULL`.  The buffer has a destructor callback or not (`dtor`).
-/
namespace Verif.ConcBuffer

/-- Where a thread is: outside, or in `CCConcurrentBufferWriteData` between the exchange (73) and the destructor call (76). -/
inductive PC
  | idle
  | replaced (old : Option Nat)
deriving DecidableEq, Repr

/-- The buffer and the threads.  Not part of the program: `written`, the data given to the buffer so far; `returned`, those returned by a swap or read; `destroyed`, the arguments of the destructor calls;
`dropped`, the data replaced by a write when there is no destructor; `alive`, whether the buffer has not been destroyed. -/
structure Sys where
  data : Option Nat
  thrs : List PC
  written : List Nat
  returned : List Nat
  destroyed : List (Option Nat)
  dropped : List Nat
  alive : Bool

/-- `CCConcurrentBufferCreate` (45-60); `n` threads. -/
def init (n : Nat) : Sys := ⟨none, List.replicate n .idle, [], [], [], [], true⟩

/-- One step of a thread. -/
inductive Step (dtor : Bool) : Sys → Sys → Prop
  /-- `CCConcurrentBufferWriteData`: the exchange (73) -/
  | write {y : Sys} {i : Nat} (d : Option Nat) : y.alive = true → y.thrs[i]? = some .idle →
      Step dtor y { y with data := d, written := y.written ++ d.toList, thrs := y.thrs.set i (.replaced y.data) }
  /-- `CCConcurrentBufferWriteData`: the test and the destructor call (74-77) -/
  | finish {y : Sys} {i : Nat} {old : Option Nat} : y.alive = true → y.thrs[i]? = some (.replaced old) →
      Step dtor y { y with thrs := y.thrs.set i .idle,
                           destroyed := y.destroyed ++ (if dtor && old.isSome then [old] else []),
                           dropped := y.dropped ++ (if dtor then [] else old.toList) }
  /-- `CCConcurrentBufferWriteDataSwap` (80-85), and `CCConcurrentBufferReadData` (87-90) for `d = NULL` -/
  | swap {y : Sys} {i : Nat} (d : Option Nat) : y.alive = true → y.thrs[i]? = some .idle →
      Step dtor y { y with data := d, written := y.written ++ d.toList, returned := y.returned ++ y.data.toList }
  /-- `CCConcurrentBufferDestructor` (37-43), when nobody uses the buffer any more -/
  | destroy {y : Sys} : y.alive = true → (∀ t ∈ y.thrs, t = .idle) →
      Step dtor y { y with alive := false, destroyed := y.destroyed ++ (if dtor then [y.data] else []) }

/-- The states reachable by `n` threads. -/
inductive Reach (dtor : Bool) (n : Nat) : Sys → Prop
  | init : Reach dtor n (init n)
  | step {y y' : Sys} : Reach dtor n y → Step dtor y y' → Reach dtor n y'

end Verif.ConcBuffer
