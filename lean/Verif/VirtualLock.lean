/-!
# Model of the lock of virtual files and the virtual volume (`FileSystem_Private.h` 129-155)

Any number of threads that read or write data of type `σ` under the lock; every atomic operation on the lock and every access to the data is one step; sequentially consistent.

* `ω` are the changes a writer may make, `app w s` is the data after the change.  Between taking and releasing the lock a writer may leave the data in any intermediate state (`scribble`), and a reader may look
  at the data any number of times.
* The loops that wait (133, 148) change nothing and are not steps; a compare and exchange that fails spuriously is such a wait.
-/
namespace Verif.VirtualLock

/-- `FS_VIRTUAL_FILE_WRITE_FLAG` (FileSystem_Private.h 53) -/
abbrev F : Nat := 0x80000000
/-- 2^32: the lock is a `uint32_t` (FileSystem_Private.h 44) -/
abbrev W : Nat := 0x100000000

/-- A thread. -/
inductive PC (σ ω : Type)
  | idle
  /-- in `FSVirtualReadLock`, counted while the flag was set (131-133).  Not part of the program: `k`, how many writes were complete then -/
  | rwait (k : Nat)
  /-- between `FSVirtualReadLock` and `FSVirtualReadUnlock`; has seen the data `seen`.  Not part of the program: `k`, how many writes were complete when it got the lock -/
  | reading (k : Nat) (seen : List σ)
  /-- in `FSVirtualWriteLock`, to make the change `w` (148) -/
  | wwait (w : ω)
  /-- between `FSVirtualWriteLock` and the end of the change; the data was `s` when it got the lock -/
  | writing (w : ω) (s : σ)
  /-- the change is made, before `FSVirtualWriteUnlock` -/
  | wdone (w : ω)

/-- The lock, the data and the threads.  Not part of the program: `done`, the changes whose writers have released the lock; `got`, for each reader that has released the lock, how many changes were complete when it got the
lock and what it saw; `failed`, whether an assertion of the lock has failed. -/
structure Sys (σ ω : Type) where
  lock : Nat
  data : σ
  thrs : List (PC σ ω)
  done : List ω
  got : List (Nat × List σ)
  failed : Bool

/-- `ATOMIC_VAR_INIT(0)` (167), `n` threads. -/
def init {σ ω : Type} (s : σ) (n : Nat) : Sys σ ω := ⟨0, s, List.replicate n .idle, [], [], false⟩

/-- One step of a thread. -/
inductive Step {σ ω : Type} (app : ω → σ → σ) : Sys σ ω → Sys σ ω → Prop
  /-- `FSVirtualReadLock`, the flag is not set (131) -/
  | readEnter {y : Sys σ ω} {i : Nat} : y.thrs[i]? = some .idle → y.lock &&& F = 0 →
      Step app y { y with lock := (y.lock + 1) % W, thrs := y.thrs.set i (.reading y.done.length []) }
  /-- `FSVirtualReadLock`, the flag is set (131) -/
  | readWait {y : Sys σ ω} {i : Nat} : y.thrs[i]? = some .idle → y.lock &&& F ≠ 0 →
      Step app y { y with lock := (y.lock + 1) % W, thrs := y.thrs.set i (.rwait y.done.length) }
  /-- `FSVirtualReadLock`, the flag is no longer set (133) -/
  | readGo {y : Sys σ ω} {i k : Nat} : y.thrs[i]? = some (.rwait k) → y.lock &&& F = 0 →
      Step app y { y with thrs := y.thrs.set i (.reading y.done.length []) }
  /-- a reader looks at the data -/
  | look {y : Sys σ ω} {i k : Nat} {seen : List σ} : y.thrs[i]? = some (.reading k seen) →
      Step app y { y with thrs := y.thrs.set i (.reading k (seen ++ [y.data])) }
  /-- `FSVirtualReadUnlock` (141-143) -/
  | readUnlock {y : Sys σ ω} {i k : Nat} {seen : List σ} : y.thrs[i]? = some (.reading k seen) →
      Step app y { y with lock := (y.lock + W - 1) % W, thrs := y.thrs.set i .idle, got := y.got ++ [(k, seen)], failed := y.failed || y.lock &&& F != 0 }
  /-- `FSVirtualWriteLock` is called -/
  | writeBegin {y : Sys σ ω} {i : Nat} {w : ω} : y.thrs[i]? = some .idle → Step app y { y with thrs := y.thrs.set i (.wwait w) }
  /-- `FSVirtualWriteLock`, the exchange succeeds (148) -/
  | writeLock {y : Sys σ ω} {i : Nat} {w : ω} : y.thrs[i]? = some (.wwait w) → y.lock = 0 →
      Step app y { y with lock := F, thrs := y.thrs.set i (.writing w y.data) }
  /-- a writer changes the data -/
  | scribble {y : Sys σ ω} {i : Nat} {w : ω} {s : σ} (x : σ) : y.thrs[i]? = some (.writing w s) → Step app y { y with data := x }
  /-- a writer completes its change -/
  | writeDone {y : Sys σ ω} {i : Nat} {w : ω} {s : σ} : y.thrs[i]? = some (.writing w s) →
      Step app y { y with data := app w s, thrs := y.thrs.set i (.wdone w) }
  /-- `FSVirtualWriteUnlock` (152-154) -/
  | writeUnlock {y : Sys σ ω} {i : Nat} {w : ω} : y.thrs[i]? = some (.wdone w) →
      Step app y { y with lock := y.lock ^^^ F, thrs := y.thrs.set i .idle, done := y.done ++ [w], failed := y.failed || y.lock &&& F == 0 }

/-- The states reachable by `n` threads from the data `s`. -/
inductive Reach {σ ω : Type} (app : ω → σ → σ) (s : σ) (n : Nat) : Sys σ ω → Prop
  | init : Reach app s n (init s n)
  | step {y y' : Sys σ ω} : Reach app s n y → Step app y y' → Reach app s n y'

/-- Any number of steps. -/
inductive Steps {σ ω : Type} (app : ω → σ → σ) : Sys σ ω → Sys σ ω → Prop
  | refl {y : Sys σ ω} : Steps app y y
  | step {y y' y'' : Sys σ ω} : Step app y y' → Steps app y' y'' → Steps app y y''

end Verif.VirtualLock
