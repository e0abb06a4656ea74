import Verif.EpochGC
import Verif.LazyGC
/-!
# Model of the destruction of garbage collectors

`CCConcurrentGarbageCollectorDestroy` (`ConcurrentGarbageCollector.c`), with the destructors in `EpochGarbageCollector.c` and `LazyGarbageCollector.c`.
The collectors themselves are those of `Verif.EpochGC` and `Verif.LazyGC`; the destructor runs in one thread ("All usage by other threads must have finish before final destruction"), so its loads and drains are one step.
-/
namespace Verif.GCDestroy

/-- `CCEpochGarbageCollectorDrain` (EpochGarbageCollector.c:228-240) and `CCLazyGarbageCollectorDrain` (LazyGarbageCollector.c:201-211): every item of the list is reclaimed, its node freed.  The reclaimed items are
logged with the sections in progress. -/
def drain (active : List Nat) : List Nat → List (Nat × List Nat) → List (Nat × List Nat)
  | [], log => log
  | x :: l, log => drain active l (log ++ [(x, active)])

/-- `CCLazyGarbageCollectorDestructor` (LazyGarbageCollector.c:157-169), called by `CCConcurrentGarbageCollectorDestructor` (ConcurrentGarbageCollector.c:37-40).  Without the thread-specific storage, for which see `Key`.
The list is gone afterwards: the collector is freed. -/
def lazy (y : LazyGC.Sys) : LazyGC.Sys :=
  { y with list := [], reclaimed := drain y.active y.list y.reclaimed }

/-- One round of the loop of `CCEpochGarbageCollectorDestructor` (EpochGarbageCollector.c:172-176); draining also advances the epoch (239), which was just loaded. -/
def epochRound (y : EpochGC.Sys) (loop : Nat) : EpochGC.Sys :=
  { y with list := EpochGC.upd y.list loop [], reclaimed := drain y.active (y.list loop) y.reclaimed, epoch := y.epoch + 1 }

/-- `CCEpochGarbageCollectorDestructor` (EpochGarbageCollector.c:164-179), called by `CCConcurrentGarbageCollectorDestructor` (ConcurrentGarbageCollector.c:37-40). -/
def epoch (y : EpochGC.Sys) : EpochGC.Sys := [0, 1, 2].foldl epochRound y

/-- The thread-specific storage of a collector: the key, and the threads for which a state is allocated. -/
structure Key where
  exists_ : Bool
  states : List Nat

/-- What happens to it: a thread begins a section, a thread ends, the collector is destroyed. -/
inductive Event where
  | begin (thread : Nat)
  | exit (thread : Nat)
  | destroy

/-- `CCEpochGarbageCollectorBegin` (EpochGarbageCollector.c:183-202) and `CCLazyGarbageCollectorBegin` (LazyGarbageCollector.c:173-192) allocate the state of a thread that has none; a thread that ends has its state freed by the destructor
of the key (`CCFree`; EpochGarbageCollector.c:146-150, LazyGarbageCollector.c:142-146), if the key still exists; destroying the collector deletes the key (EpochGarbageCollector.c:166-170, LazyGarbageCollector.c:159-163), which, as C and POSIX
define `tss_delete` and `pthread_key_delete`, calls no destructors.  `none`: the collector is used after it was destroyed. -/
def event (k : Key) : Event → Option Key
  | .begin t => if k.exists_ then some { k with states := if t ∈ k.states then k.states else t :: k.states } else none
  | .exit t => some (if k.exists_ then { k with states := k.states.filter (· ≠ t) } else k)
  | .destroy => if k.exists_ then some { k with exists_ := false } else none

/-- A series of events. -/
def events (k : Key) : List Event → Option Key
  | [] => some k
  | v :: vs => (event k v).bind fun k => events k vs

/-- The constructors (EpochGarbageCollector.c:139-162, LazyGarbageCollector.c:135-155). -/
def Key.new : Key := ⟨true, []⟩

end Verif.GCDestroy
