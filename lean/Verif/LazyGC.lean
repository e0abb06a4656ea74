/-!
# Model of the lazy garbage collector (`LazyGarbageCollector.c`)

Any number of threads; every successful update of the shared pair (list, reference count) is one step; sequentially consistent.

* The compare-and-exchange loops (196-198, 224-227, 234-236) are one step, the successful exchange: failed rounds change only the `next` of the thread's own last node.  When the exchange succeeds the list starting at the compared pointer is
the current list, even if the address was freed and used again in between.
* The list of nodes is the list of its items.  An item is identified by the number of items handed over before it.
* The count has `w` values (`w = 2^32`).
* Failing allocations (178-187, 244) are not modelled: the code then continues with null pointers.
-/
namespace Verif.LazyGC

/-- A thread: outside; in a section (`sec` its number, not part of the program) with the items it handed over, newest first (`Local`, 128-131); or reclaiming a list (201-211). -/
inductive PC
  | out
  | inside (sec : Nat) (loc : List Nat)
  | drain (l : List Nat)
deriving DecidableEq, Repr

/-- The shared pair and the threads.  Not part of the program: `secs`, the number of sections begun so far; `managed`, for each item handed over the sections in progress at that moment; `reclaimed`, the reclaimed items, each with the sections in progress at that moment. -/
structure Sys where
  list : List Nat
  rc : Nat
  thrs : List PC
  secs : Nat
  managed : List (List Nat)
  reclaimed : List (Nat × List Nat)

/-- The constructor (135-155); `n` threads. -/
def init (n : Nat) : Sys := ⟨[], 0, List.replicate n .out, 0, [], []⟩

/-- The section a thread is in. -/
def PC.sec? : PC → Option Nat
  | .inside s _ => some s
  | _ => none

/-- The sections in progress. -/
def Sys.active (y : Sys) : List Nat := y.thrs.filterMap PC.sec?

/-- One step of a thread. -/
inductive Step (w : Nat) : Sys → Sys → Prop
  /-- `Begin` (171-199) -/
  | begin {y : Sys} {i : Nat} : y.thrs[i]? = some .out →
      Step w y { y with rc := (y.rc + 1) % w, thrs := y.thrs.set i (.inside y.secs []), secs := y.secs + 1 }
  /-- `Manage` (242-255) -/
  | manage {y : Sys} {i s : Nat} {loc : List Nat} : y.thrs[i]? = some (.inside s loc) →
      Step w y { y with thrs := y.thrs.set i (.inside s (y.managed.length :: loc)), managed := y.managed ++ [y.active] }
  /-- `End` (213-240): others remain; the items of the thread are put before the list (222-227), or the list stays if there are none (232-236) -/
  | leave {y : Sys} {i s : Nat} {loc : List Nat} : y.thrs[i]? = some (.inside s loc) → y.rc ≠ 1 →
      Step w y { y with list := if loc = [] then y.list else loc ++ y.list, rc := (y.rc + w - 1) % w, thrs := y.thrs.set i .out }
  /-- `End` (213-240): the last one takes the list, and drains it (229, 238) -/
  | last {y : Sys} {i s : Nat} {loc : List Nat} : y.thrs[i]? = some (.inside s loc) → y.rc = 1 →
      Step w y { y with list := [], rc := (y.rc + w - 1) % w, thrs := y.thrs.set i (.drain (if loc = [] then y.list else loc ++ y.list)) }
  /-- `Drain`: an item is reclaimed (205-209) -/
  | reclaim {y : Sys} {i x : Nat} {l : List Nat} : y.thrs[i]? = some (.drain (x :: l)) →
      Step w y { y with thrs := y.thrs.set i (.drain l), reclaimed := y.reclaimed ++ [(x, y.active)] }
  /-- `Drain`: the end of the list (203) -/
  | drained {y : Sys} {i : Nat} : y.thrs[i]? = some (.drain []) → Step w y { y with thrs := y.thrs.set i .out }

/-- The states reachable by `n` threads. -/
inductive Reach (w n : Nat) : Sys → Prop
  | init : Reach w n (init n)
  | step {y y' : Sys} : Reach w n y → Step w y y' → Reach w n y'

end Verif.LazyGC
