/-!
# Model of the epoch garbage collector (`EpochGarbageCollector.c`)

Any number of threads; every load of the epoch or of one of the three shared pairs (list, reference count), and every successful update of them, is one step; sequentially consistent.

* The compare-and-exchange loops (210-212, 219-224, 255-258, 263-265, 285-287, 292-295, 302-307) are one step, the successful exchange: failed rounds change nothing shared.  When the exchange succeeds, the list starting at the compared pointer
is the current list, even if its address was freed and used again in between.
* The exchange that takes the stale list (273) may succeed in the model whenever the count is 0, without comparing the list with the one loaded before (269); and it may fail at any time.  These are more behaviours than the code has.
* The list of nodes is the list of its items.  An item is identified by the number of items handed over before it.
* Each count has `w` values (`w = 2^32`).  The epoch is a natural number: its wrap after `2^64` advances is not modelled.
* Failing allocations (191-194, 316) are not modelled: the code then continues with null pointers.
-/
namespace Verif.EpochGC

/-- The slot used by threads that begin in epoch `g` (206, 283). -/
def slot (g : Nat) : Nat := (g + 2) % 3

/-- A thread.  `sec`, the number of the section it is in, is not part of the program. -/
inductive PC
  | out
  /-- `Begin`: loaded the epoch (204, 217) -/
  | b1 (g : Nat)
  /-- `Begin`: counted itself in (210-212) -/
  | b2 (g : Nat)
  /-- `Begin`: the epoch had changed to `g'` (214-217) -/
  | b3 (g g' : Nat)
  /-- in a section, with the items it handed over, newest first (`LocalEpoch`, 131-135, its slot is `slot g`) -/
  | inside (sec g : Nat) (loc : List Nat)
  /-- `End`: loaded the epoch (249) -/
  | e1 (sec g : Nat) (loc : List Nat) (G : Nat)
  /-- `End`: counted itself out (253-266) -/
  | e2 (G : Nat)
  /-- `End`: the stale slot has no participants (269-270) -/
  | e3 (G : Nat)
  /-- `End`: neither has the next one (272-273) -/
  | e4 (G : Nat)
  /-- `End`: took the stale list (273) -/
  | e5 (G : Nat) (l : List Nat)
  /-- `Drain` (228-240) -/
  | dr (G : Nat) (l : List Nat)
  /-- `End`: the epoch has changed, the list must be put back (276-279) -/
  | p0 (l : List Nat)
  /-- loaded the epoch (281, 300) -/
  | p1 (l : List Nat) (g : Nat)
  /-- counted itself in (285-287) -/
  | p2 (l : List Nat) (g : Nat)
  /-- the epoch had changed to `g'` (289-290, 300) -/
  | p3 (l : List Nat) (g g' : Nat)
  /-- the epoch had not changed (290) -/
  | p4 (l : List Nat) (g : Nat)
deriving DecidableEq, Repr

/-- The shared state and the threads.  Not part of the program: `secs`, the number of sections begun so far; `managed`, for each item handed over the sections in progress at that moment; `reclaimed`, the reclaimed items, each with the sections in progress at that moment. -/
structure Sys where
  list : Nat → List Nat
  rc : Nat → Nat
  epoch : Nat
  thrs : List PC
  secs : Nat
  managed : List (List Nat)
  reclaimed : List (Nat × List Nat)

/-- The constructor (139-162); `n` threads. -/
def init (n : Nat) : Sys := ⟨fun _ => [], fun _ => 0, 0, List.replicate n .out, 0, [], []⟩

/-- Change one slot. -/
def upd {α : Type} (f : Nat → α) (a : Nat) (b : α) : Nat → α := fun x => if x = a then b else f x

/-- The section a thread is in, and the epoch it began in: from the end of `Begin` until it has counted itself out in `End`. -/
def PC.sec? : PC → Option (Nat × Nat)
  | .inside s g _ => some (s, g)
  | .e1 s g _ _ => some (s, g)
  | _ => none

/-- The sections in progress. -/
def Sys.active (y : Sys) : List Nat := (y.thrs.filterMap PC.sec?).map Prod.fst

/-- One step of a thread. -/
inductive Step (w : Nat) : Sys → Sys → Prop
  /-- `Begin`: load the epoch (204) -/
  | begin {y : Sys} {i : Nat} : y.thrs[i]? = some .out → Step w y { y with thrs := y.thrs.set i (.b1 y.epoch) }
  /-- `Begin`: count in (210-212) -/
  | inc {y : Sys} {i g : Nat} : y.thrs[i]? = some (.b1 g) → Step w y { y with rc := upd y.rc (slot g) ((y.rc (slot g) + 1) % w), thrs := y.thrs.set i (.b2 g) }
  /-- `Begin`: the epoch is still the same (214-215) -/
  | enter {y : Sys} {i g : Nat} : y.thrs[i]? = some (.b2 g) → g = y.epoch → Step w y { y with thrs := y.thrs.set i (.inside y.secs g []), secs := y.secs + 1 }
  /-- `Begin`: the epoch changed (214-217) -/
  | retry {y : Sys} {i g : Nat} : y.thrs[i]? = some (.b2 g) → g ≠ y.epoch → Step w y { y with thrs := y.thrs.set i (.b3 g y.epoch) }
  /-- `Begin`: count out again (219-224) -/
  | dec {y : Sys} {i g g' : Nat} : y.thrs[i]? = some (.b3 g g') →
      Step w y { y with rc := upd y.rc (slot g) ((y.rc (slot g) + w - 1) % w), thrs := y.thrs.set i (.b1 g') }
  /-- `Manage` (314-327) -/
  | manage {y : Sys} {i s g : Nat} {loc : List Nat} : y.thrs[i]? = some (.inside s g loc) →
      Step w y { y with thrs := y.thrs.set i (.inside s g (y.managed.length :: loc)), managed := y.managed ++ [y.active] }
  /-- `End`: load the epoch (249) -/
  | endLoad {y : Sys} {i s g : Nat} {loc : List Nat} : y.thrs[i]? = some (.inside s g loc) → Step w y { y with thrs := y.thrs.set i (.e1 s g loc y.epoch) }
  /-- `End`: add the items of the thread to the list of its slot, and count out (253-266) -/
  | leave {y : Sys} {i s g : Nat} {loc : List Nat} {G : Nat} : y.thrs[i]? = some (.e1 s g loc G) →
      Step w y { y with list := upd y.list (slot g) (loc ++ y.list (slot g)), rc := upd y.rc (slot g) ((y.rc (slot g) + w - 1) % w), thrs := y.thrs.set i (.e2 G) }
  /-- `End`: nobody is counted in the stale slot (268-270) -/
  | stale {y : Sys} {i G : Nat} : y.thrs[i]? = some (.e2 G) → y.rc (G % 3) = 0 → Step w y { y with thrs := y.thrs.set i (.e3 G) }
  /-- `End`: somebody is (270) -/
  | staleNot {y : Sys} {i G : Nat} : y.thrs[i]? = some (.e2 G) → y.rc (G % 3) ≠ 0 → Step w y { y with thrs := y.thrs.set i .out }
  /-- `End`: nobody is counted in the next slot (272-273) -/
  | next {y : Sys} {i G : Nat} : y.thrs[i]? = some (.e3 G) → y.rc ((G % 3 + 1) % 3) = 0 → Step w y { y with thrs := y.thrs.set i (.e4 G) }
  /-- `End`: somebody is (273) -/
  | nextNot {y : Sys} {i G : Nat} : y.thrs[i]? = some (.e3 G) → y.rc ((G % 3 + 1) % 3) ≠ 0 → Step w y { y with thrs := y.thrs.set i .out }
  /-- `End`: take the stale list (273) -/
  | take {y : Sys} {i G : Nat} : y.thrs[i]? = some (.e4 G) → y.rc (G % 3) = 0 →
      Step w y { y with list := upd y.list (G % 3) [], thrs := y.thrs.set i (.e5 G (y.list (G % 3))) }
  /-- `End`: the exchange fails (273) -/
  | takeNot {y : Sys} {i G : Nat} : y.thrs[i]? = some (.e4 G) → Step w y { y with thrs := y.thrs.set i .out }
  /-- `End`: the epoch is still the same (275) -/
  | same {y : Sys} {i G : Nat} {l : List Nat} : y.thrs[i]? = some (.e5 G l) → G = y.epoch → Step w y { y with thrs := y.thrs.set i (.dr G l) }
  /-- `End`: the epoch changed, and the list is not empty (276) -/
  | moved {y : Sys} {i G : Nat} {l : List Nat} : y.thrs[i]? = some (.e5 G l) → G ≠ y.epoch → l ≠ [] → Step w y { y with thrs := y.thrs.set i (.p0 l) }
  /-- `End`: the epoch changed, and the list is empty (276) -/
  | movedNone {y : Sys} {i G : Nat} : y.thrs[i]? = some (.e5 G []) → G ≠ y.epoch → Step w y { y with thrs := y.thrs.set i .out }
  /-- `Drain`: an item is reclaimed (232-236) -/
  | reclaim {y : Sys} {i G x : Nat} {l : List Nat} : y.thrs[i]? = some (.dr G (x :: l)) →
      Step w y { y with thrs := y.thrs.set i (.dr G l), reclaimed := y.reclaimed ++ [(x, y.active)] }
  /-- `Drain`: the epoch advances if it is still the same (239) -/
  | advance {y : Sys} {i G : Nat} : y.thrs[i]? = some (.dr G []) → Step w y { y with epoch := if y.epoch = G then G + 1 else y.epoch, thrs := y.thrs.set i .out }
  /-- putting back: load the epoch (281) -/
  | pLoad {y : Sys} {i : Nat} {l : List Nat} : y.thrs[i]? = some (.p0 l) → Step w y { y with thrs := y.thrs.set i (.p1 l y.epoch) }
  /-- putting back: count in (285-287) -/
  | pInc {y : Sys} {i g : Nat} {l : List Nat} : y.thrs[i]? = some (.p1 l g) →
      Step w y { y with rc := upd y.rc (slot g) ((y.rc (slot g) + 1) % w), thrs := y.thrs.set i (.p2 l g) }
  /-- putting back: the epoch is still the same (289-290) -/
  | pSame {y : Sys} {i g : Nat} {l : List Nat} : y.thrs[i]? = some (.p2 l g) → g = y.epoch → Step w y { y with thrs := y.thrs.set i (.p4 l g) }
  /-- putting back: the epoch changed (289-300) -/
  | pRetry {y : Sys} {i g : Nat} {l : List Nat} : y.thrs[i]? = some (.p2 l g) → g ≠ y.epoch → Step w y { y with thrs := y.thrs.set i (.p3 l g y.epoch) }
  /-- putting back: count out again (302-307) -/
  | pDec {y : Sys} {i g g' : Nat} {l : List Nat} : y.thrs[i]? = some (.p3 l g g') →
      Step w y { y with rc := upd y.rc (slot g) ((y.rc (slot g) + w - 1) % w), thrs := y.thrs.set i (.p1 l g') }
  /-- putting back: add the list to the slot, and count out (292-297) -/
  | put {y : Sys} {i g : Nat} {l : List Nat} : y.thrs[i]? = some (.p4 l g) →
      Step w y { y with list := upd y.list (slot g) (l ++ y.list (slot g)), rc := upd y.rc (slot g) ((y.rc (slot g) + w - 1) % w), thrs := y.thrs.set i .out }

/-- The states reachable by `n` threads. -/
inductive Reach (w n : Nat) : Sys → Prop
  | init : Reach w n (init n)
  | step {y y' : Sys} : Reach w n y → Step w y y' → Reach w n y'

end Verif.EpochGC
