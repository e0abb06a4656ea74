import Verif.EpochGC
/-!
# Models of the garbage collectors with their memory orders (`LazyGarbageCollector.c`, `EpochGarbageCollector.c`)

As in `TaskWeak.lean` and `HandoverWeak.lean`: each store to an atomic variable carries the uses it makes known to whoever reads it with an acquire; only a release adds what its thread knows; a successful exchange sees the last store and hands on what it carries.
The memory orders are parameters.
-/
namespace Verif.GCWeak

/-! ## The lazy collector (`LazyGarbageCollector.c`)

All accesses that matter are successful exchanges of one pair, so their order is the order of the steps.  Loads in the loops (196, 224, 233) only provide what the exchange expects. -/
namespace Lazy

/-- How the exchange of `End` is ordered, in a section that handed over items (227) and in one that did not (236): is it a release, is it an acquire. -/
structure Orders where
  someRel : Bool
  someAcq : Bool
  noneRel : Bool
  noneAcq : Bool
deriving DecidableEq, Repr

/-- The orders of the file (227, 236). -/
def code : Orders := ⟨true, false, false, false⟩

/-- What suffices. -/
def full : Orders := ⟨true, true, true, true⟩

/-- A thread: in a section (with how many items it handed over) or not, and (not part of the program) the uses it knows. -/
structure Thr where
  inside : Option Nat
  knows : List Nat
deriving DecidableEq, Repr

/-- The count, the number of items in the list, what the last store to the pair carries, the threads.  Not part of the program: the number of uses made in sections so far (handing over an item is one, it writes the node), and for each time a list is
drained the number of uses so far and those known to have happened before. -/
structure Sys where
  rc : Nat
  list : Nat
  carries : List Nat
  thrs : List Thr
  uses : Nat
  drained : List (Nat × List Nat)

/-- The constructor (135-155); `n` threads. -/
def init (n : Nat) : Sys := ⟨0, 0, [], List.replicate n ⟨none, []⟩, 0, []⟩

/-- Is the exchange of `End` a release (227, 236)? -/
def Orders.rel (o : Orders) (c : Nat) : Bool := if c = 0 then o.noneRel else o.someRel

/-- Is the exchange of `End` an acquire (227, 236)? -/
def Orders.acq (o : Orders) (c : Nat) : Bool := if c = 0 then o.noneAcq else o.someAcq

/-- What the thread knows after the exchange of `End`. -/
def learn (o : Orders) (y : Sys) (c : Nat) (k : List Nat) : List Nat := if o.acq c then k ++ y.carries else k

/-- What the pair carries after the exchange of `End`. -/
def publish (o : Orders) (y : Sys) (c : Nat) (k : List Nat) : List Nat := if o.rel c then y.carries ++ k else y.carries

/-- One step of a thread. -/
inductive Step (o : Orders) : Sys → Sys → Prop
  /-- `Begin` (171-199): a relaxed exchange -/
  | begin {y : Sys} {i : Nat} {k : List Nat} : y.thrs[i]? = some ⟨none, k⟩ → Step o y { y with rc := y.rc + 1, thrs := y.thrs.set i ⟨some 0, k⟩ }
  /-- something protected by the collector is used in a section -/
  | use {y : Sys} {i c : Nat} {k : List Nat} : y.thrs[i]? = some ⟨some c, k⟩ → Step o y { y with uses := y.uses + 1, thrs := y.thrs.set i ⟨some c, k ++ [y.uses]⟩ }
  /-- `Manage` (242-255): the node is written -/
  | manage {y : Sys} {i c : Nat} {k : List Nat} : y.thrs[i]? = some ⟨some c, k⟩ → Step o y { y with uses := y.uses + 1, thrs := y.thrs.set i ⟨some (c + 1), k ++ [y.uses]⟩ }
  /-- `End` (213-240): others remain -/
  | leave {y : Sys} {i c : Nat} {k : List Nat} : y.thrs[i]? = some ⟨some c, k⟩ → y.rc ≠ 1 →
      Step o y { y with rc := y.rc - 1, list := y.list + c, carries := publish o y c k, thrs := y.thrs.set i ⟨none, learn o y c k⟩ }
  /-- `End` (213-240): the last one; if there are items they are drained (229, 238) -/
  | last {y : Sys} {i c : Nat} {k : List Nat} : y.thrs[i]? = some ⟨some c, k⟩ → y.rc = 1 →
      Step o y { y with
        rc := y.rc - 1
        list := 0
        carries := publish o y c k
        thrs := y.thrs.set i ⟨none, learn o y c k⟩
        drained := if y.list + c = 0 then y.drained else y.drained ++ [(y.uses, learn o y c k)] }

/-- The states reachable by `n` threads. -/
inductive Reach (o : Orders) (n : Nat) : Sys → Prop
  | init : Reach o n (init n)
  | step {y y' : Sys} : Reach o n y → Step o y y' → Reach o n y'

end Lazy

/-! ## The epoch collector (`EpochGarbageCollector.c`)

The steps are those of `EpochGC.lean`, in which every load sees the last store (these are some of the executions the memory orders allow).  Followed is what happens before what. -/
namespace Epoch
open EpochGC

/-- Is the exchange that ends a section a release, if it handed over items (258), and if not (265); is the one that takes the stale list (273) an acquire; is the one that puts a list back (295) a release.
All other accesses are relaxed: those of the epoch, the loads of the stale pair (269) and of the next one (272), the exchanges that count a thread in (212, 287) or out again (219-223, 302-306). -/
structure Orders where
  someRel : Bool
  noneRel : Bool
  takeAcq : Bool
  putRel : Bool
deriving DecidableEq, Repr

/-- The orders of the file (258, 265, 273, 295). -/
def code : Orders := ⟨true, false, true, true⟩

/-- The collector, what the last store to each pair carries, and what each thread knows.  Not part of the program: for each use made in a section, the number of the section; for each item, what had happened before it was handed over; for each reclaimed item, the uses known to have
happened before. -/
structure W where
  sys : Sys
  carries : Nat → List Nat
  knows : Nat → List Nat
  uses : List Nat
  handed : List (List Nat)
  reclaimed : List (Nat × List Nat)

/-- The constructor (139-162); `n` threads. -/
def init (n : Nat) : W := ⟨EpochGC.init n, fun _ => [], fun _ => [], [], [], []⟩

/-- What a thread knows after a move from `p` to `q` (273). -/
def learn (o : Orders) (c : Nat → List Nat) (k : List Nat) (p q : PC) : List Nat := match p, q with
  | .e4 G, .e5 _ _ => if o.takeAcq then k ++ c (G % 3) else k
  | _, _ => k

/-- What the pairs carry after a move from `p` by a thread that knows `k` (253-266, 292-295). -/
def publish (o : Orders) (c : Nat → List Nat) (k : List Nat) (p : PC) : Nat → List Nat := match p with
  | .e1 _ g loc _ => if (if loc = [] then o.noneRel else o.someRel) then upd c (slot g) (c (slot g) ++ k) else c
  | .p4 _ g => if o.putRel then upd c (slot g) (c (slot g) ++ k) else c
  | _ => c

/-- The item that is reclaimed by a move (232-236). -/
def item? : PC → PC → Option Nat
  | .dr _ (x :: _), .dr _ _ => some x
  | _, _ => none

/-- Is an item handed over by a move (314-327)? -/
def hands : PC → PC → Bool
  | .inside _ _ _, .inside _ _ _ => true
  | _, _ => false

/-- One step. -/
inductive Step (o : Orders) (w : Nat) : W → W → Prop
  /-- something protected by the collector is used in a section -/
  | use {z : W} {i s g : Nat} {loc : List Nat} : z.sys.thrs[i]? = some (.inside s g loc) →
      Step o w z { z with knows := upd z.knows i (z.knows i ++ [z.uses.length]), uses := z.uses ++ [s] }
  /-- any step of the collector -/
  | move {z : W} {i : Nat} {p q : PC} {y : Sys} : z.sys.thrs[i]? = some p → EpochGC.Step w z.sys y → y.thrs = z.sys.thrs.set i q → p ≠ q →
      Step o w z { z with
        sys := y
        carries := publish o z.carries (z.knows i) p
        knows := upd z.knows i (learn o z.carries (z.knows i) p q)
        handed := if hands p q then z.handed ++ [z.knows i] else z.handed
        reclaimed := match item? p q with
          | some x => z.reclaimed ++ [(x, z.knows i)]
          | none => z.reclaimed }

/-- The states reachable by `n` threads. -/
inductive Reach (o : Orders) (w n : Nat) : W → Prop
  | init : Reach o w n (init n)
  | step {z z' : W} : Reach o w n z → Step o w z z' → Reach o w n z'

end Epoch
end Verif.GCWeak
