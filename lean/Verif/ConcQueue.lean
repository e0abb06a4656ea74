/-!
# Model of the concurrent queue (`ConcurrentQueue.c`)

Any number of threads that push and pop; every atomic load, store and exchange on the queue and its nodes is one step; sequentially consistent.

* A node is an address.  Addresses of freed nodes may be used again for new nodes.
* The garbage collector is its contract (C18, C19): a node handed over may be freed once no section that was in progress when it was handed over is in progress.  A push or pop is one section.  In the model the node is handed over at the
exchange of `head` (168 instead of 170), and the section ends at the last access of the operation: both allow more nodes to be freed.
* The user's reference (117) does not delay freeing in the model either.
* A node is pushed once: it is created (39-51) when the push begins.  Failing allocations are not modelled.
* Tags have `w` values (`w = 2^32`).
* A weak exchange may fail at any time.
* The payload of the nodes, and the destructor (68-79), which runs when no other thread uses the queue, are not modelled.
-/
namespace Verif.ConcQueue

/-- `CCConcurrentQueuePointer` (ConcurrentQueue.h 40-43). -/
structure Ptr where
  node : Option Nat
  tag : Nat
deriving DecidableEq, Repr

/-- The null pointer (45-46). -/
def null : Ptr := ⟨none, 0⟩

/-- A thread.  Not part of the program: the section number `s`; in a pop, `em`, whether the queue was empty when `tail` or the `prev` was loaded, and `st`, whether, when the `prev` was loaded, a push was between its exchange of `tail` and its
store of the `prev` of the node in `head`. -/
inductive PC
  | idle
  /-- `Push` of node `n` (112-121) -/
  | pu1 (s n : Nat)
  /-- loaded `tail` (123) -/
  | pu2 (s n : Nat) (t : Ptr)
  /-- stored `next` (125) -/
  | pu3 (s n : Nat) (t : Ptr)
  /-- exchanged `tail` (126) -/
  | pu4 (s n : Nat) (t : Ptr)
  /-- `Pop` (147-153) -/
  | po0 (s : Nat)
  /-- loaded `head` (155) -/
  | po1 (s : Nat) (h : Ptr)
  /-- loaded `tail` (155) -/
  | po2 (s : Nat) (h t : Ptr) (em : Bool)
  /-- loaded `prev` of the node in `head` (156) -/
  | po3 (s : Nat) (h t p : Ptr) (em st : Bool)
  /-- `head` has not changed (158) -/
  | po4 (s : Nat) (h t p : Ptr) (em st : Bool)
  /-- `FixList` at node `c` (138) -/
  | fx1 (s : Nat) (h c : Ptr)
  /-- in the loop (140) -/
  | fx2 (s : Nat) (h c : Ptr)
  /-- loaded the `next` of `c` (141) -/
  | fx3 (s : Nat) (h c m : Ptr)
  /-- a null or freed node was accessed -/
  | fault
deriving DecidableEq, Repr

/-- The queue (33-37), the nodes' links (ConcurrentQueue.h 45-48) and the threads.  Not part of the program: `chain`, the first node and all nodes pushed so far, in the order of the exchanges of `tail`; `popped`, the nodes returned by pops, in the
order of the exchanges of `head`; `secs`, the number of sections begun; `retired`, for each node handed over to the collector, in order, the sections in progress at that moment; `freed`, the positions in `chain` of the freed nodes; `nulls`, for each
pop that returned null, its `em` and `st`. -/
structure Sys where
  head : Ptr
  tail : Ptr
  next : Nat → Ptr
  prev : Nat → Ptr
  thrs : List PC
  chain : List Nat
  popped : List Nat
  secs : Nat
  retired : List (List Nat)
  freed : List Nat
  nulls : List (Bool × Bool)

/-- The queue is created with one node (81-98), here at address 0; `n` threads. -/
def init (n : Nat) : Sys := ⟨⟨some 0, 0⟩, ⟨some 0, 0⟩, fun _ => null, fun _ => null, List.replicate n .idle, [0], [], 0, [], [], []⟩

/-- The section a thread is in. -/
def PC.sec? : PC → Option Nat
  | .pu1 s _ | .pu2 s _ _ | .pu3 s _ _ | .pu4 s _ _ | .po0 s | .po1 s _ | .po2 s _ _ _ | .po3 s _ _ _ _ _ | .po4 s _ _ _ _ _ | .fx1 s _ _ | .fx2 s _ _ | .fx3 s _ _ _ => some s
  | .idle | .fault => none

/-- The node of a push that has not yet been put in the queue. -/
def PC.own? : PC → Option Nat
  | .pu1 _ n | .pu2 _ n _ | .pu3 _ n _ => some n
  | _ => none

/-- The sections in progress. -/
def Sys.active (y : Sys) : List Nat := y.thrs.filterMap PC.sec?

/-- The addresses of the nodes that are allocated. -/
def Sys.live (y : Sys) : List Nat :=
  ((List.range y.chain.length).filter fun j => !y.freed.contains j).filterMap (fun j => y.chain[j]?) ++ y.thrs.filterMap PC.own?

/-- Is the queue empty: all nodes pushed have been popped. -/
def Sys.empty (y : Sys) : Bool := y.chain.length == y.popped.length + 1

/-- Is there a push between its exchange of `tail` and its store of the `prev` of the node in `head`? -/
def Sys.stalled (y : Sys) : Bool := y.thrs.any fun q => match q with
  | .pu4 _ _ t => t == y.head
  | _ => false

/-- A store to one of the links. -/
def upd {α : Type} (f : Nat → α) (a : Nat) (b : α) : Nat → α := fun x => if x = a then b else f x

/-- One step of a thread or, the last one, of the garbage collector. -/
inductive Step (w : Nat) : Sys → Sys → Prop
  /-- a new node is created (39-51) and `Push` begins (112-119) -/
  | pushBegin {y : Sys} {i n : Nat} : y.thrs[i]? = some .idle → n ∉ y.live →
      Step w y { y with next := upd y.next n null, prev := upd y.prev n null, thrs := y.thrs.set i (.pu1 y.secs n), secs := y.secs + 1 }
  /-- `Push`: load `tail` (123) -/
  | pushLoad {y : Sys} {i s n : Nat} : y.thrs[i]? = some (.pu1 s n) → Step w y { y with thrs := y.thrs.set i (.pu2 s n y.tail) }
  /-- `Push`: store `next` (125) -/
  | pushNext {y : Sys} {i s n : Nat} {t : Ptr} : y.thrs[i]? = some (.pu2 s n t) →
      Step w y { y with next := upd y.next n ⟨t.node, (t.tag + 1) % w⟩, thrs := y.thrs.set i (.pu3 s n t) }
  /-- `Push`: exchange `tail` (126) -/
  | pushCas {y : Sys} {i s n : Nat} {t : Ptr} : y.thrs[i]? = some (.pu3 s n t) → y.tail = t →
      Step w y { y with tail := ⟨some n, (t.tag + 1) % w⟩, thrs := y.thrs.set i (.pu4 s n t), chain := y.chain ++ [n] }
  /-- `Push`: the exchange fails (126) -/
  | pushFail {y : Sys} {i s n : Nat} {t : Ptr} : y.thrs[i]? = some (.pu3 s n t) → Step w y { y with thrs := y.thrs.set i (.pu1 s n) }
  /-- `Push`: store `prev` of the node that was last (128) -/
  | pushPrev {y : Sys} {i s n m : Nat} {t : Ptr} : y.thrs[i]? = some (.pu4 s n t) → t.node = some m → m ∈ y.live →
      Step w y { y with prev := upd y.prev m ⟨some n, t.tag⟩, thrs := y.thrs.set i .idle }
  /-- `Push`: that node is null or freed (128) -/
  | pushFault {y : Sys} {i s n : Nat} {t : Ptr} : y.thrs[i]? = some (.pu4 s n t) → (∀ m, t.node = some m → m ∉ y.live) → Step w y { y with thrs := y.thrs.set i .fault }
  /-- `Pop` (147-151) -/
  | popBegin {y : Sys} {i : Nat} : y.thrs[i]? = some .idle → Step w y { y with thrs := y.thrs.set i (.po0 y.secs), secs := y.secs + 1 }
  /-- `Pop`: load `head` (155) -/
  | popHead {y : Sys} {i s : Nat} : y.thrs[i]? = some (.po0 s) → Step w y { y with thrs := y.thrs.set i (.po1 s y.head) }
  /-- `Pop`: load `tail` (155) -/
  | popTail {y : Sys} {i s : Nat} {h : Ptr} : y.thrs[i]? = some (.po1 s h) → Step w y { y with thrs := y.thrs.set i (.po2 s h y.tail y.empty) }
  /-- `Pop`: load `prev` of the node in `head` (156) -/
  | popPrev {y : Sys} {i s n : Nat} {h t : Ptr} {em : Bool} : y.thrs[i]? = some (.po2 s h t em) → h.node = some n → n ∈ y.live →
      Step w y { y with thrs := y.thrs.set i (.po3 s h t (y.prev n) (em || y.empty) y.stalled) }
  /-- `Pop`: that node is null or freed (156) -/
  | popFault {y : Sys} {i s : Nat} {h t : Ptr} {em : Bool} : y.thrs[i]? = some (.po2 s h t em) → (∀ m, h.node = some m → m ∉ y.live) → Step w y { y with thrs := y.thrs.set i .fault }
  /-- `Pop`: `head` has not changed (158) -/
  | popSame {y : Sys} {i s : Nat} {h t p : Ptr} {em st : Bool} : y.thrs[i]? = some (.po3 s h t p em st) → y.head = h → Step w y { y with thrs := y.thrs.set i (.po4 s h t p em st) }
  /-- `Pop`: `head` has changed (158) -/
  | popChanged {y : Sys} {i s : Nat} {h t p : Ptr} {em st : Bool} : y.thrs[i]? = some (.po3 s h t p em st) → y.head ≠ h → Step w y { y with thrs := y.thrs.set i (.po0 s) }
  /-- `Pop`: return null (160, 177, 181-183) -/
  | popNull {y : Sys} {i s : Nat} {h t p : Ptr} {em st : Bool} : y.thrs[i]? = some (.po4 s h t p em st) → (p.node = none ∨ t = h) →
      Step w y { y with thrs := y.thrs.set i .idle, nulls := y.nulls ++ [(em, st)] }
  /-- `Pop`: the tags differ (160-166) -/
  | popFix {y : Sys} {i s : Nat} {h t p : Ptr} {em st : Bool} : y.thrs[i]? = some (.po4 s h t p em st) → p.node ≠ none → t ≠ h → p.tag ≠ h.tag →
      Step w y { y with thrs := y.thrs.set i (.fx1 s h t) }
  /-- `Pop`: exchange `head` and return the node (168-173) -/
  | popCas {y : Sys} {i s m : Nat} {h t p : Ptr} {em st : Bool} : y.thrs[i]? = some (.po4 s h t p em st) → p.node = some m → t ≠ h → p.tag = h.tag → y.head = h →
      Step w y { y with head := ⟨p.node, (h.tag + 1) % w⟩, thrs := y.thrs.set i .idle, popped := y.popped ++ [m], retired := y.retired ++ [y.active] }
  /-- `Pop`: the exchange fails (168) -/
  | popFail {y : Sys} {i s : Nat} {h t p : Ptr} {em st : Bool} : y.thrs[i]? = some (.po4 s h t p em st) → p.node ≠ none → t ≠ h → p.tag = h.tag →
      Step w y { y with thrs := y.thrs.set i (.po0 s) }
  /-- `FixList`: the loop goes on (138) -/
  | fixGo {y : Sys} {i s : Nat} {h c : Ptr} : y.thrs[i]? = some (.fx1 s h c) → y.head = h → c ≠ h → Step w y { y with thrs := y.thrs.set i (.fx2 s h c) }
  /-- `FixList`: the loop ends (138) -/
  | fixEnd {y : Sys} {i s : Nat} {h c : Ptr} : y.thrs[i]? = some (.fx1 s h c) → (y.head ≠ h ∨ c = h) → Step w y { y with thrs := y.thrs.set i (.po0 s) }
  /-- `FixList`: load `next` (140) -/
  | fixNext {y : Sys} {i s n : Nat} {h c : Ptr} : y.thrs[i]? = some (.fx2 s h c) → c.node = some n → n ∈ y.live → Step w y { y with thrs := y.thrs.set i (.fx3 s h c (y.next n)) }
  /-- `FixList`: store `prev` (141-143) -/
  | fixPrev {y : Sys} {i s n : Nat} {h c m : Ptr} : y.thrs[i]? = some (.fx3 s h c m) → m.node = some n → n ∈ y.live →
      Step w y { y with prev := upd y.prev n ⟨c.node, (c.tag + w - 1) % w⟩, thrs := y.thrs.set i (.fx1 s h ⟨m.node, (c.tag + w - 1) % w⟩) }
  /-- `FixList`: a node is null or freed (140) -/
  | fixFault {y : Sys} {i s : Nat} {h c : Ptr} : y.thrs[i]? = some (.fx2 s h c) → (∀ n, c.node = some n → n ∉ y.live) → Step w y { y with thrs := y.thrs.set i .fault }
  /-- `FixList`: a node is null or freed (141) -/
  | fixFault' {y : Sys} {i s : Nat} {h c m : Ptr} : y.thrs[i]? = some (.fx3 s h c m) → (∀ n, m.node = some n → n ∉ y.live) → Step w y { y with thrs := y.thrs.set i .fault }
  /-- the collector frees a node (60-66) once no section recorded for it is in progress -/
  | free {y : Sys} {j : Nat} {l : List Nat} : y.retired[j]? = some l → j ∉ y.freed → (∀ s ∈ l, s ∉ y.active) → Step w y { y with freed := j :: y.freed }

/-- The states reachable by `n` threads. -/
inductive Reach (w n : Nat) : Sys → Prop
  | init : Reach w n (init n)
  | step {y y' : Sys} : Reach w n y → Step w y y' → Reach w n y'

end Verif.ConcQueue
