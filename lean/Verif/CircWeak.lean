/-!
# Model of the concurrent circular buffer with its memory orders (`ConcurrentCircularBufferTemplate.h`)

`CircBuffer.lean` has every access to `head` and `tail` see the last store.  Here a relaxed or acquire load may see any store that is not older than the last one the
thread has seen (C11 5.1.2.4), what happens before what is followed, and so are data races (5.1.2.4 paragraph 25): each thread counts its steps, and an access to an item
records the step it was made at (in the order of the program); `pSeen` is the last step of the consumer known to happen before what the producer does next, `cSeen` the reverse.  Only a release store
whose value is read by an acquire load adds to them.  `head` is stored by the consumer only and `tail` by the producer only, so each has the order of its stores in the
program, and a thread always sees its own last store.

The memory orders are parameters (`Orders`); `code` are those of the file.  `inOrder` is about the machine: if it is false, a load may be carried out later than
a relaxed store that comes after it in the program (as ARM and POWER do when nothing depends on the load); `atomic_signal_fence` (125) keeps the compiler from that,
not the machine.

As in `CircBuffer.lean` there are one producer and one consumer, `m` is `Tmax`, and indexes are natural numbers.  The writing of an item is two steps (it is `none` in between).
-/
namespace Verif.CircWeak

/-- How each access is ordered: is the store of `head` (127) a release, the loads of `head` by the producer (132, 150) acquires, the stores of `tail` (140, 165) releases, the
load of `tail` by the consumer (115) an acquire; does the machine keep loads before the stores that follow them. -/
structure Orders where
  storeHead : Bool
  loadHead : Bool
  storeTail : Bool
  loadTail : Bool
  inOrder : Bool
deriving DecidableEq, Repr

/-- The orders of the file (115, 127, 132, 140, 150, 165). -/
def code (inOrder : Bool) : Orders := ⟨false, false, true, true, inOrder⟩

/-- A store in the order of the stores to its variable: the value, what it stands for (how many items had been released or added, not part of the program), and the
step of the storing thread it makes known. -/
structure Msg where
  value : Nat
  count : Nat
  stamp : Nat
deriving DecidableEq, Repr

/-- A slot of `items`.  Not part of the program: the steps at which it was last written and read, and which item (in the order of adding) was read. -/
structure Slot where
  val : Option Nat
  wStamp : Nat
  rStamp : Nat
  rItem : Nat

/-- A read of an item the consumer has come to in the program and not yet carried out: the number of the item, its slot, what the consumer knew and at which step it was. -/
structure Load where
  item : Nat
  slot : Nat
  seen : Nat
  step : Nat
deriving DecidableEq, Repr

/-- The producer: outside; in an add after the load of `head`; in the loop of an add (`batch` the items to add, `k` of them written, `t` the
local `Tail`); or in the middle of writing an item. -/
inductive P
  | idle
  | one (v : Nat) (head : Nat)
  | many (vs : List Nat) (head : Nat)
  | loop (batch : List Nat) (k t : Nat)
  | torn (batch : List Nat) (k t : Nat)
deriving DecidableEq, Repr

/-- The consumer: outside; in `GetEnumerable` after the load of `head` (114); or with an enumerable of `count` items from slot `start`. -/
inductive C
  | idle
  | gotHead (head : Nat)
  | opened (start count : Nat)
deriving DecidableEq, Repr

/-- What is recorded, not part of the program. -/
inductive Ev
  /-- an add of `req` items reported `got` added; `used` items were added and not yet released as far as the producer saw, `now` in fact -/
  | add (req got used now : Nat)
  /-- `GetEnumerable` gave `count` items; `avail` were added and not released as far as the consumer saw, `now` in fact -/
  | opened (count avail now : Nat)
  /-- the consumer looked at the item that is the `k`-th ever added, and saw `x` -/
  | visit (k : Nat) (x : Option Nat)
  /-- the consumer's reading of an item races with a write of the producer -/
  | readRace
  /-- the producer's writing of an item races with a read of the consumer -/
  | writeRace
deriving DecidableEq, Repr

/-- The variables with the stores made to them, the items, the threads with what they have seen, and what is recorded: the items added, how many of them were released, and
the log. `pending` are the reads of items the consumer has yet to carry out. -/
structure Sys where
  heads : List Msg
  tails : List Msg
  items : Nat → Slot
  p : P
  c : C
  pHead : Nat
  cTail : Nat
  pStep : Nat
  cStep : Nat
  pSeen : Nat
  cSeen : Nat
  pending : List Load
  added : List Nat
  released : Nat
  log : List Ev

/-- `CC_CONCURRENT_CIRCULAR_BUFFER_INIT`: all zero; nothing is known about the items. -/
def init : Sys :=
  { heads := [⟨0, 0, 0⟩], tails := [⟨0, 0, 0⟩], items := fun _ => ⟨none, 0, 0, 0⟩, p := .idle, c := .idle, pHead := 0, cTail := 0, pStep := 1, cStep := 1, pSeen := 0,
    cSeen := 0, pending := [], added := [], released := 0, log := [] }

/-- The items in use (116, 152). -/
def used (m head tail : Nat) : Nat := if head ≤ tail then tail - head else m - (head - tail)

/-- Replaces one slot. -/
def put (f : Nat → Slot) (i : Nat) (s : Slot) : Nat → Slot := fun j => if j = i then s else f j

/-- The store of `tail` the producer made last: it is the only one to store there, so its own load (133, 151) gives that. -/
def lastTail (y : Sys) : Nat := match y.tails.getLast? with
  | some x => x.value
  | none => 0

/-- The store of `head` the consumer made last: likewise for its load (114). -/
def lastHead (y : Sys) : Nat := match y.heads.getLast? with
  | some x => x.value
  | none => 0

/-- The load of `head` by the producer (132, 150), which sees store number `i`. -/
def seeHead (o : Orders) (y : Sys) (i : Nat) (x : Msg) : Sys :=
  { y with pHead := i, pSeen := if o.storeHead && o.loadHead then max y.pSeen x.stamp else y.pSeen }

/-- The load of `tail` by the consumer (115), which sees store number `i`. -/
def seeTail (o : Orders) (y : Sys) (i : Nat) (x : Msg) : Sys :=
  { y with cTail := i, cSeen := if o.storeTail && o.loadTail then max y.cSeen x.stamp else y.cSeen }

/-- One step of the producer or the consumer. -/
inductive Step (o : Orders) (m : Nat) : Sys → Sys → Prop
  /-- `AddItem`: the load of `head` (132) -/
  | addOne {y : Sys} {i : Nat} {x : Msg} (v : Nat) : y.p = .idle → y.pHead ≤ i → y.heads[i]? = some x → Step o m y { seeHead o y i x with p := .one v x.value }
  /-- `AddItem`: there is room (136) -/
  | roomOne {y : Sys} {v h : Nat} {x : Msg} : y.p = .one v h → (lastTail y + 1) % m ≠ h → y.heads[y.pHead]? = some x →
      Step o m y { y with p := .loop [v] 0 (lastTail y), log := y.log ++ [.add 1 1 (y.added.length - x.count) (y.added.length - y.released)] }
  /-- `AddItem`: no room (145) -/
  | fullOne {y : Sys} {v h : Nat} {x : Msg} : y.p = .one v h → (lastTail y + 1) % m = h → y.heads[y.pHead]? = some x →
      Step o m y { y with p := .idle, log := y.log ++ [.add 1 0 (y.added.length - x.count) (y.added.length - y.released)] }
  /-- `AddItems`: the load of `head` (150) -/
  | addMany {y : Sys} {i : Nat} {x : Msg} (vs : List Nat) : y.p = .idle → y.pHead ≤ i → y.heads[i]? = some x → Step o m y { seeHead o y i x with p := .many vs x.value }
  /-- `AddItems`: there is room for some (151-156) -/
  | roomMany {y : Sys} {vs : List Nat} {h n : Nat} {x : Msg} : y.p = .many vs h → n = min (m - used m h (lastTail y) - 1) vs.length → n ≠ 0 → y.heads[y.pHead]? = some x →
      Step o m y { y with p := .loop (vs.take n) 0 (lastTail y), log := y.log ++ [.add vs.length n (y.added.length - x.count) (y.added.length - y.released)] }
  /-- `AddItems`: no room, or nothing to add (156) -/
  | fullMany {y : Sys} {vs : List Nat} {h n : Nat} {x : Msg} : y.p = .many vs h → n = min (m - used m h (lastTail y) - 1) vs.length → n = 0 → y.heads[y.pHead]? = some x →
      Step o m y { y with p := .idle, log := y.log ++ [.add vs.length n (y.added.length - x.count) (y.added.length - y.released)] }
  /-- the writing of an item begins (138, 160) -/
  | write {y : Sys} {b : List Nat} {k t : Nat} : y.p = .loop b k t → k < b.length →
      Step o m y { y with
        items := put y.items t { y.items t with val := none, wStamp := y.pStep }
        log := if y.pSeen < (y.items t).rStamp then y.log ++ [.writeRace] else y.log
        pStep := y.pStep + 1
        p := .torn b k t }
  /-- the writing of an item ends (138, 160), the next slot (134, 162) -/
  | written {y : Sys} {b : List Nat} {k t : Nat} : y.p = .torn b k t →
      Step o m y { y with items := put y.items t { y.items t with val := b[k]? }, p := .loop b (k + 1) ((t + 1) % m) }
  /-- the store of `tail` (140, 165): what it makes known are all steps made so far -/
  | publish {y : Sys} {b : List Nat} {k t : Nat} : y.p = .loop b k t → k = b.length →
      Step o m y { y with tails := y.tails ++ [⟨t, y.added.length + b.length, y.pStep⟩], added := y.added ++ b, pStep := y.pStep + 1, p := .idle }
  /-- `GetEnumerable`: the load of `head` (114) -/
  | getHead {y : Sys} : y.c = .idle → Step o m y { y with c := .gotHead (lastHead y) }
  /-- `GetEnumerable`: the load of `tail` (115-118) -/
  | getTail {y : Sys} {h i : Nat} {x : Msg} : y.c = .gotHead h → y.cTail ≤ i → y.tails[i]? = some x →
      Step o m y { seeTail o y i x with c := .opened h (used m h x.value), log := y.log ++ [.opened (used m h x.value) (x.count - y.released) (y.added.length - y.released)] }
  /-- the consumer comes to look at an item of the enumerable, in any order, as often as it likes -/
  | look {y : Sys} {s n : Nat} (j : Nat) : y.c = .opened s n → j < n → 
      Step o m y { y with pending := y.pending ++ [⟨y.released + j, (s + j) % m, y.cSeen, y.cStep⟩], cStep := y.cStep + 1 }
  /-- one of the reads is carried out -/
  | read {y : Sys} {l : Load} : l ∈ y.pending →
      Step o m y { y with
        pending := y.pending.erase l
        items := put y.items l.slot { y.items l.slot with rStamp := max (y.items l.slot).rStamp l.step, rItem := l.item }
        log := (if l.seen < (y.items l.slot).wStamp then y.log ++ [.readRace] else y.log) ++ [.visit l.item (y.items l.slot).val] }
  /-- the consumer drops the enumerable without releasing it -/
  | forget {y : Sys} {s n : Nat} : y.c = .opened s n → Step o m y { y with c := .idle }
  /-- `Release` (121-128): a release store waits for the reads before it, a relaxed one only if the machine does -/
  | release {y : Sys} {s n : Nat} : y.c = .opened s n → (o.storeHead || o.inOrder) = false ∨ y.pending = [] →
      Step o m y { y with heads := y.heads ++ [⟨(s + n) % m, y.released + n, y.cStep⟩], released := y.released + n, cStep := y.cStep + 1, c := .idle }

/-- The reachable states. -/
inductive Reach (o : Orders) (m : Nat) : Sys → Prop
  | init : Reach o m init
  | step {y y' : Sys} : Reach o m y → Step o m y y' → Reach o m y'

end Verif.CircWeak
