/-!
# Model of the concurrent circular buffer (`ConcurrentCircularBufferTemplate.h`)

One producer and one consumer; every access to the shared `head` and `tail` is one step, the writing of an item two steps (it is `none` in between); sequentially consistent.
`m` is `Tmax`.  Indexes are natural numbers: they stay below `m`, so `size_t` does not wrap.  `CCConcurrentCircularBufferSetStartIndex` and `GetLastIndex` (102-110) are not modelled.
The walk over the enumerable is C25; here a visit of its `j`-th item reads slot `(start + j) % m`.
-/
namespace Verif.CircBuffer

/-- The producer: outside; in an add after the load of `head` (132, 150); in the loop of an add (`batch` the items to add, `k` of them written, `t` the local `Tail`); or in the middle of writing an item. -/
inductive P
  | idle
  | one (v : Nat) (head used : Nat)
  | many (vs : List Nat) (head used : Nat)
  | loop (batch : List Nat) (k t : Nat)
  | torn (batch : List Nat) (k t : Nat)
deriving DecidableEq, Repr

/-- The consumer: outside; in `GetEnumerable` after the load of `head` (114); or with an enumerable of `count` items from slot `start`. -/
inductive C
  | idle
  | gotHead (head : Nat)
  | opened (start count : Nat)
deriving DecidableEq, Repr

/-- What is recorded, not part of the program. -/
inductive Ev
  /-- an add of `req` items reported `got` added; `used` items were added and not released when it loaded `head` -/
  | add (req got used : Nat)
  /-- `GetEnumerable` gave `count` items; `avail` were added and not released when it loaded `tail` -/
  | opened (count avail : Nat)
  /-- the consumer looked at the item that is the `k`-th ever added, and saw `x` -/
  | visit (k : Nat) (x : Option Nat)
deriving DecidableEq, Repr

/-- The structure (`ConcurrentCircularBuffer.h` 34-38) and the two threads.  Not part of the program: `added`, the items added so far; `released`, how many of them have been released; `log`. -/
structure Sys where
  head : Nat
  tail : Nat
  items : List (Option Nat)
  p : P
  c : C
  added : List Nat
  released : Nat
  log : List Ev

/-- `CC_CONCURRENT_CIRCULAR_BUFFER_INIT`: all zero; nothing is known about the items. -/
def init (m : Nat) : Sys := ⟨0, 0, List.replicate m none, .idle, .idle, [], 0, []⟩

/-- The items in use (116, 152). -/
def used (m head tail : Nat) : Nat := if head ≤ tail then tail - head else m - (head - tail)

/-- One step of the producer or the consumer. -/
inductive Step (m : Nat) : Sys → Sys → Prop
  /-- `AddItem`: the load of `head` (132) -/
  | addOne {y : Sys} (v : Nat) : y.p = .idle → Step m y { y with p := .one v y.head (y.added.length - y.released) }
  /-- `AddItem`: there is room (136); `tail` (133) is only changed by the producer itself -/
  | roomOne {y : Sys} {v h u : Nat} : y.p = .one v h u → (y.tail + 1) % m ≠ h → Step m y { y with p := .loop [v] 0 y.tail, log := y.log ++ [.add 1 1 u] }
  /-- `AddItem`: no room (145) -/
  | fullOne {y : Sys} {v h u : Nat} : y.p = .one v h u → (y.tail + 1) % m = h → Step m y { y with p := .idle, log := y.log ++ [.add 1 0 u] }
  /-- `AddItems`: the load of `head` (150) -/
  | addMany {y : Sys} (vs : List Nat) : y.p = .idle → Step m y { y with p := .many vs y.head (y.added.length - y.released) }
  /-- `AddItems`: there is room for some (151-156) -/
  | roomMany {y : Sys} {vs : List Nat} {h u n : Nat} : y.p = .many vs h u → n = min (m - used m h y.tail - 1) vs.length → n ≠ 0 →
      Step m y { y with p := .loop (vs.take n) 0 y.tail, log := y.log ++ [.add vs.length n u] }
  /-- `AddItems`: no room, or nothing to add (156) -/
  | fullMany {y : Sys} {vs : List Nat} {h u n : Nat} : y.p = .many vs h u → n = min (m - used m h y.tail - 1) vs.length → n = 0 →
      Step m y { y with p := .idle, log := y.log ++ [.add vs.length n u] }
  /-- the writing of an item begins (138, 160) -/
  | write {y : Sys} {b : List Nat} {k t : Nat} : y.p = .loop b k t → k < b.length → Step m y { y with items := y.items.set t none, p := .torn b k t }
  /-- the writing of an item ends (138, 160), the next slot (134, 162) -/
  | written {y : Sys} {b : List Nat} {k t : Nat} : y.p = .torn b k t → Step m y { y with items := y.items.set t b[k]?, p := .loop b (k + 1) ((t + 1) % m) }
  /-- the store of `tail` (140, 165) -/
  | publish {y : Sys} {b : List Nat} {k t : Nat} : y.p = .loop b k t → k = b.length → Step m y { y with tail := t, added := y.added ++ b, p := .idle }
  /-- `GetEnumerable`: the load of `head` (114) -/
  | getHead {y : Sys} : y.c = .idle → Step m y { y with c := .gotHead y.head }
  /-- `GetEnumerable`: the load of `tail` (115-118) -/
  | getTail {y : Sys} {h : Nat} : y.c = .gotHead h →
      Step m y { y with c := .opened h (used m h y.tail), log := y.log ++ [.opened (used m h y.tail) (y.added.length - y.released)] }
  /-- the consumer looks at an item of the enumerable, in any order, as often as it likes -/
  | visit {y : Sys} {s n : Nat} (j : Nat) : y.c = .opened s n → j < n →
      Step m y { y with log := y.log ++ [.visit (y.released + j) (y.items[(s + j) % m]?).join] }
  /-- the consumer drops the enumerable without releasing it -/
  | forget {y : Sys} {s n : Nat} : y.c = .opened s n → Step m y { y with c := .idle }
  /-- `Release` (121-128) -/
  | release {y : Sys} {s n : Nat} : y.c = .opened s n → Step m y { y with head := (s + n) % m, released := y.released + n, c := .idle }

/-- The reachable states. -/
inductive Reach (m : Nat) : Sys → Prop
  | init : Reach m (init m)
  | step {y y' : Sys} : Reach m y → Step m y y' → Reach m y'

end Verif.CircBuffer
