/-!
# Model of the batch and circular enumerables (`Enumerable.h`, `Enumerable.c`, `CircularEnumerable.c`)

Pointers are addresses (`Nat`), `NULL` is `none`.  `size_t` subtraction wraps modulo `2^64`
(`GetTail` of an empty enumerable sets the index to `SIZE_MAX`); the sums and products of indexes
stay below `2^64` because they are positions inside one object.
The formats `Internal` and `FixedBatch` are not modelled: the first only calls the handler (the
hash map, linked list and queue walks are modelled with those containers), the second is unused in
the library.
-/
namespace Verif.Enumerable

/-- `CCEnumeratorState.batch` and `.circular` (`Enumerator.h` 50-59). -/
inductive Fmt
  | batch
  | circular (max start : Nat)
  deriving DecidableEq, Repr

/-- `CCEnumerable` with one of these states (`Enumerable.h` 61-64, `Enumerator.h` 40-68). -/
structure En where
  fmt : Fmt
  ptr : Nat
  count : Nat
  stride : Nat
  index : Nat
  deriving DecidableEq, Repr

/-- `x - 1` on `size_t`. -/
def dec (x : Nat) : Nat := (x + (2 ^ 64 - 1)) % 2 ^ 64

/-- `CCEnumerableCreate` (`Enumerable.h` 122-139). -/
def create (ptr stride count : Nat) : En := ⟨.batch, ptr, count, stride, 0⟩

/-- `CCCircularEnumerableCreate` (`CircularEnumerable.h` 48-70); the assertions are preconditions. -/
def createCircular (ptr stride count start max : Nat) : En := ⟨.circular max start, ptr, count, stride, start⟩

/-- The address for an index: `ptr + index * stride` for a batch, `ptr + (index % max) * stride` for
a circular one (`Enumerable.h` 152, 155). -/
def addr (e : En) : Nat :=
  match e.fmt with
  | .batch => e.ptr + e.index * e.stride
  | .circular max _ => e.ptr + (e.index % max) * e.stride

/-- `CCEnumerableGetCurrent` (`Enumerable.h` 141-159). -/
def current (e : En) : Option Nat := if e.count ≠ 0 then some (addr e) else none

/-- `CCEnumerableGetHead` (`Enumerable.h` 161-164) through `CCEnumerableHandler` (`Enumerable.c` 33-35)
or `CCCircularEnumerableHandler` (`CircularEnumerable.c` 32-34). -/
def getHead (e : En) : En × Option Nat :=
  match e.fmt with
  | .batch =>
    let e := { e with index := 0 }
    (e, if e.count ≠ 0 then some e.ptr else none)
  | .circular _ start =>
    let e := { e with index := start }
    (e, if e.count ≠ 0 then some (addr e) else none)

/-- `CCEnumerableGetTail` (`Enumerable.h` 166-169) through `CCEnumerableHandler` (`Enumerable.c` 37-39)
or `CCCircularEnumerableHandler` (`CircularEnumerable.c` 36-38). -/
def getTail (e : En) : En × Option Nat :=
  match e.fmt with
  | .batch =>
    let e := { e with index := dec e.count }
    (e, if e.count ≠ 0 then some (addr e) else none)
  | .circular _ start =>
    let e := { e with index := (dec e.count + start) % 2 ^ 64 }
    (e, if e.count ≠ 0 then some (addr e) else none)

/-- `CCEnumerableNext` (`Enumerable.h` 171-195); at the end both handlers return `NULL` for the
action `Next` (`Enumerable.c` 41-45, `CircularEnumerable.c` 40-44). -/
def next (e : En) : En × Option Nat :=
  match e.fmt with
  | .batch =>
    if e.count = 0 then (e, none)
    else if e.index + 1 < e.count then
      let e := { e with index := e.index + 1 }
      (e, some (addr e))
    else (e, none)
  | .circular _ start =>
    if e.count = 0 then (e, none)
    else if e.index + 1 < e.count + start then
      let e := { e with index := e.index + 1 }
      (e, some (addr e))
    else (e, none)

/-- `CCEnumerablePrevious` (`Enumerable.h` 197-221). -/
def previous (e : En) : En × Option Nat :=
  match e.fmt with
  | .batch =>
    if e.count = 0 then (e, none)
    else if e.index > 0 then
      let e := { e with index := e.index - 1 }
      (e, some (addr e))
    else (e, none)
  | .circular _ start =>
    if e.count = 0 then (e, none)
    else if e.index > start then
      let e := { e with index := e.index - 1 }
      (e, some (addr e))
    else (e, none)

/-- The calls a user makes. -/
inductive Call
  | current | head | tail | next | previous
  deriving DecidableEq, Repr

/-- One call: the new enumerable and the returned pointer. -/
def step (e : En) : Call → En × Option Nat
  | .current => (e, current e)
  | .head => getHead e
  | .tail => getTail e
  | .next => next e
  | .previous => previous e

/-- The pointers returned by a sequence of calls. -/
def run (e : En) : List Call → List (Option Nat)
  | [] => []
  | c :: cs => (step e c).2 :: run (step e c).1 cs

end Verif.Enumerable
