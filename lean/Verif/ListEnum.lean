import Verif.LinkedList
/-!
# Model of the enumerables of linked lists and queues: `CommonC/LinkedList.c`, `CommonC/Queue.c`

Nodes and their links are those of `Verif.LinkedList`.  What an enumerable hands out is the data of a node; the model hands out the
node.  Following a pointer to a node that does not exist (any more), or NULL, is `none`.
-/
namespace Verif.ListEnum
open Verif.LinkedList (Heap nextOf prevOf getHead getTail Queue)

/-- `CCEnumerator` (Enumerator.h) in the internal format: `ref`, `state.internal.ptr` and the two `state.internal.extra`. -/
structure En where
  ref : Option Nat
  ptr : Option Nat
  first : Option Nat
  last : Option Nat

/-- `CCEnumerableAction` (Enumerable.h:32-43); in the internal format `CCEnumerableGetCurrent`, `GetHead`, `GetTail`, `Next` and `Previous`
(Enumerable.h) call the handler with these. -/
inductive Action where
  | head
  | tail
  | next
  | previous
  | current
deriving DecidableEq, Repr

/-- `CCLinkedListGetEnumerable` (LinkedList.c:233-252). -/
def listEnumerable (h : Heap) (list : Nat) : Option En := do
  let head ← getHead h list
  return ⟨some list, some head, some head, none⟩

/-- `CCLinkedListEnumerableHandler` (LinkedList.c:201-231). -/
def listHandler (h : Heap) (e : En) : Action → Option (En × Option Nat)
  | .head => some ({ e with ptr := e.first }, e.first)
  | .tail =>
    match e.last with
    | some l => some ({ e with ptr := some l }, some l)
    | none => do
      let l ← getTail h (← e.ptr.or e.ref)
      return ({ e with ptr := some l, last := some l }, some l)
  | .next => do
    let p ← e.ptr
    let n ← nextOf h p
    let last := if n = none ∧ e.last = none then some p else e.last
    return ({ e with ptr := n, last := last }, n)
  | .previous => do
    let p ← e.ptr
    let n ← prevOf h p
    return ({ e with ptr := n }, n)
  | .current => some (e, e.ptr)

/-- `CCQueueGetEnumerable` (Queue.c:135-152). -/
def queueEnumerable (q : Queue) : En := ⟨none, q.tail, q.tail, q.head⟩

/-- `CCQueueEnumerableHandler` (Queue.c:108-133). -/
def queueHandler (h : Heap) (e : En) : Action → Option (En × Option Nat)
  | .head => some ({ e with ptr := e.first }, e.first)
  | .tail => some ({ e with ptr := e.last }, e.last)
  | .next => do
    let n ← prevOf h (← e.ptr)
    return ({ e with ptr := n }, n)
  | .previous => do
    let n ← nextOf h (← e.ptr)
    return ({ e with ptr := n }, n)
  | .current => some (e, e.ptr)

/-- A series of calls and their answers. -/
def runWith (handler : En → Action → Option (En × Option Nat)) : En → List Action → Option (List (Option Nat))
  | _, [] => some []
  | e, a :: as => do
    let (e, x) ← handler e a
    let xs ← runWith handler e as
    return x :: xs

/-- The loop `for (x = GetCurrent; x; x = Next)`: the nodes it visits, given a number of iterations that is not reached. -/
def forEach (handler : En → Action → Option (En × Option Nat)) : Nat → En → Action → Option (List Nat)
  | 0, _, _ => none
  | fuel + 1, e, a => do
    match ← handler e a with
    | (_, none) => return []
    | (e, some x) => do
      let xs ← forEach handler fuel e .next
      return x :: xs

end Verif.ListEnum
