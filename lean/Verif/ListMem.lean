import Verif.PListSpec
/-!
# Model of the memory owned by a CCList (`CommonC/List.c`)

The operations themselves are those of `Verif/PList.lean`; here the blocks they take from and give back to the allocator are followed.
A page is a node of the chain and the array the node points to.  An array is one block: `CCArrayDestroy` (Array.c:32-35, 58-62) gives back
the elements of the array together with the array.  All allocations succeed.  Giving back a block that is not held is a fault (`none`).
-/
namespace Verif.ListMem
open Verif.Array hiding Op step create
open Verif.PList hiding step create

/-- The blocks currently held, and the next unused block name. -/
structure Mem where
  live : List Nat
  next : Nat

/-- Taking a block (`CCMalloc`, MemoryAllocation.c:33-45, which always succeeds here). -/
def alloc (m : Mem) : Nat × Mem := (m.next, { live := m.next :: m.live, next := m.next + 1 })

/-- Giving a block back (`CCFree`, MemoryAllocation.c:72-75, of a block with a single owner). -/
def free (m : Mem) (b : Nat) : Option Mem :=
  if b ∈ m.live then some { m with live := m.live.erase b } else none

/-- Giving back several blocks in turn (the loops List.c:32-35 and 258-261; `CCLinkedListDestroy`, LinkedList.c:55-67). -/
def freeAll : List Nat → Mem → Option Mem
  | [], m => some m
  | b :: bs, m => match free m b with
    | none => none
    | some m => freeAll bs m

/-- What a list holds: the block of the list itself, and for each page its array and its node. -/
structure Own where
  mem : Mem
  info : Nat
  pages : List (Nat × Nat)

/-- A new page at the end of the chain: its array is created, then its node (List.c:84-86, 110, 181-182). -/
def addPage (o : Own) : Own :=
  let (a, m) := alloc o.mem
  let (n, m) := alloc m
  { o with mem := m, pages := o.pages ++ [(a, n)] }

/-- `k` new pages. -/
def addPages : Nat → Own → Own
  | 0, o => o
  | k + 1, o => addPages k (addPage o)

/-- `CCListCreate` (List.c:40-65): the list, then its first page. -/
def createOwn (m : Mem) : Own :=
  let (i, m) := alloc m
  addPage { mem := m, info := i, pages := [] }

/-- `CCListRemoveElementAtIndex` when the last page has become empty (List.c:246-250): the node is destroyed, the array it points to is not. -/
def dropPage (o : Own) : Option Own :=
  match o.pages.getLast? with
  | none => none
  | some (_, n) => match free o.mem n with
    | none => none
    | some m => some { o with mem := m, pages := o.pages.dropLast }

/-- `CCListRemoveAllElements` (List.c:257-263): the arrays of all pages but the first are destroyed, then the nodes. -/
def dropTail (o : Own) : Option Own :=
  match freeAll (o.pages.tail.map (·.1)) o.mem with
  | none => none
  | some m => match freeAll (o.pages.tail.map (·.2)) m with
    | none => none
    | some m => some { o with mem := m, pages := o.pages.take 1 }

/-- The blocks taken and given back by a call that changes the number of pages from `before` to `after`. -/
def ownStep {α} (before after : Nat) (op : Op α) (o : Own) : Option Own :=
  match op with
  | .append _ | .appendN _ | .insert _ _ => some (addPages (after - before) o)
  | .replace _ _ => some o
  | .remove _ => if after < before then dropPage o else some o
  | .removeAll => dropTail o

/-- `CCListDestroy` and `CCListDestructor` (List.c:30-38, 67-72): the array of every page, the nodes, and the list itself. -/
def destroyOwn (o : Own) : Option Mem :=
  match freeAll (o.pages.map (·.1)) o.mem with
  | none => none
  | some m => match freeAll (o.pages.map (·.2)) m with
    | none => none
    | some m => free m o.info

/-- A list together with what it holds. -/
structure LM (α : Type) where
  list : PL α
  own : Own

/-- `CCListCreate` (List.c:40-65) in memory `m`. -/
def create (α : Type) (chunk pageSize : Nat) (m : Mem) : Option (LM α) :=
  match PList.create α chunk pageSize with
  | .ok L => some { list := L, own := createOwn m }
  | .error _ => none

/-- One call of the API (List.c:74-269); `none`: a fault of the call or giving back a block that is not held. -/
def step {α} (X : LM α) (op : Op α) : Option (LM α × Ret) :=
  match PList.step X.list op with
  | .error _ => none
  | .ok (L, r) => match ownStep X.list.pages.length L.pages.length op X.own with
    | none => none
    | some o => some ({ list := L, own := o }, r)

/-- `CCListDestroy` (List.c:67-72). -/
def destroy {α} (X : LM α) : Option Mem := destroyOwn X.own

end Verif.ListMem
