import Verif.LinkedList
/-!
# Model of `CommonC/Collection.c`, `OrderedCollection.c`, `CollectionEnumerator.h` and the three implementations
`CollectionArray.c`, `CollectionFastArray.c`, `CollectionList.c`

A `CCCollection` forwards every call to an implementation through a table of functions (`CCCollectionInterface`), some of them
optional.  The model keeps that structure: `Iface` is the table, the functions of `Collection.c`/`OrderedCollection.c`
are written once over an arbitrary table, and the three implementations are three tables.

* An entry (`CCCollectionEntry`, a pointer) is a number; `0` is `NULL`.  An entry that points at list node `n` is `n + 1`.
* `none` is undefined behaviour or a failed `CCAssertLog`.
* A `CCArray` is the list of its elements; that the array functions behave as the list operations used here is theorem C01.
  Every call that may need memory has a flag: `true` the allocation succeeds, `false` it fails
  (for the array-backed implementations the failing allocation is the growth of the array; for the list it is the node;
  failure to allocate the *entry* node of `CollectionArray.c` is not modelled).
* Linked lists are the pointer heap of `Verif.LinkedList`, so reading or freeing a freed node is `none`.
* Elements are values, "pointer to the element" results are the element it points to.
* A collection passed as an argument (entries to remove, elements to insert) is given as the list it enumerates.
* Sizes are natural numbers below `2^64`; where the C code relies on `SIZE_MAX` or wraps, the model does the same.
-/
namespace Verif.Collection
open Verif

/-- `CCCollectionEntry`; `0` is `NULL`. -/
abbrev Entry := Nat

/-- `SIZE_MAX` on a 64-bit target. -/
def sizeMax : Nat := 2 ^ 64 - 1

/-- `CCEnumeratorState` (Enumerator.h), the two formats the implementations use.  The batch format holds the address of the
array and its count; as enumeration is only meaningful while the collection is not changed, the model keeps the elements at that address. -/
inductive Cursor (α : Type) where
  | batch (items : List α) (index : Nat)
  | internal (ptr : Option Nat)

/-- `CCCollectionEnumeratorAction`. -/
inductive Action where
  | head | tail | next | previous | current

/-- `CCOrderedCollectionInterface` (CollectionInterface.h). -/
structure Ordered (σ α : Type) where
  insert : σ → α → Nat → Bool → Option (σ × Entry)
  entry : σ → Nat → Option (σ × Entry)
  index : σ → Entry → Option Nat
  replace : Option (σ → α → Nat → Option (σ × Entry))
  remove : Option (σ → Nat → Option σ)
  removeLast : Option (σ → Option σ)
  append : Option (σ → α → Bool → Option (σ × Entry))
  prepend : Option (σ → α → Bool → Option (σ × Entry))
  element : Option (σ → Nat → Option α)
  lastEntry : Option (σ → Option Entry)

/-- `CCCollectionInterface` (CollectionInterface.h).  `insertCollection`, `find`, `findCollection`, `allEntries` and the
other optional functions no implementation provides are left out. -/
structure Iface (σ α : Type) where
  create : σ
  destroy : σ → Option Unit
  count : σ → Nat
  insert : σ → α → Bool → Option (σ × Entry)
  remove : σ → Entry → Option σ
  element : σ → Entry → Option α
  enumerator : σ → Cursor α → Action → Option (Cursor α × Option α)
  enumeratorReference : σ → Cursor α → Option (σ × Entry)
  removeAll : Option (σ → Option σ)
  removeCollection : Option (σ → List Entry → Option σ)
  ordered : Ordered σ α

/-- `CCCollectionInfo`: the implementation's state, whether a destructor was given; `log` records the elements passed to the
destructor, in order. -/
structure Coll (σ α : Type) where
  s : σ
  dtor : Bool
  log : List α

section generic
variable {σ α : Type} (I : Iface σ α)

/-! ## Enumerating (CollectionEnumerator.h) -/

/-- `CCCollectionGetEnumerator` (Collection.c:411-417) and `CCCollectionEnumeratorGetCurrent` (CollectionEnumerator.h:126-144): the cursor and the first element. -/
def first (s : σ) : Option (Cursor α × Option α) := do
  let (c, _) ← I.enumerator s (.internal none) .head
  match c with
  | .batch items index => some (c, items[index]?)
  | .internal _ => I.enumerator s c .current

/-- `CCCollectionEnumeratorGetTail` (CollectionEnumerator.h:151-154). -/
def last (s : σ) : Option (Cursor α × Option α) := I.enumerator s (.internal none) .tail

/-- `CCCollectionEnumeratorNext` (CollectionEnumerator.h:156-180). -/
def next (s : σ) (c : Cursor α) : Option (Cursor α × Option α) :=
  match c with
  | .batch items index =>
    if items.length = 0 then some (c, none)
    else if index + 1 < items.length then some (.batch items (index + 1), items[index + 1]?)
    else I.enumerator s c .next
  | .internal _ => I.enumerator s c .next

/-- `CCCollectionEnumeratorPrevious` (CollectionEnumerator.h:182-206). -/
def previous (s : σ) (c : Cursor α) : Option (Cursor α × Option α) :=
  match c with
  | .batch items index =>
    if items.length = 0 then some (c, none)
    else if 0 < index then some (.batch items (index - 1), items[index - 1]?)
    else I.enumerator s c .previous
  | .internal _ => I.enumerator s c .previous

/-- The loop `for (E = current; E; E = advance)`, collecting the positions and elements it visits.  Running out of iterations is
an endless loop. -/
def visit (adv : Cursor α → Option (Cursor α × Option α)) : Nat → Cursor α → Option α → Option (List (Cursor α × α))
  | _, _, none => some []
  | 0, _, some _ => none
  | f + 1, c, some x => do
    let (c', y) ← adv c
    let r ← visit adv f c' y
    return (c, x) :: r

/-- The loop over a whole collection from the head, as in `CC_COLLECTION_FOREACH` (CollectionEnumerator.h:46-62). -/
def forward (s : σ) : Option (List (Cursor α × α)) := do
  let (c, x) ← first I s
  visit (next I s) (I.count s + 1) c x

/-- The loop over a whole collection from the tail. -/
def backward (s : σ) : Option (List (Cursor α × α)) := do
  let (c, x) ← last I s
  visit (previous I s) (I.count s + 1) c x

/-! ## Collection.c -/

/-- `CCCollectionCreateWithImplementation` (Collection.c:145-177), with or without a destructor. -/
def create (dtor : Bool) : Coll σ α := ⟨I.create, dtor, []⟩

/-- `if (Collection->destructor) Collection->destructor(Collection, Element)`. -/
def dispose (c : Coll σ α) (x : α) : Coll σ α := if c.dtor then { c with log := c.log ++ [x] } else c

/-- `CCCollectionDestructor` (Collection.c:129-143), run by `CCCollectionDestroy` (179-184): the final destructor log. -/
def destroyColl (c : Coll σ α) : Option (List α) := do
  let log ← if c.dtor then (do let v ← forward I c.s; return c.log ++ v.map Prod.snd) else some c.log
  let _ ← I.destroy c.s
  return log

/-- `CCCollectionGetCount` (Collection.c:292-297). -/
def getCount (c : Coll σ α) : Nat := I.count c.s

/-- `CCCollectionInsertElement` (Collection.c:186-191). -/
def insertElement (c : Coll σ α) (x : α) (ok : Bool) : Option (Coll σ α × Entry) := do
  let (s, e) ← I.insert c.s x ok
  return ({ c with s }, e)

/-- `CCCollectionGetElement` (Collection.c:285-290). -/
def getElement (c : Coll σ α) (e : Entry) : Option (Option α) :=
  if e = 0 then some none else do
    let x ← I.element c.s e
    return some x

/-- `CCCollectionRemoveElement` (Collection.c:193-205). -/
def removeElement (c : Coll σ α) (e : Entry) : Option (Coll σ α) :=
  if e = 0 then some c else do
    let x ← I.element c.s e
    let c := dispose c x
    let s ← I.remove c.s e
    return { c with s }

/-- The destructor loop of `CCCollectionRemoveCollection` (Collection.c:259-268): the elements of the given entries. -/
def elements (c : Coll σ α) : List Entry → Option (List α)
  | [] => some []
  | e :: es => do
    let x ← I.element c.s e
    let r ← elements c es
    return x :: r

/-- `CCCollectionRemoveElement` for each entry in turn (Collection.c:273-281). -/
def removeEach (c : Coll σ α) : List Entry → Option (Coll σ α)
  | [] => some c
  | e :: es => do
    let c ← removeElement I c e
    removeEach c es

/-- `CCCollectionRemoveCollection` (Collection.c:252-283). -/
def removeColl (c : Coll σ α) (es : List Entry) : Option (Coll σ α) :=
  match I.removeCollection with
  | some f => do
    let xs ← if c.dtor then elements I c es else some []
    let s ← f c.s es
    return { c with s, log := c.log ++ xs }
  | none => removeEach I c es

/-- The loop of `CCCollectionGetAllEntries` (Collection.c:329-336): the entry of every position visited.  Asking for an entry may
change the implementation's state. -/
def entriesOf (s : σ) : List (Cursor α × α) → Option (σ × List Entry)
  | [] => some (s, [])
  | (c, _) :: r => do
    let (s, e) ← I.enumeratorReference s c
    let (s, es) ← entriesOf s r
    return (s, e :: es)

/-- `CCCollectionGetAllEntries` (Collection.c:320-340). -/
def getAllEntries (c : Coll σ α) : Option (Coll σ α × List Entry) := do
  let v ← forward I c.s
  let (s, es) ← entriesOf I c.s v
  return ({ c with s }, es)

/-- `CCCollectionRemoveAllElements` (Collection.c:207-218). -/
def removeAllElements (c : Coll σ α) : Option (Coll σ α) :=
  match I.removeAll with
  | some f => do
    let s ← f c.s
    return { c with s }
  | none => do
    let (c, es) ← getAllEntries I c
    removeColl I c es

/-- `CCCollectionInsertCollection` (Collection.c:220-250), asking for the entries; `Elements` is another collection. -/
def insertColl (c : Coll σ α) (ok : Bool) : List α → Option (Coll σ α × List Entry)
  | [] => some (c, [])
  | x :: xs => do
    let (c, e) ← insertElement I c x ok
    let (c, es) ← insertColl c ok xs
    return (c, e :: es)

/-- The loops of `CCCollectionFindElement` (Collection.c:352-381): the entry of the first element the comparison accepts. -/
def findLoop (p : α → Bool) (s : σ) : List (Cursor α × α) → Option (σ × Entry)
  | [] => some (s, 0)
  | (c, x) :: r => if p x then I.enumeratorReference s c else findLoop p s r

/-- `CCCollectionFindElement` (Collection.c:342-384); `p` is "equal to the wanted element" by the comparator or `memcmp`. -/
def findElement (c : Coll σ α) (p : α → Bool) : Option (Coll σ α × Entry) := do
  let v ← forward I c.s
  let (s, e) ← findLoop I p c.s v
  return ({ c with s }, e)

/-- `CCCollectionFindCollection` (Collection.c:386-409); the wanted elements given by their comparisons. -/
def findColl (c : Coll σ α) : List (α → Bool) → Option (Coll σ α × List Entry)
  | [] => some (c, [])
  | p :: ps => do
    let (c, e) ← findElement I c p
    let (c, es) ← findColl c ps
    return (c, if e = 0 then es else e :: es)

/-! ## OrderedCollection.c -/

/-- `CCOrderedCollectionInsertElementAtIndex` (OrderedCollection.c:31-37). -/
def insertAt (c : Coll σ α) (x : α) (i : Nat) (ok : Bool) : Option (Coll σ α × Entry) :=
  if i ≤ I.count c.s then do
    let (s, e) ← I.ordered.insert c.s x i ok
    return ({ c with s }, e)
  else none

/-- `CCOrderedCollectionAppendElement` (OrderedCollection.c:39-45). -/
def append (c : Coll σ α) (x : α) (ok : Bool) : Option (Coll σ α × Entry) :=
  match I.ordered.append with
  | some f => do
    let (s, e) ← f c.s x ok
    return ({ c with s }, e)
  | none => insertAt I c x (I.count c.s) ok

/-- `CCOrderedCollectionPrependElement` (OrderedCollection.c:47-53). -/
def prepend (c : Coll σ α) (x : α) (ok : Bool) : Option (Coll σ α × Entry) :=
  match I.ordered.prepend with
  | some f => do
    let (s, e) ← f c.s x ok
    return ({ c with s }, e)
  | none => insertAt I c x 0 ok

/-- `CCOrderedCollectionGetEntryAtIndex` (OrderedCollection.c:113-119). -/
def entryAt (c : Coll σ α) (i : Nat) : Option (Coll σ α × Entry) :=
  if i < I.count c.s then do
    let (s, e) ← I.ordered.entry c.s i
    return ({ c with s }, e)
  else none

/-- `CCOrderedCollectionGetElementAtIndex` (OrderedCollection.c:139-146). -/
def elementAt (c : Coll σ α) (i : Nat) : Option (Coll σ α × Option α) :=
  if i < I.count c.s then
    match I.ordered.element with
    | some f => do
      let x ← f c.s i
      return (c, some x)
    | none => do
      let (c, e) ← entryAt I c i
      let x ← getElement I c e
      return (c, x)
  else none

/-- `Collection->destructor(Collection, CCOrderedCollectionGetElementAtIndex(Collection, Index))` when there is a destructor
(OrderedCollection.c:62-65, 86-89, 103-106).  A NULL element reaching the destructor is `none`. -/
def disposeAt (c : Coll σ α) (i : Nat) : Option (Coll σ α) :=
  if c.dtor then
    match elementAt I c i with
    | some (c, some x) => some (dispose c x)
    | _ => none
  else some c

/-- `CCOrderedCollectionRemoveElementAtIndex` (OrderedCollection.c:79-94). -/
def removeAt (c : Coll σ α) (i : Nat) : Option (Coll σ α) :=
  if i < I.count c.s then
    match I.ordered.remove with
    | some f => do
      let c ← disposeAt I c i
      let s ← f c.s i
      return { c with s }
    | none => do
      let (c, e) ← entryAt I c i
      removeElement I c e
  else none

/-- `CCOrderedCollectionReplaceElementAtIndex` (OrderedCollection.c:55-77). -/
def replaceAt (c : Coll σ α) (x : α) (i : Nat) (ok : Bool) : Option (Coll σ α × Entry) :=
  if i < I.count c.s then
    match I.ordered.replace with
    | some f => do
      let c ← disposeAt I c i
      let (s, e) ← f c.s x i
      return ({ c with s }, e)
    | none => do
      let (c, e) ← insertAt I c x i ok
      let c ← removeAt I c (i + 1)
      return (c, e)
  else none

/-- `CCOrderedCollectionRemoveLastElement` (OrderedCollection.c:96-111). -/
def removeLast (c : Coll σ α) : Option (Coll σ α) :=
  if I.count c.s = 0 then none
  else
    match I.ordered.removeLast with
    | some f => do
      let c ← disposeAt I c (I.count c.s - 1)
      let s ← f c.s
      return { c with s }
    | none => removeAt I c (I.count c.s - 1)

/-- `CCOrderedCollectionGetLastEntry` (OrderedCollection.c:121-130). -/
def lastEntry (c : Coll σ α) : Option (Coll σ α × Entry) :=
  if I.count c.s = 0 then some (c, 0)
  else
    match I.ordered.lastEntry with
    | some f => do
      let e ← f c.s
      return (c, e)
    | none => entryAt I c (I.count c.s - 1)

/-- `CCOrderedCollectionGetIndex` (OrderedCollection.c:132-137). -/
def indexOf (c : Coll σ α) (e : Entry) : Option Nat := I.ordered.index c.s e

/-- `CCOrderedCollectionGetLastElement` (OrderedCollection.c:148-153). -/
def lastElement (c : Coll σ α) : Option (Coll σ α × Option α) := do
  let (c, e) ← lastEntry I c
  let x ← getElement I c e
  return (c, x)

end generic

/-! ## CollectionFastArray.c -/
namespace Fast
variable {α : Type}

/-- `CCArrayAppendElement`: the index of the new element, or `SIZE_MAX` when growing fails (Array.c:63-83). -/
def arrayAppend (a : List α) (x : α) (ok : Bool) : List α × Nat := if ok then (a ++ [x], a.length) else (a, sizeMax)

/-- `CCArrayInsertElementAtIndex` (Array.c:144-168; `Index` must be below the count). -/
def arrayInsert (a : List α) (i : Nat) (x : α) (ok : Bool) : Option (List α × Nat) :=
  if i < a.length then some (if ok then (a.insertIdx i x, i) else (a, sizeMax)) else none

/-- `CCArrayRemoveElementAtIndex` (Array.c:197-203; `Index` must be below the count). -/
def arrayRemove (a : List α) (i : Nat) : Option (List α) := if i < a.length then some (a.eraseIdx i) else none

/-- `CCArrayReplaceElementAtIndex` (Array.c:111-117; `Index` must be below the count). -/
def arrayReplace (a : List α) (i : Nat) (x : α) : Option (List α) := if i < a.length then some (a.set i x) else none

/-- Address arithmetic on `size_t`: `n + 1` (CollectionFastArray.c:85-88). -/
def up (n : Nat) : Nat := (n + 1) % 2 ^ 64
/-- Address arithmetic on `size_t`: `n - 1` (CollectionFastArray.c:90-93). -/
def down (n : Nat) : Nat := (n + (2 ^ 64 - 1)) % 2 ^ 64

/-- `CCCollectionFastArrayInsert` (CollectionFastArray.c:133-136) and `CCOrderedCollectionFastArrayAppend` (217-220). -/
def insert (a : List α) (x : α) (ok : Bool) : Option (List α × Entry) :=
  let r := arrayAppend a x ok
  some (r.1, up r.2)

/-- `CCCollectionFastArrayRemove` (CollectionFastArray.c:138-141). -/
def remove (a : List α) (e : Entry) : Option (List α) := arrayRemove a (down e)

/-- `CCCollectionFastArrayElement` (CollectionFastArray.c:143-146). -/
def element (a : List α) (e : Entry) : Option α := a[down e]?

/-- `CCCollectionFastArrayEnumerator` (CollectionFastArray.c:148-173). -/
def enumerator (a : List α) (c : Cursor α) : Action → Option (Cursor α × Option α)
  | .head => some (.batch a 0, a[0]?)
  | .tail => some (.batch a (down a.length), if a.length = 0 then none else a[a.length - 1]?)
  | _ => some (c, none)

/-- `CCCollectionFastArrayEnumeratorEntry` (CollectionFastArray.c:175-178). -/
def enumeratorEntry (a : List α) : Cursor α → Option (List α × Entry)
  | .batch _ index => some (a, up index)
  | .internal _ => none

/-- `CCCollectionFastArrayRemoveCollection` (CollectionFastArray.c:185-195): from the last entry of the collection to the first. -/
def removeLoop (a : List α) : List Entry → Option (List α)
  | [] => some a
  | e :: es => do
    let a ← arrayRemove a (down e)
    removeLoop a es

/-- `CCOrderedCollectionFastArrayInsert` (CollectionFastArray.c:197-203). -/
def insertAt (a : List α) (x : α) (i : Nat) (ok : Bool) : Option (List α × Entry) :=
  if i = a.length then insert a x ok
  else do
    let (a, j) ← arrayInsert a i x ok
    return (a, up j)

/-- `CCOrderedCollectionFastArrayReplace` (CollectionFastArray.c:205-210). -/
def replace (a : List α) (x : α) (i : Nat) : Option (List α × Entry) := do
  let a ← arrayReplace a i x
  return (a, up i)

/-- `CCCollectionFastArrayInterface` (CollectionFastArray.c:52-82). -/
def iface : Iface (List α) α where
  create := []
  destroy _ := some ()
  count := List.length
  insert := insert
  remove := remove
  element := element
  enumerator := enumerator
  enumeratorReference := enumeratorEntry
  removeAll := some fun _ => some []
  removeCollection := some fun a es => removeLoop a es.reverse
  ordered := {
    insert := insertAt
    entry := fun a i => some (a, up i)
    index := fun _ e => some (down e)
    replace := some replace
    remove := some fun a i => arrayRemove a i
    removeLast := none
    append := some insert
    prepend := none
    element := some fun a i => a[i]?
    lastEntry := none }

end Fast

/-! ## CollectionList.c -/
namespace CList
open LinkedList
variable {α : Type}

/-- `CCCollectionListInternal` (CollectionList.c:31-39): a header node followed by the element nodes; `tail` is `data.end`.
`data` is the payload of the element nodes. -/
structure St (α : Type) where
  h : Heap
  data : Nat → Option α
  root : Nat
  tail : Option Nat
  count : Nat

/-- Entry for a node pointer. -/
def ptr : Option Nat → Entry
  | none => 0
  | some n => n + 1

/-- `CCCollectionListConstructor` (CollectionList.c:103-106). -/
def create : St α :=
  ⟨(createNode .empty).1, fun _ => none, (createNode .empty).2, none, 0⟩

/-- Read the payload of a node (`CCLinkedListGetNodeData`, LinkedList.h:347-350); the node must be usable and hold an element. -/
def payload (s : St α) (n : Nat) : Option α := if s.h.live n then s.data n else none

/-- Create an element node (`CCLinkedListCreateNode`). -/
def newNode (s : St α) (x : α) : St α × Nat :=
  ({ s with h := (createNode s.h).1, data := fun m => if m = s.h.size then some x else s.data m }, s.h.size)

/-- The node after which to append (CollectionList.c:123, 196). -/
def endOf (s : St α) : Nat := s.tail.getD s.root

/-- `CCCollectionListInsert` (CollectionList.c:118-129). -/
def insert (s : St α) (x : α) (ok : Bool) : Option (St α × Entry) :=
  if ok then do
    let (s, n) := newNode s x
    let (h, e) ← LinkedList.append s.h (endOf s) n
    return ({ s with h, tail := some e, count := s.count + 1 }, n + 1)
  else some (s, 0)

/-- The update of `data.end` in `CCCollectionListRemove` (CollectionList.c:133-137). -/
def newTail (s : St α) (n : Nat) : Option (Option Nat) := do
  match ← nextOf s.h n with
  | some _ => return s.tail
  | none =>
    match ← prevOf s.h n with
    | none => none
    | some p =>
      match ← prevOf s.h p with
      | none => return none
      | some _ => return some p

/-- `CCCollectionListRemove` (CollectionList.c:131-141). -/
def removeNode (s : St α) (n : Nat) : Option (St α) := do
  let tail ← newTail s n
  let h ← destroyNode s.h n
  return { s with h, tail, count := s.count - 1 }

/-- `CCCollectionListRemove` on an entry. -/
def remove (s : St α) (e : Entry) : Option (St α) := if e = 0 then none else removeNode s (e - 1)

/-- `CCCollectionListElement` (CollectionList.c:143-146). -/
def element (s : St α) (e : Entry) : Option α := if e = 0 then none else payload s (e - 1)

/-- `Enumerator->internal.ptr ? data : NULL` (CollectionList.c:175). -/
def at' (s : St α) (p : Option Nat) : Option (Cursor α × Option α) :=
  match p with
  | none => some (.internal none, none)
  | some n => do
    let x ← payload s n
    return (.internal (some n), some x)

/-- `CCCollectionListEnumerator` (CollectionList.c:148-176). -/
def enumerator (s : St α) (c : Cursor α) : Action → Option (Cursor α × Option α)
  | .head => do at' s (← nextOf s.h s.root)
  | .tail => at' s s.tail
  | .next =>
    match c with
    | .internal (some n) => do at' s (← nextOf s.h n)
    | _ => none
  | .previous =>
    match c with
    | .internal (some n) => do
      let p ← prevOf s.h n
      at' s (if p = some s.root then none else p)
    | _ => none
  | .current =>
    match c with
    | .internal p => at' s p
    | _ => none

/-- `CCCollectionListEnumeratorEntry` (CollectionList.c:178-181). -/
def enumeratorEntry (s : St α) : Cursor α → Option (St α × Entry)
  | .internal p => some (s, ptr p)
  | .batch .. => none

/-- `for (Loop = 0; Loop < Index && Node; Loop++) Node = next` (CollectionList.c:212-215). -/
def forwardN (h : Heap) : Nat → Option Nat → Option (Option Nat)
  | 0, p => some p
  | _ + 1, none => some none
  | i + 1, some n => do forwardN h i (← nextOf h n)

/-- `for (Loop = count - 1; Loop > Index && Node; Loop--) Node = previous` (CollectionList.c:221-224), `k` iterations. -/
def backwardN (h : Heap) : Nat → Option Nat → Option (Option Nat)
  | 0, p => some p
  | _ + 1, none => some none
  | i + 1, some n => do backwardN h i (← prevOf h n)

/-- `CCOrderedCollectionListEntry` (CollectionList.c:206-228).  `count - 1` wraps when the count is zero; then `Index > 0` and the node is
NULL, so no iteration happens; the model's truncated subtraction makes no iteration either. -/
def nodeAt (s : St α) (i : Nat) : Option (Option Nat) :=
  if i ≤ s.count / 2 then do forwardN s.h i (← nextOf s.h s.root)
  else if s.count ≠ i then backwardN s.h (s.count - 1 - i) s.tail
  else some none

/-- `CCOrderedCollectionListEntry` as an interface function. -/
def entry (s : St α) (i : Nat) : Option (St α × Entry) := do
  let p ← nodeAt s i
  return (s, ptr p)

/-- `CCOrderedCollectionListInsert` (CollectionList.c:183-204). -/
def insertAt (s : St α) (x : α) (i : Nat) (ok : Bool) : Option (St α × Entry) :=
  if ok then do
    let (s, n) := newNode s x
    match ← nodeAt s i with
    | some nx =>
      let (h, _) ← insertBefore s.h nx n
      return ({ s with h, count := s.count + 1 }, n + 1)
    | none =>
      let (h, e) ← LinkedList.append s.h (endOf s) n
      return ({ s with h, tail := some e, count := s.count + 1 }, n + 1)
  else some (s, 0)

/-- The search loop of `CCOrderedCollectionListIndex` (CollectionList.c:234-243). -/
def indexLoop (h : Heap) (target : Nat) : Nat → Nat → Option Nat → Option Nat
  | _, _, none => some sizeMax
  | 0, _, some _ => none
  | f + 1, k, some n => if n = target then some k else do indexLoop h target f (k + 1) (← nextOf h n)

/-- `CCOrderedCollectionListIndex` (CollectionList.c:230-246). -/
def index (s : St α) (e : Entry) : Option Nat :=
  if e = 0 then none else do
    match ← nextOf s.h (e - 1) with
    | none => return s.count - 1
    | some _ => indexLoop s.h (e - 1) s.h.size 0 (← nextOf s.h s.root)

/-- `CCOrderedCollectionListRemoveLast` (CollectionList.c:253-256). -/
def removeLast (s : St α) : Option (St α) :=
  match s.tail with
  | none => some s
  | some n => removeNode s n

/-- `CCCollectionListInterface` (CollectionList.c:57-80). -/
def iface : Iface (St α) α where
  create := create
  destroy s := (LinkedList.destroy s.h s.root).map fun _ => ()
  count s := s.count
  insert := insert
  remove := remove
  element := element
  enumerator := enumerator
  enumeratorReference := enumeratorEntry
  removeAll := none
  removeCollection := none
  ordered := {
    insert := insertAt
    entry := entry
    index := index
    replace := none
    remove := none
    removeLast := some removeLast
    append := none
    prepend := none
    element := none
    lastEntry := some fun s => some (ptr s.tail) }

end CList

/-! ## CollectionArray.c -/
namespace Arr
open LinkedList
variable {α : Type}

/-- `CCCollectionArrayInternal` (CollectionArray.c:38-41): the array and the linked list of entry nodes; `idx` is the `index`
field of the entry nodes (`CCCollectionArrayEntry`, 33-36). -/
structure St (α : Type) where
  arr : List α
  h : Heap
  idx : Nat → Nat
  entries : Option Nat

/-- `CCCollectionArrayConstructor` (CollectionArray.c:180-214). -/
def create : St α := ⟨[], .empty, fun _ => 0, none⟩

/-- The loop of `FindEntryForIndex` (CollectionArray.c:96-104). -/
def findLoop (h : Heap) (idx : Nat → Nat) (i : Nat) : Nat → Option Nat → Option (Option Nat)
  | _, none => some none
  | 0, some _ => none
  | f + 1, some n => do
    let nx ← nextOf h n
    if idx n = i then return some n else findLoop h idx i f nx

/-- `FindEntryForIndex` (CollectionArray.c:91-108). -/
def find (s : St α) (i : Nat) : Option (Option Nat) := findLoop s.h s.idx i s.h.size s.entries

/-- `ConvertIndexToEntry` (CollectionArray.c:110-121): the entry node for an index, created when there is none. -/
def entryOf (s : St α) (i : Nat) : Option (St α × Entry) := do
  match ← find s i with
  | some n => return (s, n + 1)
  | none =>
    let n := s.h.size
    let s := { s with h := (createNode s.h).1, idx := fun m => if m = n then i else s.idx m }
    match s.entries with
    | none => return ({ s with entries := some n }, n + 1)
    | some l =>
      let (h, hd) ← LinkedList.insert s.h l n
      return ({ s with h, entries := some hd }, n + 1)

/-- `ConvertEntryToIndex` (CollectionArray.c:123-126). -/
def indexOf (s : St α) (e : Entry) : Option Nat :=
  if e = 0 then some sizeMax else if s.h.live (e - 1) then some (s.idx (e - 1)) else none

/-- The loop of `ShiftEntriesDownAfterIndex` (CollectionArray.c:128-134) and `ShiftEntriesUpAfterIndex` (136-142): `f` is
`index--` or `index++` (on `size_t`), applied to the entries with `index >= i`. -/
def shiftLoop (h : Heap) (f : Nat → Nat) (i : Nat) : Nat → (Nat → Nat) → Option Nat → Option (Nat → Nat)
  | _, idx, none => some idx
  | 0, _, some _ => none
  | k + 1, idx, some n => do
    let nx ← nextOf h n
    shiftLoop h f i k (if idx n ≥ i then fun m => if m = n then f (idx n) else idx m else idx) nx

/-- `ShiftEntriesUpAfterIndex` (CollectionArray.c:136-142). -/
def shiftUp (s : St α) (i : Nat) : Option (St α) := do
  let idx ← shiftLoop s.h Fast.up i s.h.size s.idx s.entries
  return { s with idx }

/-- `ShiftEntriesDownAfterIndex` (CollectionArray.c:128-134). -/
def shiftDown (s : St α) (i : Nat) : Option (St α) := do
  let idx ← shiftLoop s.h Fast.down i s.h.size s.idx s.entries
  return { s with idx }

/-- `if (CCLinkedListIsHead(Entry)) Internal->entries = next` (CollectionArray.c:150). -/
def headAfter (s : St α) (n : Nat) : Option (Option Nat) := do
  match ← prevOf s.h n with
  | none => nextOf s.h n
  | some _ => return s.entries

/-- `RemoveEntry` (CollectionArray.c:144-155). -/
def removeEntry (s : St α) (e : Entry) : Option (St α) :=
  if e = 0 then some s else do
    let i ← indexOf s e
    let entries ← headAfter s (e - 1)
    let h ← destroyNode s.h (e - 1)
    shiftDown { s with h, entries } i

/-- `CCCollectionArrayInsert` (CollectionArray.c:229-234). -/
def insert (s : St α) (x : α) (ok : Bool) : Option (St α × Entry) :=
  let r := Fast.arrayAppend s.arr x ok
  entryOf { s with arr := r.1 } r.2

/-- `CCCollectionArrayRemove` (CollectionArray.c:236-240). -/
def remove (s : St α) (e : Entry) : Option (St α) := do
  let i ← indexOf s e
  let arr ← Fast.arrayRemove s.arr i
  removeEntry { s with arr } e

/-- `CCCollectionArrayElement` (CollectionArray.c:242-245). -/
def element (s : St α) (e : Entry) : Option α := do
  let i ← indexOf s e
  s.arr[i]?

/-- `CCCollectionArrayEnumerator` (CollectionArray.c:247-272). -/
def enumerator (s : St α) (c : Cursor α) : Action → Option (Cursor α × Option α)
  | .head => some (.batch s.arr 0, s.arr[0]?)
  | .tail => some (.batch s.arr (Fast.down s.arr.length), if s.arr.length = 0 then none else s.arr[s.arr.length - 1]?)
  | _ => some (c, none)

/-- `CCCollectionArrayEnumeratorEntry` (CollectionArray.c:274-277). -/
def enumeratorEntry (s : St α) : Cursor α → Option (St α × Entry)
  | .batch _ index => entryOf s index
  | .internal _ => none

/-- The array part of `CCOrderedCollectionArrayInsert` (CollectionArray.c:281-282). -/
def place (a : List α) (x : α) (i : Nat) (ok : Bool) : Option (List α × Nat) :=
  if i = a.length then some (Fast.arrayAppend a x ok) else Fast.arrayInsert a i x ok

/-- `CCOrderedCollectionArrayInsert` (CollectionArray.c:279-287). -/
def insertAt (s : St α) (x : α) (i : Nat) (ok : Bool) : Option (St α × Entry) := do
  let r ← place s.arr x i ok
  let s ← shiftUp { s with arr := r.1 } r.2
  entryOf s r.2

/-- `CCOrderedCollectionArrayReplace` (CollectionArray.c:289-294). -/
def replace (s : St α) (x : α) (i : Nat) : Option (St α × Entry) := do
  let arr ← Fast.arrayReplace s.arr i x
  entryOf { s with arr } i

/-- `RemoveEntryForIndex` (CollectionArray.c:157-160). -/
def removeEntryForIndex (s : St α) (i : Nat) : Option (St α) := do
  match ← find s i with
  | none => removeEntry s 0
  | some n => removeEntry s (n + 1)

/-- `CCOrderedCollectionArrayRemove` (CollectionArray.c:296-300). -/
def removeAt (s : St α) (i : Nat) : Option (St α) := do
  let arr ← Fast.arrayRemove s.arr i
  removeEntryForIndex { s with arr } i

/-- `CCLinkedListDestroy(Internal->entries)` in `CCCollectionArrayDestructor` (CollectionArray.c:216-222). -/
def destroy (s : St α) : Option Unit :=
  match s.entries with
  | none => some ()
  | some n => (LinkedList.destroy s.h n).map fun _ => ()

/-- `CCCollectionArrayInterface` (CollectionArray.c:62-86). -/
def iface : Iface (St α) α where
  create := create
  destroy := destroy
  count s := s.arr.length
  insert := insert
  remove := remove
  element := element
  enumerator := enumerator
  enumeratorReference := enumeratorEntry
  removeAll := none
  removeCollection := none
  ordered := {
    insert := insertAt
    entry := entryOf
    index := indexOf
    replace := some replace
    remove := some removeAt
    removeLast := none
    append := none
    prepend := none
    element := some fun s i => s.arr[i]?
    lastEntry := none }

end Arr

end Verif.Collection
