import Verif.Array
/-!
# Model of `CommonC/List.c`, `List.h` (CCList, a list of array pages)

The pages are the model of `CCArray` (`Verif/Array.lean`, memory blocks with faults included).  The chain of page nodes is a Lean list (the
page nodes are private to the list and CCLinkedList is treated separately in `Verif/LinkedList.lean`); walking off either end of
the chain is a fault.  All allocations succeed in this model (`ok = true`): the failure branches (List.c:122-144, 213-217) are not modelled.
-/
namespace Verif.PList
open Verif.Array

/-- `CCListInfo` (List.h:44-50).  `hasLast` says whether `last` is set; it then points to the final node of the chain. -/
structure PL (α : Type) where
  chunk : Nat
  pageSize : Nat
  count : Nat
  pages : List (Arr α)
  hasLast : Bool

/-- `CCListCreate` (List.c:40-65): the page size is rounded up to a multiple of the chunk size. -/
def create (α : Type) (chunk pageSize : Nat) : Except Fault (PL α) :=
  if 1 ≤ chunk ∧ 1 ≤ pageSize then do
    let a ← Array.create α chunk true
    let diff := pageSize % chunk
    return { chunk, pageSize := if diff ≠ 0 then pageSize + (chunk - diff) else pageSize, count := 0, pages := [a], hasLast := true }
  else .error .assertion

/-- The array of a page node; a NULL node is a fault. -/
def page {α} (L : PL α) (k : Nat) : Except Fault (Arr α) :=
  match L.pages[k]? with
  | some a => .ok a
  | none => .error .outOfBounds

/-- `CCListAppendElement` (List.c:74-93). -/
def append {α} (L : PL α) (e : Option α) : Except Fault (PL α × Ret) := do
  let k := L.pages.length - 1
  let a ← page L k
  if a.count = L.pageSize then
    let b ← Array.create α a.chunk true
    let (b, _) ← Array.append b e true
    return ({ L with pages := L.pages ++ [b], count := L.count + 1, hasLast := true }, .index L.count)
  else
    let (a, _) ← Array.append a e true
    return ({ L with pages := L.pages.set k a, count := L.count + 1, hasLast := true }, .index L.count)

/-- `Elements + (Loop * size)`, of which `n` elements are going to be read (List.c:122).  A NULL pointer stays NULL only for `Loop = 0`;
otherwise a garbage address is read. -/
def slice {α} (s : Src α) (loop n : Nat) : Except Fault (Src α) :=
  match s with
  | .null _ => if loop = 0 then .ok (.null n) else .error .outOfBounds
  | .buf vs => if loop + n ≤ vs.length then .ok (.buf ((vs.drop loop).take n)) else .error .outOfBounds

/-- Loop of `CCListAppendElements` (List.c:103-147), on the pages.  Every iteration copies at least one element, so `fuel = Count` iterations
suffice; the page arrays are passed as a list whose last element is the current `Node`. -/
def appendLoop {α} (pageSize : Nat) (s : Src α) : Nat → Nat → List (Arr α) → Except Fault (List (Arr α))
  | 0, loop, pages => if loop < s.count then .error .assertion else .ok pages
  | fuel + 1, loop, pages =>
    if loop < s.count then do
      let k := pages.length - 1
      let some a := pages[k]? | .error .outOfBounds
      let available := pageSize - a.count
      let copyCount := s.count - loop
      if copyCount > available then
        let b ← Array.create α a.chunk true
        if available = 0 then
          -- the new page is used, and `CopyCount = Available = pageSize`
          let src ← slice s loop pageSize
          let (b, _) ← Array.appendN b src true
          appendLoop pageSize s fuel (loop + pageSize) (pages ++ [b])
        else
          let src ← slice s loop available
          let (a, _) ← Array.appendN a src true
          appendLoop pageSize s fuel (loop + available) (pages.set k a ++ [b])
      else
        let src ← slice s loop copyCount
        let (a, _) ← Array.appendN a src true
        appendLoop pageSize s fuel (loop + copyCount) (pages.set k a)
    else .ok pages

/-- `CCListAppendElements` (List.c:95-153). -/
def appendN {α} (L : PL α) (s : Src α) : Except Fault (PL α × Ret) := do
  let pages ← appendLoop L.pageSize s s.count 0 L.pages
  return ({ L with pages := pages, count := L.count + s.count, hasLast := true }, .index L.count)

/-- `CCListGetPage` (List.h:224-250): index of the node reached, walking from the nearer end.  Called with `PageIndex ≤ MaxPageIndex` only. -/
def getPage {α} (L : PL α) (p : Nat) : Except Fault Nat :=
  let max := (L.count - 1) / L.pageSize
  if L.hasLast ∧ p > max - p then
    let d := max - p
    if d < L.pages.length then .ok (L.pages.length - 1 - d) else .error .outOfBounds
  else if p < L.pages.length then .ok p else .error .outOfBounds

/-- `CCListReplaceElementAtIndex` (List.c:155-166). -/
def replace {α} (L : PL α) (i : Nat) (e : Option α) : Except Fault (PL α × Ret) :=
  if i < L.count then do
    let k ← getPage L (i / L.pageSize)
    let a ← page L k
    let (a, _) ← Array.replace a (i - i / L.pageSize * L.pageSize) e
    return ({ L with pages := L.pages.set k a }, .unit)
  else .error .assertion

/-- Putting the element carried over from the previous page at the front of the page (List.c:201-202). -/
def pushFront {α} (dst : Arr α) (x : Option α) : Except Fault (Arr α × Ret) :=
  if dst.count ≠ 0 then Array.insert dst 0 x true else Array.append dst x true

/-- Loop of `CCListInsertElementAtIndex` (List.c:196-205): from the tail node `k` back to node `p`, the last element of the page before
moves to the front of the page.  An uninitialised element is copied as uninitialised. -/
def shift {α} (pageSize p : Nat) : Nat → List (Arr α) → Except Fault (List (Arr α))
  | 0, pages => if p = 0 then .ok pages else .error .outOfBounds
  | k + 1, pages =>
    if k + 1 = p then .ok pages
    else do
      let some src := pages[k]? | .error .outOfBounds
      let some dst := pages[k + 1]? | .error .outOfBounds
      let x ← Array.get src (pageSize - 1)
      let (dst, _) ← pushFront dst x
      let (src, _) ← Array.remove src (pageSize - 1)
      shift pageSize p k ((pages.set (k + 1) dst).set k src)

/-- When the tail page `a` (node `k`) is full a new page is chained after it (List.c:179-194).  Returns the pages and the tail node. -/
def makeRoom {α} (L : PL α) (k : Nat) (a : Arr α) : Except Fault (List (Arr α) × Nat) :=
  if a.count = L.pageSize then do
    let b ← Array.create α a.chunk true
    return (L.pages ++ [b], k + 1)
  else return (L.pages, k)

/-- Placing the new element in its page (List.c:207-211): the page may have become one element too short for an insertion. -/
def place {α} (a : Arr α) (ei : Nat) (e : Option α) : Except Fault (Arr α × Ret) :=
  if ei = a.count then Array.append a e true else Array.insert a ei e true

/-- `CCListInsertElementAtIndex` (List.c:168-222). -/
def insert {α} (L : PL α) (i : Nat) (e : Option α) : Except Fault (PL α × Ret) :=
  if i < L.count then do
    let p ← getPage { L with hasLast := true } (i / L.pageSize)
    let ei := i - i / L.pageSize * L.pageSize
    let k := L.pages.length - 1
    let a ← page L k
    let (pages, k) ← makeRoom L k a
    let pages ← shift L.pageSize p k pages
    let some a := pages[p]? | .error .outOfBounds
    let (a, _) ← place a ei e
    return ({ L with pages := pages.set p a, count := L.count + 1, hasLast := true }, .index i)
  else .error .assertion

/-- Loop of `CCListRemoveElementAtIndex` (List.c:236-242): the first element of each following page moves to the end of the
page before it.  Returns the pages from the current one on. -/
def pull {α} : Arr α → List (Arr α) → Except Fault (List (Arr α))
  | a, [] => .ok [a]
  | a, b :: rest => do
    let x ← Array.get b 0
    let (a, _) ← Array.append a x true
    let (b, _) ← Array.remove b 0
    let rest ← pull b rest
    return a :: rest

/-- `CCListRemoveElementAtIndex` (List.c:224-251).  (The node of an emptied last page is destroyed, its array is leaked.) -/
def remove {α} (L : PL α) (i : Nat) : Except Fault (PL α × Ret) :=
  if i < L.count then do
    let p ← getPage L (i / L.pageSize)
    let a ← page L p
    let (a, _) ← Array.remove a (i - i / L.pageSize * L.pageSize)
    let tail ← pull a (L.pages.drop (p + 1))
    let pages := L.pages.take p ++ tail
    let some z := pages[pages.length - 1]? | .error .outOfBounds
    let count := L.count - 1
    return ({ L with
      pages := if count ≠ 0 ∧ z.count = 0 then pages.dropLast else pages
      count := count
      hasLast := if count ≠ 0 ∧ z.count = 0 then true else L.hasLast }, .unit)
  else .error .assertion

/-- `CCListRemoveAllElements` (List.c:253-269). -/
def removeAll {α} (L : PL α) : Except Fault (PL α × Ret) := do
  let a ← page L 0
  let (a, _) ← Array.removeAll a
  return ({ L with pages := [a], count := 0, hasLast := true }, .unit)

/-- `CCListGetCount` (List.h:208-213). -/
def getCount {α} (L : PL α) : Nat := L.count

/-- `CCListGetElementAtIndex` (List.h:252-263). -/
def get {α} (L : PL α) (i : Nat) : Except Fault (Cell α) :=
  if i < L.count then do
    let k ← getPage L (i / L.pageSize)
    let a ← page L k
    Array.get a (i - i / L.pageSize * L.pageSize)
  else .error .assertion

/-- The mutating calls. -/
inductive Op (α : Type) where
  | append (e : Option α)
  | appendN (s : Src α)
  | replace (i : Nat) (e : Option α)
  | insert (i : Nat) (e : Option α)
  | remove (i : Nat)
  | removeAll

/-- One API call. -/
def step {α} (L : PL α) : Op α → Except Fault (PL α × Ret)
  | .append e => append L e
  | .appendN s => appendN L s
  | .replace i e => replace L i e
  | .insert i e => insert L i e
  | .remove i => remove L i
  | .removeAll => removeAll L

/-! ## Enumeration -/

/-- The batch state of the enumerator (List.c:359-381): `page` is `extra[0]` (NULL = none), `count` the size of the current batch, `index` the
position in it, `tail` is `extra[1]`. -/
structure Enum where
  page : Option Nat
  tail : Option Nat
  count : Nat
  index : Nat

/-- The element the enumerator points at (`ptr + index * stride`, or NULL when the batch is empty). -/
def Enum.current {α} (L : PL α) (s : Enum) : Except Fault (Option (Cell α)) :=
  if s.count = 0 then .ok none
  else match s.page with
    | none => .error .outOfBounds
    | some k => do
      let a ← PList.page L k
      let c ← Array.get a s.index
      return some c

/-- `CCListGetEnumerable` (List.c:359-381). -/
def getEnumerable {α} (L : PL α) : Except Fault Enum := do
  let a ← page L 0
  return { page := some 0, tail := if L.hasLast then some (L.pages.length - 1) else none, count := a.count, index := 0 }

/-- `CCEnumerableGetHead` with the list's handler (List.c:274-285, 356). -/
def enumHead {α} (L : PL α) (s : Enum) : Except Fault (Enum × Option (Cell α)) := do
  let a ← page L 0
  let s := { s with page := some 0, count := a.count, index := 0 }
  return (s, ← s.current L)

/-- `CCEnumerableGetTail` with the list's handler (List.c:287-303). -/
def enumTail {α} (L : PL α) (s : Enum) : Except Fault (Enum × Option (Cell α)) := do
  let t ← match s.tail with
    | some t => .ok t
    | none => match s.page with
      | some _ => .ok (L.pages.length - 1)
      | none => .error .outOfBounds
  let a ← page L t
  let s := { page := some t, tail := some t, count := a.count, index := a.count - 1 }
  return (s, ← Enum.current L s)

/-- `CCEnumerableNext` on a batch enumerator (Enumerable.h:180-205) with the list's handler (List.c:305-327, 356). -/
def enumNext {α} (L : PL α) (s : Enum) : Except Fault (Enum × Option (Cell α)) :=
  if s.count = 0 then .ok (s, none)
  else if s.index + 1 < s.count then do
    let s := { s with index := s.index + 1 }
    return (s, ← s.current L)
  else match s.page with
    | none => .ok (s, none)
    | some k =>
      if k + 1 < L.pages.length then do
        let a ← page L (k + 1)
        let s := { s with page := some (k + 1), count := a.count, index := 0 }
        return (s, ← s.current L)
      else .ok ({ page := none, tail := s.tail.or s.page, count := 0, index := 0 }, none)

/-- `CCEnumerablePrevious` on a batch enumerator (Enumerable.h:207-232) with the list's handler (List.c:329-350). -/
def enumPrev {α} (L : PL α) (s : Enum) : Except Fault (Enum × Option (Cell α)) :=
  if s.count = 0 then .ok (s, none)
  else if s.index > 0 then do
    let s := { s with index := s.index - 1 }
    return (s, ← s.current L)
  else match s.page with
    | none => .ok (s, none)
    | some 0 => .ok ({ s with page := none, count := 0, index := 0 }, none)
    | some (k + 1) => do
      let a ← PList.page L k
      let s := { s with page := some k, count := a.count, index := a.count - 1 }
      return (s, ← s.current L)

/-- The usual loop `for (e = Head/Tail; e; e = Next/Previous)`: collects the elements until NULL is returned (at most `fuel`). -/
def collect {α} (nxt : Enum → Except Fault (Enum × Option (Cell α))) : Nat → Enum × Option (Cell α) → Except Fault (List (Cell α))
  | _, (_, none) => .ok []
  | 0, (_, some _) => .error .assertion
  | fuel + 1, (s, some c) => do
    let rest ← collect nxt fuel (← nxt s)
    return c :: rest

/-- Enumerate forwards. -/
def forwards {α} (L : PL α) : Except Fault (List (Cell α)) := do
  let s ← getEnumerable L
  collect (enumNext L) L.count (← enumHead L s)

/-- Enumerate backwards. -/
def backwards {α} (L : PL α) : Except Fault (List (Cell α)) := do
  let s ← getEnumerable L
  collect (enumPrev L) L.count (← enumTail L s)

end Verif.PList
