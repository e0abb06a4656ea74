import Verif.PListSpec
/-!
# Model of the CCList appends when memory runs out (`CommonC/List.c`:74-153)

As `Verif/PList.lean`, but the environment decides for every array append whether the memory it asks for is granted, and for every new page
whether the block for the elements of its array is granted (when it is not, `CCArrayCreate` still returns an array, Array.c:37-56).
The blocks of the page nodes and of the array headers themselves are always granted: the code does not test for them (List.c:85, 110).
-/
namespace Verif.PListFail
open Verif.Array hiding Op step create append appendN
open Verif.PList

/-- `CCListAppendElement` (List.c:74-93).  `okNew`: is the block of elements of a new page granted; `ok`: is growth granted. -/
def append {α} (L : PL α) (e : Option α) (okNew ok : Bool) : Except Fault (PL α × Ret) := do
  let k := L.pages.length - 1
  let a ← page L k
  if a.count = L.pageSize then
    let b ← Array.create α a.chunk okNew
    let (b, r) ← Array.append b e ok
    if r = .sizeMax then return ({ L with pages := L.pages ++ [b], hasLast := true }, .sizeMax)
    else return ({ L with pages := L.pages ++ [b], count := L.count + 1, hasLast := true }, .index L.count)
  else
    let (a, r) ← Array.append a e ok
    if r = .sizeMax then return ({ L with pages := L.pages.set k a, hasLast := true }, .sizeMax)
    else return ({ L with pages := L.pages.set k a, count := L.count + 1, hasLast := true }, .index L.count)

/-- Loop of `CCListAppendElements` (List.c:103-147).  `okNew n` and `ok n` are the environment's choices in the iteration that starts when `n`
elements have been copied.  Besides the pages it returns `some n` when an append failed after `n` elements had been copied (the value of `Loop`). -/
def appendLoop {α} (pageSize : Nat) (s : Src α) (okNew ok : Nat → Bool) : Nat → Nat → List (Arr α) → Except Fault (List (Arr α) × Option Nat)
  | 0, loop, pages => if loop < s.count then .error .assertion else .ok (pages, none)
  | fuel + 1, loop, pages =>
    if loop < s.count then do
      let k := pages.length - 1
      let some a := pages[k]? | .error .outOfBounds
      let available := pageSize - a.count
      let copyCount := s.count - loop
      if copyCount > available then
        let b ← Array.create α a.chunk (okNew loop)
        if available = 0 then
          let src ← slice s loop pageSize
          let (b, r) ← Array.appendN b src (ok loop)
          if r = .sizeMax then return (pages ++ [b], some loop)
          else appendLoop pageSize s okNew ok fuel (loop + pageSize) (pages ++ [b])
        else
          let src ← slice s loop available
          let (a, r) ← Array.appendN a src (ok loop)
          if r = .sizeMax then return (pages.set k a ++ [b], some loop)
          else appendLoop pageSize s okNew ok fuel (loop + available) (pages.set k a ++ [b])
      else
        let src ← slice s loop copyCount
        let (a, r) ← Array.appendN a src (ok loop)
        if r = .sizeMax then return (pages.set k a, some loop)
        else appendLoop pageSize s okNew ok fuel (loop + copyCount) (pages.set k a)
    else .ok (pages, none)

/-- Undoing a partly done append (List.c:124-141): the pages behind the page the old end lies on are dropped, and the elements from the old end on
are removed from that page. -/
def restore {α} (L : PL α) (pages : List (Arr α)) : Except Fault (List (Arr α)) := do
  let p := L.count / L.pageSize
  let some a := pages[p]? | .error .outOfBounds
  let ei := L.count - p * L.pageSize
  let (a, _) ← Array.removeN a ei (L.pageSize - ei)
  return pages.take p ++ [a]

/-- `CCListAppendElements` (List.c:95-153). -/
def appendN {α} (L : PL α) (s : Src α) (okNew ok : Nat → Bool) : Except Fault (PL α × Ret) := do
  let (pages, failed) ← appendLoop L.pageSize s okNew ok s.count 0 L.pages
  match failed with
  | none => return ({ L with pages := pages, count := L.count + s.count, hasLast := true }, .index L.count)
  | some 0 => return ({ L with pages := pages, hasLast := true }, .sizeMax)
  | some _ =>
    let pages ← restore L pages
    return ({ L with pages := pages, hasLast := true }, .sizeMax)

end Verif.PListFail
