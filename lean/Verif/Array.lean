/-!
# Model of `CommonC/Array.c` (CCArray)

A memory block is a list of cells; a cell is `none` while uninitialised.  All sizes are in elements
(the C code multiplies by `Array->size` throughout; overflow of that multiplication is not modelled).
An access outside the block is the distinct outcome `Fault.outOfBounds`, a failing `CCAssertLog` the outcome
`Fault.assertion`.  Whether an allocator request succeeds is an input (`ok`) chosen by the environment.
-/
namespace Verif.Array

/-- What can go wrong in a call: an assertion of the function fails, or memory outside the block is accessed. -/
inductive Fault where
  | assertion
  | outOfBounds
deriving DecidableEq, Repr

/-- A memory cell; `none` is uninitialised memory. -/
abbrev Cell (α : Type) := Option α

/-- `CCArrayInfo` (Array.h:43-47, fields `chunkSize`, `count`, `data`; `size` is abstracted by the element type).
`data = none` is the NULL pointer, otherwise the block currently allocated. -/
structure Arr (α : Type) where
  chunk : Nat
  count : Nat
  data : Option (List (Cell α))

/-- The `Elements` argument of the multi-element calls: NULL with a count, or a buffer holding that many elements
(Array.c:85, 119, 170; the caller's buffer is assumed to hold `Count` elements). -/
inductive Src (α : Type) where
  | null (n : Nat)
  | buf (vs : List α)

def Src.count {α} : Src α → Nat
  | .null n => n
  | .buf vs => vs.length

/-- What the caller can expect to find in cells filled from the source: unspecified (`none`) for NULL. -/
def Src.cells {α} : Src α → List (Cell α)
  | .null n => List.replicate n none
  | .buf vs => vs.map some

/-- Result of a call: nothing, an index, or `SIZE_MAX`. -/
inductive Ret where
  | unit
  | index (i : Nat)
  | sizeMax
deriving DecidableEq, Repr

/-- `memcpy` into the block at element offset `i` (used at Array.c:80, 103, 116, 125, 165, 192). -/
def write {α} (cells : List (Cell α)) (i : Nat) (vs : List (Cell α)) : Except Fault (List (Cell α)) :=
  if i + vs.length ≤ cells.length then .ok (cells.take i ++ vs ++ cells.drop (i + vs.length)) else .error .outOfBounds

/-- `memmove(data + dst, data + src, n)` (used at Array.c:144, 164, 191, 210). -/
def memmove {α} (cells : List (Cell α)) (dst src n : Nat) : Except Fault (List (Cell α)) :=
  if src + n ≤ cells.length then write cells dst ((cells.drop src).take n) else .error .outOfBounds

/-- `if (Element) memcpy(...)` : NULL writes nothing. -/
def writeSrc {α} (cells : List (Cell α)) (i : Nat) : Src α → Except Fault (List (Cell α))
  | .null _ => .ok cells
  | .buf vs => write cells i (vs.map some)

/-- A single optional element as a source. -/
def srcOf {α} : Option α → Src α
  | none => .null 1
  | some v => .buf [v]

/-- `CCRealloc(data, n)`: keeps the common prefix, new cells are uninitialised (C `realloc`; MemoryAllocation.c:52). -/
def realloc {α} (data : Option (List (Cell α))) (n : Nat) : List (Cell α) :=
  ((data.getD []) ++ List.replicate n none).take n

/-- The data pointer is dereferenced: NULL is out of bounds. -/
def deref {α} (a : Arr α) : Except Fault (List (Cell α)) :=
  match a.data with
  | none => .error .outOfBounds
  | some c => .ok c

/-- `CCArrayCreate` (Array.c:37-56); `ok` says whether the allocation of the data block succeeded. -/
def create (α : Type) (chunk : Nat) (ok : Bool) : Except Fault (Arr α) :=
  if 1 ≤ chunk then
    .ok { chunk := chunk, count := 0, data := if ok then some (List.replicate chunk none) else none }
  else .error .assertion

/-- Growth test of the single-element calls (Array.c:68 and 152). -/
def needGrow1 {α} (a : Arr α) : Bool :=
  a.count % a.chunk == 0 && (a.count != 0 || a.data.isNone)

/-- Growth test of the multi-element calls (Array.c:90-91 and 176-177). -/
def needGrowN {α} (a : Arr α) (n : Nat) : Bool :=
  decide (a.chunk - a.count % a.chunk < n) || (a.count % a.chunk == 0 && (a.count != 0 || a.data.isNone))

/-- `CCArrayAppendElement` (Array.c:64-83). -/
def append {α} (a : Arr α) (e : Option α) (ok : Bool) : Except Fault (Arr α × Ret) :=
  if needGrow1 a && !ok then .ok (a, .sizeMax)
  else do
    let a := if needGrow1 a then { a with data := some (realloc a.data ((a.count / a.chunk + 1) * a.chunk)) } else a
    let cells ← deref a
    let cells ← writeSrc cells a.count (srcOf e)
    return ({ a with data := some cells, count := a.count + 1 }, .index a.count)

/-- `CCArrayAppendElements` (Array.c:85-109). -/
def appendN {α} (a : Arr α) (s : Src α) (ok : Bool) : Except Fault (Arr α × Ret) :=
  if s.count = 0 then .error .assertion
  else if needGrowN a s.count && !ok then .ok (a, .sizeMax)
  else do
    let a := if needGrowN a s.count then
      { a with data := some (realloc a.data (((a.count + s.count) / a.chunk + 1) * a.chunk)) } else a
    let cells ← deref a
    let cells ← writeSrc cells a.count s
    return ({ a with data := some cells, count := a.count + s.count }, .index a.count)

/-- `CCArrayReplaceElementAtIndex` (Array.c:111-117). -/
def replace {α} (a : Arr α) (i : Nat) (e : Option α) : Except Fault (Arr α × Ret) :=
  if i < a.count then do
    let cells ← deref a
    let cells ← writeSrc cells i (srcOf e)
    return ({ a with data := some cells }, .unit)
  else .error .assertion

/-- `CCArrayReplaceElementsAtIndex` (Array.c:119-126): only `Index < count` is asserted. -/
def replaceN {α} (a : Arr α) (i : Nat) (s : Src α) : Except Fault (Arr α × Ret) :=
  if i < a.count ∧ s.count ≠ 0 then do
    let cells ← deref a
    let cells ← writeSrc cells i s
    return ({ a with data := some cells }, .unit)
  else .error .assertion

/-- `CCArrayCopyElementsAtIndex` (Array.c:137-145).  The asserted expression `Index + Count - 1` is `size_t`
arithmetic; it wraps only for `Index = Count = 0`, where the assertion fails as `Count = 0` does anyway. -/
def copyN {α} (a : Arr α) (i j n : Nat) : Except Fault (Arr α × Ret) :=
  if i + n - 1 < a.count ∧ j + n - 1 < a.count ∧ n ≠ 0 then do
    let cells ← deref a
    let cells ← memmove cells j i n
    return ({ a with data := some cells }, .unit)
  else .error .assertion

/-- `CCArrayCopyElementAtIndex` (Array.c:128-135). -/
def copy {α} (a : Arr α) (i j : Nat) : Except Fault (Arr α × Ret) :=
  if i < a.count ∧ j < a.count then copyN a i j 1 else .error .assertion

/-- `CCArrayInsertElementAtIndex` (Array.c:147-168). -/
def insert {α} (a : Arr α) (i : Nat) (e : Option α) (ok : Bool) : Except Fault (Arr α × Ret) :=
  if i < a.count then
    if needGrow1 a && !ok then .ok (a, .sizeMax)
    else do
      let a := if needGrow1 a then { a with data := some (realloc a.data ((a.count / a.chunk + 1) * a.chunk)) } else a
      let cells ← deref a
      let cells ← memmove cells (i + 1) i (a.count + 1 - (i + 1))
      let cells ← writeSrc cells i (srcOf e)
      return ({ a with data := some cells, count := a.count + 1 }, .index i)
  else .error .assertion

/-- `CCArrayInsertElementsAtIndex` (Array.c:170-195). -/
def insertN {α} (a : Arr α) (i : Nat) (s : Src α) (ok : Bool) : Except Fault (Arr α × Ret) :=
  if i < a.count ∧ s.count ≠ 0 then
    if needGrowN a s.count && !ok then .ok (a, .sizeMax)
    else do
      let a := if needGrowN a s.count then
        { a with data := some (realloc a.data (((a.count + s.count) / a.chunk + 1) * a.chunk)) } else a
      let cells ← deref a
      let cells ← memmove cells (i + s.count) i (a.count + s.count - (i + s.count))
      let cells ← writeSrc cells i s
      return ({ a with data := some cells, count := a.count + s.count }, .index i)
  else .error .assertion

/-- `CCArrayRemoveElementsAtIndex` (Array.c:205-212).  `Index + Count - 1` wraps to SIZE_MAX for
`Index = Count = 0`, failing the assertion. -/
def removeN {α} (a : Arr α) (i n : Nat) : Except Fault (Arr α × Ret) :=
  if i + n ≠ 0 ∧ i + n - 1 < a.count then do
    let cells ← deref a
    let cells ← memmove cells i (i + n) (a.count - (i + n))
    return ({ a with data := some cells, count := a.count - n }, .unit)
  else .error .assertion

/-- `CCArrayRemoveElementAtIndex` (Array.c:197-203). -/
def remove {α} (a : Arr α) (i : Nat) : Except Fault (Arr α × Ret) :=
  if i < a.count then removeN a i 1 else .error .assertion

/-- `CCArrayRemoveAllElements` (Array.c:214-219). -/
def removeAll {α} (a : Arr α) : Except Fault (Arr α × Ret) :=
  .ok ({ a with count := 0 }, .unit)

/-- `CCArrayGetElementAtIndex` (Array.h): asserts `Index < count`, then reads the cell. -/
def get {α} (a : Arr α) (i : Nat) : Except Fault (Cell α) :=
  if i < a.count then do
    let cells ← deref a
    match cells[i]? with
    | some c => .ok c
    | none => .error .outOfBounds
  else .error .assertion

/-- `CCArrayGetCount` (Array.h). -/
def getCount {α} (a : Arr α) : Nat := a.count

/-- The mutating calls of the API.  `ok` is the environment's choice for an allocation request in that call. -/
inductive Op (α : Type) where
  | append (e : Option α) (ok : Bool)
  | appendN (s : Src α) (ok : Bool)
  | replace (i : Nat) (e : Option α)
  | replaceN (i : Nat) (s : Src α)
  | copy (i j : Nat)
  | copyN (i j n : Nat)
  | insert (i : Nat) (e : Option α) (ok : Bool)
  | insertN (i : Nat) (s : Src α) (ok : Bool)
  | remove (i : Nat)
  | removeN (i n : Nat)
  | removeAll

/-- One API call. -/
def step {α} (a : Arr α) : Op α → Except Fault (Arr α × Ret)
  | .append e ok => append a e ok
  | .appendN s ok => appendN a s ok
  | .replace i e => replace a i e
  | .replaceN i s => replaceN a i s
  | .copy i j => copy a i j
  | .copyN i j n => copyN a i j n
  | .insert i e ok => insert a i e ok
  | .insertN i s ok => insertN a i s ok
  | .remove i => remove a i
  | .removeN i n => removeN a i n
  | .removeAll => removeAll a

end Verif.Array
