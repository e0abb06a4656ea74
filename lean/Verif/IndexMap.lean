/-!
# Model of the index map (`ConcurrentIndexMap.c`), one thread

* An element is a value of type `α`; elements stored in the buffer (102-150) and elements stored by pointer (171-301) behave alike, and equality of the bytes is equality of the values.
* With one thread `mutate` and `modify` only change during an operation, every exchange succeeds, and what is handed over to the garbage collector is not used again; these are left out.
* `SIZE_MAX` as `SkipIndex` or `ExtraIndex` is `none`.  Sizes are natural numbers: their overflow is not modelled.
* A buffer that cannot be allocated: `append` returns `SIZE_MAX` (606-616); `remove` and `insert` try again until it can be (650, 685), so only the successful try is modelled.
-/
namespace Verif.IndexMap

/-- A slot of the buffer: not yet initialised; empty; or with an element. -/
inductive Slot (α : Type) where
  | raw
  | unset
  | set (a : α)
deriving DecidableEq, Repr

/-- `CCConcurrentIndexMapInfo` with its `CCConcurrentIndexMapData` (48-52, 95-100, 104-105). -/
structure Map (α : Type) where
  chunk : Nat
  count : Nat
  buf : List (Slot α)
deriving DecidableEq, Repr

variable {α : Type}

/-- `CCConcurrentIndexMapGetMaxCount` (349-352) -/
def maxCount (chunk count : Nat) : Nat := (count / chunk + (if count % chunk ≠ 0 ∨ count = 0 then 1 else 0)) * chunk

/-- A write to a slot; `none` outside the buffer. -/
def write (b : List (Slot α)) (i : Nat) (s : Slot α) : Option (List (Slot α)) := if i < b.length then some (b.set i s) else none

/-- An atomic load of a slot; `none` outside the buffer or if it is not initialised. -/
def load (b : List (Slot α)) (i : Nat) : Option (Slot α) := match b[i]? with
  | some .raw | none => none
  | some s => some s

/-- The loop that initialises slots `i`, `i + 1`, ... (380, 543); `n` of them. -/
def initLoop (b : List (Slot α)) (i : Nat) : Nat → Option (List (Slot α))
  | 0 => some b
  | n + 1 => do initLoop (← write b i .unset) (i + 1) n

/-- `CCConcurrentIndexMapCreate` (368-406); the assertion that `ChunkSize` is at least 1 (370). -/
def create (chunk : Nat) : Option (Map α) :=
  if chunk < 1 then none else do return ⟨chunk, 0, ← initLoop (List.replicate chunk .raw) 0 chunk⟩

/-- `CCConcurrentIndexMapGetCount` (414-426) -/
def getCount (m : Map α) : Nat := m.count

/-- `CCConcurrentIndexMapGetElementAtIndex` (435-450), `getElement` (117-122): the element if there is one; the outer `none` is a fault. -/
def get (m : Map α) (i : Nat) : Option (Option α) :=
  if i < maxCount m.chunk m.count then do
    match ← load m.buf i with
    | .set a => return some a
    | _ => return none
  else some none

/-- `CCConcurrentIndexMapReplaceElementAtIndex` (452-490), `setElement` (131-138): the element that was replaced, if there was one. -/
def replace (m : Map α) (i : Nat) (x : α) : Option (Map α × Option α) :=
  if i < maxCount m.chunk m.count then do
    match ← load m.buf i with
    | .set a => return ({ m with buf := ← write m.buf i (.set x) }, some a)
    | _ => return (m, none)
  else some (m, none)

/-- `CCConcurrentIndexMapReplaceExactElementAtIndex` (492-531), `compareAndSwapElement` (139-142) -/
def replaceExact [DecidableEq α] (m : Map α) (i : Nat) (x old : α) : Option (Map α × Bool) :=
  if i < maxCount m.chunk m.count then do
    if (← load m.buf i) = .set old then return ({ m with buf := ← write m.buf i (.set x) }, true) else return (m, false)
  else some (m, false)

/-- `Loop < Index ? Loop : Loop + 1` (542) -/
def shift (loop : Nat) (index : Option Nat) : Nat := match index with
  | none => loop
  | some i => if loop < i then loop else loop + 1

/-- The loop that copies the elements (542), from `loop` on; `n` of them. -/
def copyLoop (src b : List (Slot α)) (skip extra : Option Nat) (loop : Nat) : Nat → Option (List (Slot α))
  | 0 => some b
  | n + 1 => do copyLoop src (← write b (shift loop extra) (← load src (shift loop skip))) skip extra (loop + 1) n

/-- `CCConcurrentIndexMapResize` (533-549): the new buffer and its count. -/
def resize (src : List (Slot α)) (count max : Nat) (skip extra : Option Nat) : Option (List (Slot α) × Nat) := do
  let b ← copyLoop src (List.replicate max .raw) skip extra 0 count
  let first := shift count extra
  let b ← initLoop b first (max - first)
  return (b, count + (if skip = none then 1 else 0))

/-- `appendElement` (143-150): the first empty slot from `i` on is given the element; `n` slots are left.  The buffer and the index; the buffer is missing if there was no empty slot. -/
def appendLoop (b : List (Slot α)) (x : α) (i : Nat) : Nat → Option (Option (List (Slot α)) × Nat)
  | 0 => some (none, i)
  | n + 1 => do
    match ← load b i with
    | .unset => return (some (← write b i (.set x)), i)
    | _ => appendLoop b x (i + 1) n

/-- `CCConcurrentIndexMapAppendElement` (551-633): the index, or `none` for `SIZE_MAX`.  `ok`: can a new buffer be allocated?  With one thread the loop (562) goes round at most once: the test whether `Index` is the count (603) is only reached with
`Index = MaxCount`; if it failed the code would loop for ever, a fault here. -/
def append (m : Map α) (ok : Bool) (x : α) : Option (Map α × Option Nat) := do
  let max := maxCount m.chunk m.count
  match ← appendLoop m.buf x m.count (max - m.count) with
  | (some b, i) => return ({ m with buf := b, count := m.count + 1 }, some i)
  | (none, i) =>
    if i = m.count then
      if ok then do
        let (b, c) ← resize m.buf i (max + m.chunk) none none
        let b ← write b i (.set x)
        return ({ m with buf := b, count := c }, some i)
      else return (m, none)
    else none

/-- `CCConcurrentIndexMapRemoveElementAtIndex` (635-668): the element that was removed. -/
def remove (m : Map α) (i : Nat) : Option (Map α × Option α) :=
  if i ≥ m.count ∨ m.count = 0 then some (m, none) else do
    let (b, c) ← resize m.buf (m.count - 1) (maxCount m.chunk (m.count - 1)) (some i) none
    match ← load m.buf i with
    | .set a => return ({ m with buf := b, count := c }, some a)
    | _ => none

/-- `CCConcurrentIndexMapInsertElementAtIndex` (670-702) -/
def insert (m : Map α) (i : Nat) (x : α) : Option (Map α × Bool) :=
  if i ≥ m.count ∨ m.count = 0 then some (m, false) else do
    let (b, c) ← resize m.buf m.count (maxCount m.chunk (m.count + 1)) none (some i)
    let b ← write b i (.set x)
    return ({ m with buf := b, count := c }, true)

/-- The calls. -/
inductive Op (α : Type) where
  | count
  | get (i : Nat)
  | replace (i : Nat) (x : α)
  | replaceExact (i : Nat) (x old : α)
  | append (ok : Bool) (x : α)
  | remove (i : Nat)
  | insert (i : Nat) (x : α)

/-- What a call returns: a number (`none` for `SIZE_MAX`), an element (`none` for false), or a truth value. -/
inductive Res (α : Type) where
  | num (n : Option Nat)
  | elem (a : Option α)
  | bool (b : Bool)
deriving DecidableEq, Repr

/-- One call. -/
def exec [DecidableEq α] (m : Map α) : Op α → Option (Map α × Res α)
  | .count => some (m, .num (some (getCount m)))
  | .get i => do return (m, .elem (← get m i))
  | .replace i x => do let (m, a) ← replace m i x; return (m, .elem a)
  | .replaceExact i x old => do let (m, b) ← replaceExact m i x old; return (m, .bool b)
  | .append ok x => do let (m, i) ← append m ok x; return (m, .num i)
  | .remove i => do let (m, a) ← remove m i; return (m, .elem a)
  | .insert i x => do let (m, b) ← insert m i x; return (m, .bool b)

/-- A sequence of calls. -/
def run [DecidableEq α] (m : Map α) : List (Op α) → Option (Map α × List (Res α))
  | [] => some (m, [])
  | o :: os => do
    let (m, r) ← exec m o
    let (m, rs) ← run m os
    return (m, r :: rs)

end Verif.IndexMap
