import Verif.IndexMap
/-!
# Model of the index map with elements stored by pointer (`ConcurrentIndexMap.c` 171-301), one thread

Elements of 16 bytes or more (339-347) are allocated one by one and counted by reference; the buffer has pointers to them.

* An element is a value of type `α`; equality of the bytes is equality of the values.  An element that was freed keeps its place in the model, so that its address is not given out again; using it is a fault.
* The reference count of an element is the one of C38: 0 means that it is freed.
* The data (48-52) is allocated once and freed once: it is a place in `datas`, empty once it is freed.
* The garbage collector is its contract (C18, C19) for one thread: what was handed over is freed at any time between two calls, in any order, and what is left is freed when the collector is destroyed.
* Every `CCMalloc` may fail: each call is given the outcomes in order, and those that follow succeed.
* With one thread `mutate` and `modify` only change during an operation and every exchange succeeds; these are left out.
* `SIZE_MAX` as `SkipIndex` or `ExtraIndex` is `none`.  Sizes are natural numbers: their overflow is not modelled.
* `CCConcurrentIndexMapCreate` is modelled without failures; it uses the data without a check whether it was allocated (378-379).
-/
namespace Verif.PtrMap
open IndexMap (Slot Res maxCount write load shift initLoop appendLoop)

/-- The elements: the value and the reference count of each, by address. -/
abbrev Heap (α : Type) := List (α × Nat)

/-- `CCConcurrentIndexMapData` (48-52) with pointers (171-173); `unset` is `NULL`, `raw` is not initialised. -/
structure Data where
  count : Nat
  buf : List (Slot Nat)
deriving DecidableEq, Repr

/-- What was handed over to the garbage collector, with `CCFree`: an element (211, 238, 263), or data (620, 655, 689). -/
inductive Item where
  | elem (p : Nat)
  | data (d : Nat)
deriving DecidableEq, Repr

/-- The map (95-100), the memory, and what the collector holds. -/
structure St (α : Type) where
  chunk : Nat
  heap : Heap α
  datas : List (Option Data)
  cur : Nat
  held : List Item
deriving DecidableEq, Repr

variable {α : Type}

/-- `CCMalloc` of an element and the `memcpy` to it (179-182, 228-231, 249-252, 283-290): it has one reference. -/
def new (h : Heap α) (x : α) : Heap α × Nat := (h ++ [(x, 1)], h.length)

/-- `CCRetain` of an element (195); a fault if it is freed. -/
def retain (h : Heap α) (p : Nat) : Option (Heap α) := match h[p]? with
  | some (x, n + 1) => some (h.set p (x, n + 2))
  | _ => none

/-- `CCFree` of an element; a fault if it is freed already. -/
def free (h : Heap α) (p : Nat) : Option (Heap α) := match h[p]? with
  | some (x, n + 1) => some (h.set p (x, n))
  | _ => none

/-- Reading an element (203, 237, 257); a fault if it is freed. -/
def read (h : Heap α) (p : Nat) : Option α := match h[p]? with
  | some (x, _ + 1) => some x
  | _ => none

/-- The outcome of the next `CCMalloc`, and those after it. -/
def malloc : List Bool → Bool × List Bool
  | [] => (true, [])
  | ok :: fs => (ok, fs)

/-- `CleanupElements` (362-366) from slot `i` on, with `destroyElement` (216-221); `n` slots are left. -/
def cleanup (h : Heap α) (b : List (Slot Nat)) (i : Nat) : Nat → Option (Heap α)
  | 0 => some h
  | n + 1 => do
    match ← load b i with
    | .set p => cleanup (← free h p) b (i + 1) n
    | _ => cleanup h b (i + 1) n

/-- `CCFree` of data: its destructor runs (545, 382, 362-366). -/
def freeData (chunk : Nat) (h : Heap α) (d : Data) : Option (Heap α) := cleanup h d.buf 0 (maxCount chunk d.count)

/-- The loop that copies the pointers (542) with `copyElement` (192-198), from `loop` on; `n` of them.  `CCRetain` of `NULL` does nothing (`MemoryAllocation.c` 77-80). -/
def copyLoop (h : Heap α) (src b : List (Slot Nat)) (skip extra : Option Nat) (loop : Nat) : Nat → Option (Heap α × List (Slot Nat))
  | 0 => some (h, b)
  | n + 1 => do
    match ← load src (shift loop skip) with
    | .set p => copyLoop (← retain h p) src (← write b (shift loop extra) (.set p)) skip extra (loop + 1) n
    | v => copyLoop h src (← write b (shift loop extra) v) skip extra (loop + 1) n

/-- `CCConcurrentIndexMapResize` (533-549) once the data is allocated. -/
def resize (h : Heap α) (src : List (Slot Nat)) (count max : Nat) (skip extra : Option Nat) : Option (Heap α × Data) := do
  let (h, b) ← copyLoop h src (List.replicate max .raw) skip extra 0 count
  let first := shift count extra
  let b ← initLoop b first (max - first)
  return (h, ⟨count + (if skip = none then 1 else 0), b⟩)

/-- The loop that empties the new data when the element cannot be allocated (610), with `removeElement` (207-214), from slot `i` on; `n` slots are left.  The buffer, and what was handed over to the collector. -/
def removeLoop (b : List (Slot Nat)) (i : Nat) : Nat → Option (List (Slot Nat) × List Item)
  | 0 => some (b, [])
  | n + 1 => do
    let v ← load b i
    let (b, r) ← removeLoop (← write b i .unset) (i + 1) n
    match v with
    | .set p => return (b, .elem p :: r)
    | _ => return (b, r)

/-- The data of the map. -/
def St.data (s : St α) : Option Data := s.datas[s.cur]?.join

/-- A write to a slot of the data of the map. -/
def St.store (s : St α) (i p : Nat) : Option (St α) := do
  let d ← s.data
  return { s with datas := s.datas.set s.cur (some { d with buf := ← write d.buf i (.set p) }) }

/-- The exchange of `pointer` and the hand-over of the old data (618-620, 652-655, 687-689). -/
def St.publish (s : St α) (h : Heap α) (d : Data) : St α :=
  { s with heap := h, datas := s.datas ++ [some d], cur := s.datas.length, held := s.held ++ [.data s.cur] }

/-- `CCConcurrentIndexMapCreate` (368-406); the assertion that `ChunkSize` is at least 1 (370). -/
def create (chunk : Nat) : Option (St α) :=
  if chunk < 1 then none else do
    let b ← initLoop (List.replicate chunk .raw) 0 chunk
    return ⟨chunk, [], [some ⟨0, b⟩], 0, []⟩

/-- `CCConcurrentIndexMapGetElementAtIndex` (435-450), `getElement` (200-205). -/
def get (s : St α) (i : Nat) : Option (Option α) := do
  let d ← s.data
  if i < maxCount s.chunk d.count then
    match ← load d.buf i with
    | .set p => return some (← read s.heap p)
    | _ => return none
  else return none

/-- `CCConcurrentIndexMapReplaceElementAtIndex` (452-490), `setElement` (223-242): the element that was replaced, if there was one. -/
def replace (s : St α) (i : Nat) (x : α) (fs : List Bool) : Option (St α × Option α) := do
  let d ← s.data
  if i < maxCount s.chunk d.count then
    match ← load d.buf i with
    | .set p =>
      if (malloc fs).1 then
        let (h, q) := new s.heap x
        let s ← { s with heap := h }.store i q
        let y ← read s.heap p
        return ({ s with held := s.held ++ [.elem p] }, some y)
      else return (s, none)
    | _ => return (s, none)
  else return (s, none)

/-- `CCConcurrentIndexMapReplaceExactElementAtIndex` (492-531), `compareAndSwapElement` (244-276). -/
def replaceExact [DecidableEq α] (s : St α) (i : Nat) (x old : α) (fs : List Bool) : Option (St α × Bool) := do
  let d ← s.data
  if i < maxCount s.chunk d.count then
    match ← load d.buf i with
    | .set p =>
      if (malloc fs).1 then
        let (h, q) := new s.heap x
        let y ← read h p
        if y = old then
          let s ← { s with heap := h }.store i q
          return ({ s with held := s.held ++ [.elem p] }, true)
        else
          let h ← free h q
          return ({ s with heap := h }, false)
      else return (s, false)
    | _ => return (s, false)
  else return (s, false)

/-- `CCConcurrentIndexMapAppendElement` (551-633), `appendElement` (278-301): the index, or `none` for `SIZE_MAX`.  With one thread the loop (562) goes round at most once: the test whether `Index` is the count (603) is only reached with `Index = MaxCount`;
if it failed the code would loop for ever, a fault here.  `State` (561) is the element `q`: it is freed at the end unless it is in the map (587, 630). -/
def append (s : St α) (x : α) (fs : List Bool) : Option (St α × Option Nat) := do
  let d ← s.data
  let max := maxCount s.chunk d.count
  let (ok, fs) := malloc fs
  if ok then
    let (h, q) := new s.heap x
    match ← appendLoop d.buf q d.count (max - d.count) with
    | (some b, i) => return ({ s with heap := h, datas := s.datas.set s.cur (some ⟨d.count + 1, b⟩) }, some i)
    | (none, i) =>
      if i = d.count then
        let (ok, fs) := malloc fs
        if ok then
          let (h, e) ← resize h d.buf i (max + s.chunk) none none
          if (malloc fs).1 then
            let (h, r) := new h x
            let b ← write e.buf i (.set r)
            let s := s.publish h ⟨e.count, b⟩
            return ({ s with heap := ← free s.heap q }, some i)
          else
            let (b, r) ← removeLoop e.buf 0 e.count
            let h ← freeData s.chunk h ⟨e.count, b⟩
            return ({ s with heap := ← free h q, held := s.held ++ r }, none)
        else return ({ s with heap := ← free h q }, none)
      else none
  else return (s, none)

/-- The loop of `CCConcurrentIndexMapRemoveElementAtIndex` (640-663), `d` being the data of the map: it goes round until the data can be allocated (649). -/
def removeTry (s : St α) (d : Data) (i : Nat) : List Bool → Option (St α × Option α)
  | false :: fs => removeTry s d i fs
  | _ => do
    let (h, e) ← resize s.heap d.buf (d.count - 1) (maxCount s.chunk (d.count - 1)) (some i) none
    let s := s.publish h e
    match ← load d.buf i with
    | .set p => return (s, some (← read s.heap p))
    | _ => none

/-- `CCConcurrentIndexMapRemoveElementAtIndex` (635-668): the element that was removed. -/
def remove (s : St α) (i : Nat) (fs : List Bool) : Option (St α × Option α) := do
  let d ← s.data
  if i ≥ d.count ∨ d.count = 0 then return (s, none) else removeTry s d i fs

/-- The loop of `CCConcurrentIndexMapInsertElementAtIndex` (675-697), `d` being the data of the map: it goes round until the data and the element can be allocated (687).  If only the data can be allocated it is freed again (696). -/
def insertTry (s : St α) (d : Data) (i : Nat) (x : α) : List Bool → Option (St α × Bool)
  | false :: fs => insertTry s d i x fs
  | true :: false :: fs => do
    let (h, e) ← resize s.heap d.buf d.count (maxCount s.chunk (d.count + 1)) none (some i)
    let h ← freeData s.chunk h e
    insertTry { s with heap := h } d i x fs
  | _ => do
    let (h, e) ← resize s.heap d.buf d.count (maxCount s.chunk (d.count + 1)) none (some i)
    let (h, q) := new h x
    let b ← write e.buf i (.set q)
    return (s.publish h ⟨e.count, b⟩, true)

/-- `CCConcurrentIndexMapInsertElementAtIndex` (670-702) -/
def insert (s : St α) (i : Nat) (x : α) (fs : List Bool) : Option (St α × Bool) := do
  let d ← s.data
  if i ≥ d.count ∨ d.count = 0 then return (s, false) else insertTry s d i x fs

/-- The garbage collector frees an item. -/
def freeItem (s : St α) : Item → Option (St α)
  | .elem p => do return { s with heap := ← free s.heap p }
  | .data k => do
    let d ← s.datas[k]?.join
    return { s with heap := ← freeData s.chunk s.heap d, datas := s.datas.set k none }

/-- The garbage collector frees all items. -/
def freeItems (s : St α) : List Item → Option (St α)
  | [] => some s
  | t :: ts => do freeItems (← freeItem s t) ts

/-- `CCConcurrentIndexMapDestroy` (408-412), `CCConcurrentIndexMapDestructor` (354-360): the data of the map is freed, then the collector is destroyed. -/
def destroy (s : St α) : Option (St α) := do
  let s ← freeItem s (.data s.cur)
  let s' ← freeItems s s.held
  return { s' with held := [] }

/-- The calls. -/
inductive Op (α : Type) where
  | count
  | get (i : Nat)
  | replace (i : Nat) (x : α)
  | replaceExact (i : Nat) (x old : α)
  | append (x : α)
  | remove (i : Nat)
  | insert (i : Nat) (x : α)
deriving Repr

/-- What happens: a call, with the outcomes of its allocations; or the collector frees the item at a place, if there is one. -/
inductive Ev (α : Type) where
  | call (o : Op α) (fs : List Bool)
  | collect (k : Nat)
deriving Repr

/-- One call. -/
def exec [DecidableEq α] (s : St α) (fs : List Bool) : Op α → Option (St α × Res α)
  | .count => do return (s, .num (some (← s.data).count))
  | .get i => do return (s, .elem (← get s i))
  | .replace i x => do let (s, a) ← replace s i x fs; return (s, .elem a)
  | .replaceExact i x old => do let (s, b) ← replaceExact s i x old fs; return (s, .bool b)
  | .append x => do let (s, i) ← append s x fs; return (s, .num i)
  | .remove i => do let (s, a) ← remove s i fs; return (s, .elem a)
  | .insert i x => do let (s, b) ← insert s i x fs; return (s, .bool b)

/-- The collector frees the item at place `k`. -/
def collect (s : St α) (k : Nat) : Option (St α) := match s.held[k]? with
  | none => some s
  | some t => freeItem { s with held := s.held.eraseIdx k } t

/-- A sequence of events, and what the calls returned. -/
def run [DecidableEq α] (s : St α) : List (Ev α) → Option (St α × List (Res α))
  | [] => some (s, [])
  | .collect k :: es => do run (← collect s k) es
  | .call o fs :: es => do
    let (s, r) ← exec s fs o
    let (s, rs) ← run s es
    return (s, r :: rs)

end Verif.PtrMap
