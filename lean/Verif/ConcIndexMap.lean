import Verif.IndexMap
import Verif.Conc
import Verif.ConcIndexMapSpec
/-!
# Model of the index map (`ConcurrentIndexMap.c`), any number of threads

Every atomic operation on the map and its data is one step; sequentially consistent.

* Elements stored in the buffer (102-150).  Elements stored by pointer (171-301) are not modelled here.
* The default build (`CC_CONCURRENT_INDEX_MAP_STRICT_COMPLIANCE` is 0): `mutate` and `modify` are changed on their own, and the whole of `pointer` (54-73, 98) is loaded and exchanged at once.
* `mutate` and `modify` have `w` values (`w = 2^32`).  In the model they are natural numbers, compared modulo `w` by the exchange of `pointer`.
* Data gets a new number each time.  The garbage collector is its contract (C18, C19): data handed over may be freed once no section that was in progress when it was handed over is in progress.  A call is one section.  In the model data is handed over at the
exchange of `pointer`, and the section ends at the last access of the call: both allow more to be freed.  Using freed data is a fault.  The address of data that is freed may be used again in the program; that cannot be confused with the address a call holds
as long as data is not freed while a call holds it, which is proved.
* The data being filled by `CCConcurrentIndexMapResize` (533-549) is known to its own thread only: only the loads from the old data are steps.
* Sizes are natural numbers: their overflow is not modelled.
-/
namespace Verif.ConcIndexMap
open IndexMap (maxCount)

/-- `CCConcurrentIndexMapData` (48-52): the count, and for each slot its element if it is set (104-105). -/
structure Blk (α : Type) where
  count : Nat
  slots : List (Option α)
deriving DecidableEq, Repr

/-- Not part of the program: the section number, and the number of changes made to the map before the call. -/
structure G where
  s : Nat
  t0 : Nat
deriving DecidableEq, Repr

/-- A thread.  `g`: see `G`; `c`: the call; `b`: `Pointer.data`; `m`: `Pointer.mutate`.  Not part of the program: `k`, the number of the change this call has made. -/
inductive PC (α : Type) where
  | idle
  /-- `GetCount` (414-418), `GetElementAtIndex` (435-439) -/
  | rd0 (g : G) (c : Call α)
  /-- loaded `pointer` (420, 441) -/
  | rd1 (g : G) (c : Call α) (b : Nat)
  /-- `GetElementAtIndex`: loaded the count, the index is below the maximum (442-445) -/
  | rd2 (g : G) (i b : Nat)
  /-- `ReplaceElementAtIndex` (452-457), `ReplaceExactElementAtIndex` (492-498), `AppendElement` (551-563) -/
  | md0 (g : G) (c : Call α)
  /-- incremented `modify` (465, 506, 570) -/
  | md1 (g : G) (c : Call α)
  /-- loaded `pointer` (467, 508, 572) -/
  | md2 (g : G) (c : Call α) (b m : Nat)
  /-- `ReplaceElementAtIndex`: loaded the count, the index is below the maximum (470-473) -/
  | rp3 (g : G) (i : Nat) (x : α) (b : Nat)
  /-- `setElement`: the slot is set (133-134) -/
  | rp4 (g : G) (i : Nat) (x : α) (b : Nat)
  /-- `ReplaceExactElementAtIndex`: loaded the count, the index is below the maximum (511-514) -/
  | rx3 (g : G) (i : Nat) (x old : α) (b : Nat)
  /-- `appendElement` at index `idx` (145) -/
  | ap3 (g : G) (x : α) (b m idx max : Nat)
  /-- `appendElement` has stored the element (147, 578-579) -/
  | ap4 (g : G) (x : α) (b idx k : Nat)
  /-- the map has been changed; `mutate` has not (483, 524, 584) -/
  | up (g : G) (c : Call α) (r : Res α) (k : Nat)
  /-- before `modify` is decremented (484, 525, 598) -/
  | fi (g : G) (c : Call α) (r : Res α) (k : Option Nat)
  /-- `appendElement` has found no slot; before `modify` is decremented (598) -/
  | af (g : G) (x : α) (b m idx max : Nat)
  /-- `modify` is decremented (598-601) -/
  | ag (g : G) (x : α) (b m idx max : Nat)
  /-- `RemoveElementAtIndex` (635-643), `InsertElementAtIndex` (670-678) -/
  | wr0 (g : G) (c : Call α)
  /-- loaded `pointer` (644, 679) -/
  | wr1 (g : G) (c : Call α) (b m : Nat)
  /-- `CCConcurrentIndexMapResize` with count `n` and maximum `max`; `got` has been copied (542) -/
  | cp (g : G) (c : Call α) (b m n max : Nat) (got : List (Option α))
  /-- `RemoveElementAtIndex`: exchanged `pointer` (652) -/
  | rm (g : G) (i b k : Nat)
  /-- freed data was used, or a slot that does not exist -/
  | fault
deriving DecidableEq, Repr

/-- The map (95-100) and the threads.  Not part of the program: `secs`, the number of sections begun; `retired`, for each data handed over to the collector, in order, the sections in progress at that moment; `till`, for each such data, the number of
changes made before it was handed over; `freed`, the data that is freed; `ops`, the changes made to the map so far; `done`, the calls that have returned. -/
structure Sys (α : Type) where
  mutate : Nat
  modify : Nat
  data : Nat
  blks : List (Blk α)
  thrs : List (PC α)
  secs : Nat
  retired : List (List Nat)
  till : List Nat
  freed : List Nat
  ops : List (Call α)
  done : List (Rec α)

variable {α : Type} [DecidableEq α]

/-- `CCConcurrentIndexMapCreate` (368-406); `n` threads. -/
def init (chunk n : Nat) : Sys α := ⟨0, 0, 0, [⟨0, List.replicate chunk none⟩], List.replicate n .idle, 0, [], [], [], [], []⟩

/-- The section a thread is in. -/
def PC.g? : PC α → Option G
  | .rd0 g _ | .rd1 g _ _ | .rd2 g _ _ | .md0 g _ | .md1 g _ | .md2 g _ _ _ | .rp3 g _ _ _ | .rp4 g _ _ _ | .rx3 g _ _ _ _ | .ap3 g _ _ _ _ _ | .ap4 g _ _ _ _
  | .up g _ _ _ | .fi g _ _ _ | .af g _ _ _ _ _ | .ag g _ _ _ _ _ | .wr0 g _ | .wr1 g _ _ _ | .cp g _ _ _ _ _ _ | .rm g _ _ _ => some g
  | .idle | .fault => none

/-- The data the next step of a thread uses. -/
def PC.uses? : PC α → Option Nat
  | .rd1 _ _ b | .rd2 _ _ b | .md2 _ _ b _ | .rp3 _ _ _ b | .rp4 _ _ _ b | .rx3 _ _ _ _ b | .ap4 _ _ b _ _ | .ag _ _ b _ _ _ | .wr1 _ _ b _ | .rm _ _ b _ => some b
  | .ap3 _ _ b _ idx max => if idx < max then some b else none
  | .cp _ _ b _ n _ got => if got.length < n then some b else none
  | _ => none

/-- `Loop < SkipIndex ? Loop : Loop + 1` (542); only `RemoveElementAtIndex` skips an index (605, 649, 684). -/
def Call.from (c : Call α) (loop : Nat) : Nat := match c with
  | .remove i => if loop < i then loop else loop + 1
  | _ => loop

/-- The slot the next step of a thread uses. -/
def PC.slot? : PC α → Option Nat
  | .rd2 _ i _ | .rp3 _ i _ _ | .rp4 _ i _ _ | .rx3 _ i _ _ _ | .rm _ i _ _ => some i
  | .ap3 _ _ _ _ idx max => if idx < max then some idx else none
  | .cp _ c _ _ n _ got => if got.length < n then some (c.from got.length) else none
  | _ => none

/-- The `mutate` a thread has loaded and will compare. -/
def PC.tag? : PC α → Option Nat
  | .md2 _ (.append _) _ m | .ap3 _ _ _ m _ _ | .af _ _ _ m _ _ | .ag _ _ _ m _ _ | .wr1 _ _ _ m | .cp _ _ _ m _ _ _ => some m
  | _ => none

/-- The sections in progress. -/
def Sys.active (y : Sys α) : List Nat := y.thrs.filterMap fun p => p.g?.map G.s

/-- Has the thread stored an element without having counted it? -/
def PC.lag : PC α → Nat
  | .ap4 _ _ _ _ _ => 1
  | _ => 0

/-- The number of calls that have stored an element in data `b` but not yet counted it. -/
def Sys.lag (y : Sys α) (b : Nat) : Nat := if b = y.data then Conc.sumBy PC.lag y.thrs else 0

/-- The first step of a call. -/
def begin (g : G) : Call α → PC α
  | .count => .rd0 g .count
  | .get i => .rd0 g (.get i)
  | .replace i x => .md0 g (.replace i x)
  | .exact i x old => .md0 g (.exact i x old)
  | .append x => .md0 g (.append x)
  | .remove i => .wr0 g (.remove i)
  | .insert i x => .wr0 g (.insert i x)

/-- The calls that change `modify`, after the load of the count (470-473, 511-514, 575-578). -/
def counted (chunk : Nat) (g : G) (b m count : Nat) : Call α → PC α
  | .replace i x => if i < maxCount chunk count then .rp3 g i x b else .fi g (.replace i x) (.elem none) none
  | .exact i x old => if i < maxCount chunk count then .rx3 g i x old b else .fi g (.exact i x old) (.bool false) none
  | .append x => .ap3 g x b m count (maxCount chunk count)
  | _ => .fault

/-- The index a call refuses if it is not below the count (647, 682), and what it then returns (641, 676). -/
def Call.index : Call α → Nat
  | .remove i | .insert i _ => i
  | _ => 0

/-- What a call returns that refuses its index (641, 676). -/
def Call.refused : Call α → Res α
  | .remove _ => .elem none
  | _ => .bool false

/-- The count and maximum handed to `CCConcurrentIndexMapResize` (649, 684). -/
def Call.resize (chunk count : Nat) : Call α → Nat × Nat
  | .remove _ => (count - 1, maxCount chunk (count - 1))
  | _ => (count, maxCount chunk (count + 1))

/-- The data that replaces the old one: `got` are the slots copied (542), the others are not set (543), and the new element is put in its place (606, 687).  C42 shows that the loops of `CCConcurrentIndexMapResize` do this. -/
def Call.build (max : Nat) (got : List (Option α)) : Call α → Blk α
  | .append x => ⟨got.length + 1, got ++ some x :: List.replicate (max - (got.length + 1)) none⟩
  | .insert i x => ⟨got.length + 1, got.insertIdx i (some x) ++ List.replicate (max - (got.length + 1)) none⟩
  | _ => ⟨got.length, got ++ List.replicate (max - got.length) none⟩

/-- The thread after its exchange of `pointer` has failed (624, 661, 695). -/
def retry (g : G) : Call α → PC α
  | .append x => .md0 g (.append x)
  | c => .wr0 g c

/-- The thread moves. -/
def Sys.go (y : Sys α) (i : Nat) (p : PC α) : Sys α := { y with thrs := y.thrs.set i p }

/-- The call returns. -/
def Sys.ret (y : Sys α) (i : Nat) (g : G) (c : Call α) (r : Res α) (k : Option Nat) (lag : Nat) : Sys α :=
  { y with thrs := y.thrs.set i .idle, done := y.done ++ [⟨c, r, g.t0, y.ops.length, k, lag⟩] }

/-- The slot of the data is stored to, which makes the change `c`. -/
def Sys.put (y : Sys α) (b i : Nat) (x : α) (B : Blk α) (c : Call α) : Sys α :=
  { y with blks := y.blks.set b { B with slots := B.slots.set i (some x) }, ops := y.ops ++ [c] }

/-- The data of number `b`, if it is not freed. -/
def Sys.blk? (y : Sys α) (b : Nat) : Option (Blk α) := if b ∈ y.freed then none else y.blks[b]?

/-- `pointer` is exchanged for the new data, which makes the change `c`, and the old data is handed over to the collector (618-620, 652-655, 687-689). -/
def Sys.publish (y : Sys α) (B : Blk α) (c : Call α) : Sys α :=
  { y with mutate := y.mutate + 1, modify := 0, data := y.blks.length, blks := y.blks ++ [B], retired := y.retired ++ [y.active], till := y.till ++ [y.ops.length], ops := y.ops ++ [c] }

/-- The thread after its exchange of `pointer` (618-621, 652-658, 687-692). -/
def Sys.swapped (y : Sys α) (i : Nat) (g : G) (b n k : Nat) : Call α → Sys α
  | .append x => y.ret i g (.append x) (.num (some n)) (some k) 0
  | .remove j => y.go i (.rm g j b k)
  | c => y.ret i g c (.bool true) (some k) 0

/-- One step of a thread or, the last one, of the garbage collector. -/
inductive Step (chunk w : Nat) : Sys α → Sys α → Prop
  /-- a call begins -/
  | start {y : Sys α} {i : Nat} (c : Call α) : y.thrs[i]? = some .idle → Step chunk w y { y with thrs := y.thrs.set i (begin ⟨y.secs, y.ops.length⟩ c), secs := y.secs + 1 }
  /-- load `pointer` (420, 441) -/
  | rdPtr {y : Sys α} {i : Nat} {g : G} {c : Call α} : y.thrs[i]? = some (.rd0 g c) → Step chunk w y (y.go i (.rd1 g c y.data))
  /-- `GetCount`: load the count and return it (421-426) -/
  | rdCount {y : Sys α} {i : Nat} {g : G} {b : Nat} {B : Blk α} : y.thrs[i]? = some (.rd1 g .count b) → y.blk? b = some B →
      Step chunk w y (y.ret i g .count (.num (some B.count)) none (y.lag b))
  /-- `GetElementAtIndex`: load the count (442-445) -/
  | rdMax {y : Sys α} {i : Nat} {g : G} {b j : Nat} {B : Blk α} : y.thrs[i]? = some (.rd1 g (.get j) b) → y.blk? b = some B → j < maxCount chunk B.count →
      Step chunk w y (y.go i (.rd2 g j b))
  /-- `GetElementAtIndex`: there is no such slot (442-449) -/
  | rdNone {y : Sys α} {i : Nat} {g : G} {b j : Nat} {B : Blk α} : y.thrs[i]? = some (.rd1 g (.get j) b) → y.blk? b = some B → ¬ j < maxCount chunk B.count →
      Step chunk w y (y.ret i g (.get j) (.elem none) none 0)
  /-- `getElement` (119-121) -/
  | rdSlot {y : Sys α} {i : Nat} {g : G} {b j : Nat} {B : Blk α} {v : Option α} : y.thrs[i]? = some (.rd2 g j b) → y.blk? b = some B → B.slots[j]? = some v →
      Step chunk w y (y.ret i g (.get j) (.elem v) none 0)
  /-- increment `modify` (465, 506, 570) -/
  | mdInc {y : Sys α} {i : Nat} {g : G} {c : Call α} : y.thrs[i]? = some (.md0 g c) → Step chunk w y { y with modify := y.modify + 1, thrs := y.thrs.set i (.md1 g c) }
  /-- load `pointer` (467, 508, 572) -/
  | mdPtr {y : Sys α} {i : Nat} {g : G} {c : Call α} : y.thrs[i]? = some (.md1 g c) → Step chunk w y (y.go i (.md2 g c y.data y.mutate))
  /-- load the count (470, 511, 575) -/
  | mdCount {y : Sys α} {i : Nat} {g : G} {c : Call α} {b m : Nat} {B : Blk α} : y.thrs[i]? = some (.md2 g c b m) → y.blk? b = some B →
      Step chunk w y (y.go i (counted chunk g b m B.count c))
  /-- `setElement`: the slot is set (133-134) -/
  | rpSet {y : Sys α} {i : Nat} {g : G} {j : Nat} {x : α} {b : Nat} {B : Blk α} {v : α} : y.thrs[i]? = some (.rp3 g j x b) → y.blk? b = some B → B.slots[j]? = some (some v) →
      Step chunk w y (y.go i (.rp4 g j x b))
  /-- `setElement`: the slot is not set (134) -/
  | rpUnset {y : Sys α} {i : Nat} {g : G} {j : Nat} {x : α} {b : Nat} {B : Blk α} : y.thrs[i]? = some (.rp3 g j x b) → y.blk? b = some B → B.slots[j]? = some none →
      Step chunk w y (y.go i (.fi g (.replace j x) (.elem none) none))
  /-- `setElement`: exchange the slot (135-137) -/
  | rpXchg {y : Sys α} {i : Nat} {g : G} {j : Nat} {x : α} {b : Nat} {B : Blk α} {v : α} : y.thrs[i]? = some (.rp4 g j x b) → y.blk? b = some B → B.slots[j]? = some (some v) →
      Step chunk w y ((y.put b j x B (.replace j x)).go i (.up g (.replace j x) (.elem (some v)) y.ops.length))
  /-- `setElement`: exchange the slot, which was not set: this returns false (135-137) -/
  | rpLost {y : Sys α} {i : Nat} {g : G} {j : Nat} {x : α} {b : Nat} {B : Blk α} : y.thrs[i]? = some (.rp4 g j x b) → y.blk? b = some B → B.slots[j]? = some none →
      Step chunk w y ({ y with blks := y.blks.set b { B with slots := B.slots.set j (some x) } }.go i (.fi g (.replace j x) (.elem none) none))
  /-- `compareAndSwapElement` succeeds (141) -/
  | rxCas {y : Sys α} {i : Nat} {g : G} {j : Nat} {x old : α} {b : Nat} {B : Blk α} : y.thrs[i]? = some (.rx3 g j x old b) → y.blk? b = some B → B.slots[j]? = some (some old) →
      Step chunk w y ((y.put b j x B (.exact j x old)).go i (.up g (.exact j x old) (.bool true) y.ops.length))
  /-- `compareAndSwapElement` fails (141) -/
  | rxFail {y : Sys α} {i : Nat} {g : G} {j : Nat} {x old : α} {b : Nat} {B : Blk α} {v : Option α} : y.thrs[i]? = some (.rx3 g j x old b) → y.blk? b = some B → B.slots[j]? = some v →
      v ≠ some old → Step chunk w y (y.go i (.fi g (.exact j x old) (.bool false) none))
  /-- `appendElement`: the slot is set (145-147) -/
  | apNext {y : Sys α} {i : Nat} {g : G} {x : α} {b m idx max : Nat} {B : Blk α} {v : α} : y.thrs[i]? = some (.ap3 g x b m idx max) → idx < max → y.blk? b = some B →
      B.slots[idx]? = some (some v) → Step chunk w y (y.go i (.ap3 g x b m (idx + 1) max))
  /-- `appendElement`: store the element (147) -/
  | apStore {y : Sys α} {i : Nat} {g : G} {x : α} {b m idx max : Nat} {B : Blk α} : y.thrs[i]? = some (.ap3 g x b m idx max) → idx < max → y.blk? b = some B →
      B.slots[idx]? = some none → Step chunk w y ((y.put b idx x B (.append x)).go i (.ap4 g x b idx y.ops.length))
  /-- `appendElement`: there is no slot left (145-149) -/
  | apFull {y : Sys α} {i : Nat} {g : G} {x : α} {b m idx max : Nat} : y.thrs[i]? = some (.ap3 g x b m idx max) → ¬ idx < max → Step chunk w y (y.go i (.af g x b m idx max))
  /-- `AppendElement`: increment the count (581) -/
  | apCount {y : Sys α} {i : Nat} {g : G} {x : α} {b idx k : Nat} {B : Blk α} : y.thrs[i]? = some (.ap4 g x b idx k) → y.blk? b = some B →
      Step chunk w y ({ y with blks := y.blks.set b { B with count := B.count + 1 } }.go i (.up g (.append x) (.num (some idx)) k))
  /-- increment `mutate` (483, 524, 584) -/
  | upInc {y : Sys α} {i : Nat} {g : G} {c : Call α} {r : Res α} {k : Nat} : y.thrs[i]? = some (.up g c r k) →
      Step chunk w y { y with mutate := y.mutate + 1, thrs := y.thrs.set i (.fi g c r (some k)) }
  /-- decrement `modify` and return (484-489, 525-530, 598-601, 628-632) -/
  | fiDec {y : Sys α} {i : Nat} {g : G} {c : Call α} {r : Res α} {k : Option Nat} : y.thrs[i]? = some (.fi g c r k) → Step chunk w y ({ y with modify := y.modify - 1 }.ret i g c r k 0)
  /-- `AppendElement`, no slot was left: decrement `modify` (598) -/
  | afDec {y : Sys α} {i : Nat} {g : G} {x : α} {b m idx max : Nat} : y.thrs[i]? = some (.af g x b m idx max) →
      Step chunk w y { y with modify := y.modify - 1, thrs := y.thrs.set i (.ag g x b m idx max) }
  /-- `AppendElement`: the count is the index: begin to copy (603-605) -/
  | agSame {y : Sys α} {i : Nat} {g : G} {x : α} {b m idx max : Nat} {B : Blk α} : y.thrs[i]? = some (.ag g x b m idx max) → y.blk? b = some B → idx = B.count →
      Step chunk w y (y.go i (.cp g (.append x) b m idx (max + chunk) []))
  /-- `AppendElement`: the allocation fails (606-616) -/
  | agFail {y : Sys α} {i : Nat} {g : G} {x : α} {b m idx max : Nat} {B : Blk α} : y.thrs[i]? = some (.ag g x b m idx max) → y.blk? b = some B → idx = B.count →
      Step chunk w y (y.ret i g (.append x) (.num none) none 0)
  /-- `AppendElement`: the count is not the index: again (603, 562) -/
  | agDiff {y : Sys α} {i : Nat} {g : G} {x : α} {b m idx max : Nat} {B : Blk α} : y.thrs[i]? = some (.ag g x b m idx max) → y.blk? b = some B → idx ≠ B.count →
      Step chunk w y (y.go i (.md0 g (.append x)))
  /-- load `pointer` (644, 679) -/
  | wrPtr {y : Sys α} {i : Nat} {g : G} {c : Call α} : y.thrs[i]? = some (.wr0 g c) → Step chunk w y (y.go i (.wr1 g c y.data y.mutate))
  /-- the index is not below the count: return (645-647, 680-682) -/
  | wrRefuse {y : Sys α} {i : Nat} {g : G} {c : Call α} {b m : Nat} {B : Blk α} : y.thrs[i]? = some (.wr1 g c b m) → y.blk? b = some B → (c.index ≥ B.count ∨ B.count = 0) →
      Step chunk w y (y.ret i g c c.refused none (y.lag b))
  /-- begin to copy (649, 684) -/
  | wrCopy {y : Sys α} {i : Nat} {g : G} {c : Call α} {b m : Nat} {B : Blk α} : y.thrs[i]? = some (.wr1 g c b m) → y.blk? b = some B → ¬ (c.index ≥ B.count ∨ B.count = 0) →
      Step chunk w y (y.go i (.cp g c b m (c.resize chunk B.count).1 (c.resize chunk B.count).2 []))
  /-- the allocation fails: again (650, 685) -/
  | wrFail {y : Sys α} {i : Nat} {g : G} {c : Call α} {b m : Nat} {B : Blk α} : y.thrs[i]? = some (.wr1 g c b m) → y.blk? b = some B → ¬ (c.index ≥ B.count ∨ B.count = 0) →
      Step chunk w y (y.go i (.wr0 g c))
  /-- `copyElement` (112-116, 542) -/
  | cpLoad {y : Sys α} {i : Nat} {g : G} {c : Call α} {b m n max : Nat} {got : List (Option α)} {B : Blk α} {v : Option α} : y.thrs[i]? = some (.cp g c b m n max got) →
      got.length < n → y.blk? b = some B → B.slots[c.from got.length]? = some v → Step chunk w y (y.go i (.cp g c b m n max (got ++ [v])))
  /-- exchange `pointer` (618, 652, 687) -/
  | cpCas {y : Sys α} {i : Nat} {g : G} {c : Call α} {b m n max : Nat} {got : List (Option α)} : y.thrs[i]? = some (.cp g c b m n max got) → ¬ got.length < n →
      (y.modify % w = 0 ∧ y.mutate % w = m % w ∧ y.data = b) → Step chunk w y ((y.publish (c.build max got) c).swapped i g b n y.ops.length c)
  /-- the exchange of `pointer` fails: again (618, 652, 687) -/
  | cpFail {y : Sys α} {i : Nat} {g : G} {c : Call α} {b m n max : Nat} {got : List (Option α)} : y.thrs[i]? = some (.cp g c b m n max got) → ¬ got.length < n →
      ¬ (y.modify % w = 0 ∧ y.mutate % w = m % w ∧ y.data = b) → Step chunk w y (y.go i (retry g c))
  /-- `RemoveElementAtIndex`: get the removed element from the old data and return (654-659) -/
  | rmGet {y : Sys α} {i : Nat} {g : G} {j b k : Nat} {B : Blk α} {v : Option α} : y.thrs[i]? = some (.rm g j b k) → y.blk? b = some B → B.slots[j]? = some v →
      Step chunk w y (y.ret i g (.remove j) (.elem v) (some k) 0)
  /-- the data is freed -/
  | useFreed {y : Sys α} {i b : Nat} {p : PC α} : y.thrs[i]? = some p → p.uses? = some b → y.blk? b = none → Step chunk w y (y.go i .fault)
  /-- there is no such slot -/
  | useSlot {y : Sys α} {i b j : Nat} {p : PC α} {B : Blk α} : y.thrs[i]? = some p → p.uses? = some b → p.slot? = some j → y.blk? b = some B → B.slots[j]? = none → Step chunk w y (y.go i .fault)
  /-- the collector frees data once no section recorded for it is in progress -/
  | free {y : Sys α} {j : Nat} {l : List Nat} : y.retired[j]? = some l → j ∉ y.freed → (∀ s ∈ l, s ∉ y.active) → Step chunk w y { y with freed := j :: y.freed }

/-- No thread holds a value of `mutate` that has been incremented `w` times since: with `w = 2^32`, fewer than 2^32 changes are made to the map during one try of a call. -/
def Calm (w : Nat) (y : Sys α) : Prop := ∀ p ∈ y.thrs, ∀ m, p.tag? = some m → y.mutate < m + w

/-- The states reachable by `n` threads. -/
inductive Reach (chunk w n : Nat) : Sys α → Prop
  | init : Reach chunk w n (init chunk n)
  | step {y y' : Sys α} : Reach chunk w n y → Step chunk w y y' → Calm w y' → Reach chunk w n y'

end Verif.ConcIndexMap
