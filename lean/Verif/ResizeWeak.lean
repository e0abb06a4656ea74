/-!
# Model of the resizes of the concurrent index map with their memory orders (`ConcurrentIndexMap.c` 453-697)

A thread that inserts or removes an element, or appends one to full data, loads `pointer`, copies the elements into new data, and exchanges `pointer` if no one is writing (`modify` is 0) and `mutate` is as it was.  A thread that replaces or appends adds one to `modify`, writes the element, adds one to `mutate` and subtracts
one from `modify`.  The loads that copy the elements may return any value of the element that is not older than one the thread knows of; `pointer` carries which one that is.

* One place of the map.  The values written to the place of the present data are numbered from 0, the one it was made with.  A write is an exchange: it comes last.
* The loads of `pointer` before a copy may return any value it ever had.  Additions and exchanges are of the last value.
* `mutate` does not wrap.  The sizes, the elements that are left out and put in, and the collector are left out (C95, C99); so is whether the first value of new data is seen (C141 is about large elements).
-/
namespace Verif.ResizeWeak

/-- Is the load of `pointer` before a copy (572, 644, 679) an acquire, are the additions to `mutate` (483, 524, 584) and the subtractions from `modify` (484, 525, 598) releases; with `CC_CONCURRENT_INDEX_MAP_STRICT_COMPLIANCE` both are one exchange (476-480, 517-521, 591-595), whose order is that of `modRel`. -/
structure Orders where
  strict : Bool
  loadAcq : Bool
  bumpRel : Bool
  modRel : Bool
deriving DecidableEq, Repr

/-- The orders of the file. -/
def code (strict : Bool) : Orders := ⟨strict, false, false, true⟩

/-- The orders of the file where reads through an address are ordered after the load of the address. -/
def dependent (strict : Bool) : Orders := { code strict with loadAcq := true }

/-- A function with one value replaced. -/
def upd {α : Type} (f : Nat → α) (i : Nat) (a : α) : Nat → α := fun j => if j = i then a else f j

/-- A value of `pointer` (`CCConcurrentIndexMapDataPointer`, 54-73): its fields, `data` being the number of the data; and the value of the place it makes known. -/
structure P where
  modify : Nat
  mutate : Nat
  data : Nat
  carries : Nat
deriving DecidableEq, Repr

/-- A thread: outside; counted in `modify`, and the element is not yet written, is written, or `mutate` is increased as well; or it has loaded `pointer`, or has copied the place too. -/
inductive PC
  | idle
  | inside
  | written
  | bumped
  | loaded (p : P)
  | copied (p : P) (w : Nat)
deriving DecidableEq, Repr

/-- `pointer` and the values it had before; the number of the last value written to the place of the present data; where each thread is, and the number of the oldest value it may still read.  Not part of the program: for each resize the number of the value it copied, and of the last value. -/
structure W where
  cur : P
  past : List P
  latest : Nat
  pc : Nat → PC
  view : Nat → Nat
  resizes : List (Nat × Nat)

/-- A new map (370-405). -/
def init : W := ⟨⟨0, 0, 0, 0⟩, [], 0, fun _ => .idle, fun _ => 0, []⟩

/-- One step of thread `i`. -/
inductive Step (o : Orders) : W → W → Prop
  /-- a replace or an append begins (460-467, 501-508, 565-572) -/
  | enter {z : W} (i : Nat) : z.pc i = .idle → Step o z { z with cur := { z.cur with modify := z.cur.modify + 1 }, past := z.cur :: z.past, pc := upd z.pc i .inside }
  /-- it writes the element (473, 514, 577) -/
  | write {z : W} (i : Nat) : z.pc i = .inside → Step o z { z with latest := z.latest + 1, view := upd z.view i (z.latest + 1), pc := upd z.pc i .written }
  /-- it adds to `mutate` (483, 524, 584) -/
  | bump {z : W} (i : Nat) : o.strict = false → z.pc i = .written →
      Step o z { z with cur := { z.cur with mutate := z.cur.mutate + 1, carries := if o.bumpRel then max z.cur.carries (z.view i) else z.cur.carries }, past := z.cur :: z.past, pc := upd z.pc i .bumped }
  /-- it ends (484, 525, 598), having written or not -/
  | leave {z : W} (i : Nat) : z.pc i = .inside ∨ z.pc i = .bumped →
      Step o z { z with cur := { z.cur with modify := z.cur.modify - 1, carries := if o.modRel then max z.cur.carries (z.view i) else z.cur.carries }, past := z.cur :: z.past, pc := upd z.pc i .idle }
  /-- both at once (476-480, 517-521, 591-595) -/
  | finish {z : W} (i : Nat) : o.strict = true → z.pc i = .written →
      Step o z { z with cur := { z.cur with modify := z.cur.modify - 1, mutate := z.cur.mutate + 1, carries := if o.modRel then max z.cur.carries (z.view i) else z.cur.carries }, past := z.cur :: z.past, pc := upd z.pc i .idle }
  /-- an insert or a remove loads `pointer` (644, 679), or an append that found the data full did (572), before it left -/
  | load {z : W} {p : P} (i : Nat) : z.pc i = .idle → p ∈ z.cur :: z.past →
      Step o z { z with pc := upd z.pc i (.loaded p), view := upd z.view i (if o.loadAcq = true ∧ p.data = z.cur.data then max (z.view i) p.carries else z.view i) }
  /-- it copies the place (542) of the present data, or of data that is no longer there -/
  | copy {z : W} {p : P} (i w : Nat) : z.pc i = .loaded p → (p.data = z.cur.data → z.view i ≤ w ∧ w ≤ z.latest) → Step o z { z with pc := upd z.pc i (.copied p w) }
  /-- it exchanges `pointer` (618, 652, 687) -/
  | swap {z : W} {p : P} {w : Nat} (i : Nat) : z.pc i = .copied p w → z.cur.modify = 0 → z.cur.mutate = p.mutate → z.cur.data = p.data →
      Step o z { cur := ⟨0, z.cur.mutate + 1, z.cur.data + 1, 0⟩, past := z.cur :: z.past, latest := 0, pc := upd z.pc i .idle, view := fun _ => 0, resizes := z.resizes ++ [(w, z.latest)] }
  /-- it finds `pointer` changed (618, 652, 687) -/
  | fail {z : W} {p : P} {w : Nat} (i : Nat) : z.pc i = .copied p w → ¬ (z.cur.modify = 0 ∧ z.cur.mutate = p.mutate ∧ z.cur.data = p.data) → Step o z { z with pc := upd z.pc i .idle }

/-- The states reachable. -/
inductive Reach (o : Orders) : W → Prop
  | init : Reach o init
  | step {z z' : W} : Reach o z → Step o z z' → Reach o z'

end Verif.ResizeWeak
