/-!
# Model of a place of the concurrent index map for large elements with its memory orders (`ConcurrentIndexMap.c` 171-301, 435-610)

Elements too large to be stored in the place itself are allocated, written, and their address is put into the place; whoever loads the address reads the bytes.  Followed is what happens before what, as in `HandoverWeak.lean`: each store carries what it makes known to whoever reads it with an acquire;
only a release adds what its thread knows; an exchange hands on what the last store carried.

* One place (the places of a map do not share anything that orders them, other than `pointer`), one data block: no resize.  Without `CC_CONCURRENT_INDEX_MAP_STRICT_COMPLIANCE`.
* Each element is written once, by the thread that allocates it (182, 231, 252, 290); it is named by the number of that write.  The collector keeps it while it is read (C99, C135).
* Loads see the last store: these are some of the executions the orders allow.
-/
namespace Verif.SlotWeak

/-- Is the addition to `modify` (465, 506, 570) an acquire and the subtraction (484, 525, 598) a release; are the stores of the address by an append (297), by a replace (233), by an exact replace (259) releases; are the loads of the address by a get (202), by a replace (233), by an exact
replace (246, 259) acquires. -/
structure Orders where
  modAcq : Bool
  modRel : Bool
  appendRel : Bool
  setRel : Bool
  casRel : Bool
  getAcq : Bool
  setAcq : Bool
  casAcq : Bool
deriving DecidableEq, Repr

/-- The orders of the file. -/
def code : Orders := ⟨true, true, true, true, false, false, false, false⟩

/-- The orders of the file on hardware, and with compilers, that order a read through an address after the load of the address. -/
def dependent : Orders := { code with getAcq := true, setAcq := true, casAcq := true }

/-- A function with one value replaced. -/
def upd {α : Type} (f : Nat → α) (i : Nat) (a : α) : Nat → α := fun j => if j = i then a else f j

/-- A thread: outside; counted in `modify`; or in an exact replace with the address it loaded, whose element matched, and its own new element. -/
inductive PC
  | idle
  | inside
  | matched (old new : Nat)
deriving DecidableEq, Repr

/-- The place (the element it has, if it has one) and what the last store to it carries; what the last store to `pointer` carries; where each thread is and what it knows; the number of elements written.  Not part of the program: for each reading of the bytes of an element, the element and what
the thread that reads them knows. -/
structure W where
  slot : Option Nat
  carries : List Nat
  ptrC : List Nat
  pc : Nat → PC
  knows : Nat → List Nat
  events : Nat
  reads : List (Nat × List Nat)

/-- An empty place (187). -/
def init : W := ⟨none, [], [], fun _ => .idle, fun _ => [], 0, []⟩

/-- What thread `i` knows after reading the place, with an acquire or without. -/
def got (z : W) (i : Nat) (acq : Bool) : List Nat := z.knows i ++ (if acq then z.carries else [])

/-- What the place carries after a store to it by a thread that knows `k`, a release or not. -/
def put (z : W) (k : List Nat) (rel : Bool) : List Nat := z.carries ++ (if rel then k else [])

/-- One step of thread `i`. -/
inductive Step (o : Orders) : W → W → Prop
  /-- an append or a replace begins: the addition to `modify` (465, 506, 570) -/
  | enter {z : W} (i : Nat) : z.pc i = .idle → Step o z { z with pc := upd z.pc i .inside, knows := upd z.knows i (z.knows i ++ (if o.modAcq then z.ptrC else [])) }
  /-- it ends: the subtraction from `modify` (484, 525, 598) -/
  | leave {z : W} (i : Nat) : z.pc i = .inside → Step o z { z with pc := upd z.pc i .idle, ptrC := z.ptrC ++ (if o.modRel then z.knows i else []) }
  /-- an append: the element is written (290) and its address put into the empty place (297) -/
  | append {z : W} (i : Nat) : z.pc i = .inside → z.slot = none →
      Step o z { z with slot := some z.events, carries := put z (z.knows i ++ [z.events]) o.appendRel, knows := upd z.knows i (z.knows i ++ [z.events]), events := z.events + 1 }
  /-- a replace: the element is written (231), the address exchanged (233), and the bytes of the old element are read (237) -/
  | set {z : W} {e : Nat} (i : Nat) : z.pc i = .inside → z.slot = some e →
      Step o z { z with slot := some z.events, carries := put z (z.knows i ++ [z.events]) o.setRel, knows := upd z.knows i (got z i o.setAcq ++ [z.events]), events := z.events + 1
                        reads := z.reads ++ [(e, got z i o.setAcq ++ [z.events])] }
  /-- an exact replace: the address is loaded (246), the element is written (252), the bytes of the other are read (257) and match -/
  | compare {z : W} {e : Nat} (i : Nat) : z.pc i = .inside → z.slot = some e →
      Step o z { z with pc := upd z.pc i (.matched e z.events), knows := upd z.knows i (got z i o.casAcq ++ [z.events]), events := z.events + 1
                        reads := z.reads ++ [(e, got z i o.casAcq ++ [z.events])] }
  /-- an exact replace: they do not match (268-272) -/
  | differ {z : W} {e : Nat} (i : Nat) : z.pc i = .inside → z.slot = some e →
      Step o z { z with knows := upd z.knows i (got z i o.casAcq ++ [z.events]), events := z.events + 1, reads := z.reads ++ [(e, got z i o.casAcq ++ [z.events])] }
  /-- an exact replace: the place has not changed (259) -/
  | swap {z : W} {e e' : Nat} (i : Nat) : z.pc i = .matched e e' → z.slot = some e → Step o z { z with slot := some e', carries := put z (z.knows i) o.casRel, pc := upd z.pc i .inside }
  /-- an exact replace: it has (259), the bytes of the element that is there now are read (257), and match or not -/
  | again {z : W} {e e' f : Nat} (i : Nat) (m : Bool) : z.pc i = .matched e e' → z.slot = some f → f ≠ e →
      Step o z { z with pc := upd z.pc i (if m then .matched f e' else .inside), knows := upd z.knows i (got z i o.casAcq), reads := z.reads ++ [(f, got z i o.casAcq)] }
  /-- a get: the address is loaded (202) and the bytes are read (203) -/
  | get {z : W} {e : Nat} (i : Nat) : z.pc i = .idle → z.slot = some e → Step o z { z with knows := upd z.knows i (got z i o.getAcq), reads := z.reads ++ [(e, got z i o.getAcq)] }

/-- The states reachable. -/
inductive Reach (o : Orders) : W → Prop
  | init : Reach o init
  | step {z z' : W} : Reach o z → Step o z z' → Reach o z'

end Verif.SlotWeak
