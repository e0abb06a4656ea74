/-!
# Model of the debug allocator

`CommonC/DebugAllocator.c` 39-195 and the debug allocator's functions of `CommonC/Allocator.c` 231-253.

Threads allocate, reallocate and deallocate with `CC_DEBUG_ALLOCATOR` at the same time; every operation on the shared
index map, on the context and on the heap is one step, and steps of different threads interleave (sequential consistency;
that the operations of the index map behave as one step is property C89).

Simplified: an address is a number and null is no number; an entry of the index map whose `ptr` is null is `none`, so the
`file` and `line` that go with it are dropped; `file` is the address of the file name, as the dictionary of
`CCDebugAllocatorDump` compares only that; creating the context and appending an entry succeed; nothing is ever pushed on
`availableIndexes` (there is no push in `DebugAllocator.c`), so the pop of line 69 always gives null and is left out.
-/
namespace Verif.DebugAlloc

/-- `CCDebugAllocatorInfo` (DebugAllocator.h 29-32). -/
structure Info where
  file : Nat
  line : Int
  deriving DecidableEq, Repr

/-- An element of the index map: `CCDebugAllocatorTrackedPtr` (DebugAllocator.c 39-43). -/
abbrev Slot := Option (Nat × Info)

/-- What a thread looks for a pointer for. -/
inductive Job where
  /-- `CCDebugAllocatorUntrack` called by `DebugDeallocator` (Allocator.c 249-253) -/
  | free
  /-- `CCDebugAllocatorTrackReplaced` called by `DebugReallocator` with the address `realloc` gave (Allocator.c 240-247) -/
  | realloc (q : Nat) (info : Info)
  /-- `CCDebugAllocatorIsTracking` (DebugAllocator.c 119-126) -/
  | query
  deriving DecidableEq, Repr

/-- Where a thread is. -/
inductive Pc where
  /-- in no call -/
  | idle
  /-- has the memory, before loading the context (DebugAllocator.c 55) -/
  | trackLoad (p : Nat) (info : Info)
  /-- has made a map, before the compare and exchange (61) -/
  | trackCas (p : Nat) (info : Info) (id : Nat)
  /-- the exchange failed, before loading the context again (63) -/
  | trackReload (p : Nat) (info : Info)
  /-- before the append (76) -/
  | trackPut (p : Nat) (info : Info) (id : Nat)
  /-- before loading the context (102, 113, 123) -/
  | findLoad (job : Job) (p : Nat)
  /-- before getting element `i` of the map (85) -/
  | find (job : Job) (p id i : Nat)
  /-- found at `i`, before replacing the element (105, 116) -/
  | put (job : Job) (p id i : Nat)
  /-- untracked, before `free` (Allocator.c 252) -/
  | free (p : Nat)
  /-- `CCDebugAllocatorIsTracking` returned -/
  | answer (p : Nat) (b : Bool)
  deriving DecidableEq, Repr

/-- The shared state and the threads. -/
structure State where
  /-- `Context.allocations` (50), by the number of the map -/
  ctx : Option Nat
  /-- the index maps made -/
  maps : List (List Slot)
  /-- the addresses allocated at the moment, with the place given in the call that allocated (or last reallocated) them -/
  heap : List (Nat × Info)
  threads : List Pc
  deriving DecidableEq, Repr

/-- `n` threads, nothing allocated. -/
def start (n : Nat) : State := ⟨none, [], [], List.replicate n .idle⟩

/-- What the scheduler may let a thread do.  A thread that is in no call begins one; `malloc` and `realloc` say which
address the C library gives. -/
inductive Choice where
  | malloc (p : Nat) (info : Info)
  /-- `DebugReallocator` whose `Data` is not null and whose `realloc` succeeds (see `reallocated` for the other cases) -/
  | realloc (p q : Nat) (info : Info)
  | free (p : Nat)
  | query (p : Nat)
  /-- the next step of the call it is in -/
  | go
  deriving DecidableEq, Repr

/-- The addresses a call in progress is about.  The old address of a reallocation is counted only if `hold`: it is not
the caller's any more. -/
def uses (hold : Bool) : Pc → List Nat
  | .idle => []
  | .trackLoad p _ => [p]
  | .trackCas p _ _ => [p]
  | .trackReload p _ => [p]
  | .trackPut p _ _ => [p]
  | .findLoad (.realloc q _) p => if hold then [q, p] else [q]
  | .findLoad _ p => [p]
  | .find (.realloc q _) p _ _ => if hold then [q, p] else [q]
  | .find _ p _ _ => [p]
  | .put (.realloc q _) p _ _ => if hold then [q, p] else [q]
  | .put _ p _ _ => [p]
  | .free p => [p]
  | .answer p _ => [p]

/-- A call about `p` is in progress. -/
def inUse (hold : Bool) (s : State) (p : Nat) : Bool := s.threads.any fun pc => (uses hold pc).contains p

/-- `p` is allocated. -/
def allocated (s : State) (p : Nat) : Bool := s.heap.any fun e => e.1 == p

/-- The C library may hand out `p`: it is not allocated.  With `hold` it moreover is in no call in progress. -/
def fresh (hold : Bool) (s : State) (p : Nat) : Bool := !allocated s p && (!hold || !inUse hold s p)

/-- The caller may free or reallocate `p`: it is allocated and no other call about it is in progress. -/
def mine (hold : Bool) (s : State) (p : Nat) : Bool := allocated s p && !inUse hold s p

/-- The heap without `p`. -/
def drop (heap : List (Nat × Info)) (p : Nat) : List (Nat × Info) := heap.filter fun e => e.1 != p

/-- What a thread does after looking for `p` in vain (DebugAllocator.c 94, 105, 116, 125; Allocator.c 252). -/
def missed (job : Job) (p : Nat) : Pc :=
  match job with
  | .free => .free p
  | .realloc _ _ => .idle
  | .query => .answer p false

/-- What a thread does after finding `p` at `i` (DebugAllocator.c 90-91, 105, 116, 125). -/
def found (job : Job) (p id i : Nat) : Pc :=
  match job with
  | .query => .answer p true
  | job => .put job p id i

/-- The entry written in place of the one found (DebugAllocator.c 105, 116). -/
def written : Job → Slot
  | .realloc q info => some (q, info)
  | _ => none

/-- Where a thread goes after writing it. -/
def wrote (job : Job) (p : Nat) : Pc :=
  match job with
  | .free => .free p
  | _ => .idle

/-- One step of a thread at `pc`: the shared state after it and where the thread is then; `none` if the thread cannot do
this (DebugAllocator.c 51-126, Allocator.c 232-253). -/
def act (hold : Bool) (s : State) : Pc → Choice → Option (State × Pc)
  -- Allocator.c 234-235
  | .idle, .malloc p info =>
    if fresh hold s p then some ({ s with heap := (p, info) :: s.heap }, .trackLoad p info) else none
  -- Allocator.c 242-244
  | .idle, .realloc p q info =>
    if mine hold s p && (q == p || fresh hold s q)
    then some ({ s with heap := (q, info) :: drop s.heap p }, .findLoad (.realloc q info) p) else none
  -- Allocator.c 251
  | .idle, .free p => if mine hold s p then some (s, .findLoad .free p) else none
  | .idle, .query p => if inUse hold s p then none else some (s, .findLoad .query p)
  -- DebugAllocator.c 55-59
  | .trackLoad p info, .go =>
    match s.ctx with
    | some id => some (s, .trackPut p info id)
    | none => some ({ s with maps := s.maps ++ [[]] }, .trackCas p info s.maps.length)
  -- DebugAllocator.c 61
  | .trackCas p info id, .go =>
    match s.ctx with
    | some _ => some (s, .trackReload p info)
    | none => some ({ s with ctx := some id }, .trackPut p info id)
  -- DebugAllocator.c 63-67
  | .trackReload p info, .go =>
    match s.ctx with
    | some id => some (s, .trackPut p info id)
    | none => some (s, .idle)
  -- DebugAllocator.c 76
  | .trackPut p info id, .go =>
    some ({ s with maps := s.maps.set id ((s.maps[id]?.getD []) ++ [some (p, info)]) }, .idle)
  -- DebugAllocator.c 82, 102, 113, 123
  | .findLoad job p, .go =>
    match s.ctx with
    | some id => some (s, .find job p id 0)
    | none => some (s, missed job p)
  -- DebugAllocator.c 85-92
  | .find job p id i, .go =>
    match (s.maps[id]?.getD [])[i]? with
    | none => some (s, missed job p)
    | some (some (x, _)) => if x = p then some (s, found job p id i) else some (s, .find job p id (i + 1))
    | some none => some (s, .find job p id (i + 1))
  -- DebugAllocator.c 105, 116
  | .put job p id i, .go =>
    some ({ s with maps := s.maps.set id ((s.maps[id]?.getD []).set i (written job)) }, wrote job p)
  -- Allocator.c 252
  | .free p, .go => some ({ s with heap := drop s.heap p }, .idle)
  | .answer _ _, .go => some (s, .idle)
  | _, _ => none

/-- Thread `t` takes a step. -/
def step (hold : Bool) (s : State) (t : Nat) (c : Choice) : Option State :=
  match s.threads[t]? with
  | none => none
  | some pc => (act hold s pc c).map fun r => { r.1 with threads := s.threads.set t r.2 }

/-- A schedule; `none` if some step of it is not possible. -/
def run (hold : Bool) (s : State) : List (Nat × Choice) → Option State
  | [] => some s
  | (t, c) :: l => (step hold s t c).bind fun s' => run hold s' l

/-- What becomes of `DebugReallocator` after `realloc` (Allocator.c 244; the assertions of DebugAllocator.c 99-100).
`newPtr` is what `realloc` gave, `data` the allocator's data. -/
inductive Realloc where
  /-- returns null and leaves the tracking alone -/
  | null
  /-- goes on to `CCDebugAllocatorTrackReplaced` with the new address -/
  | replace (q : Nat) (info : Info)
  /-- `*Data` with `Data` null -/
  | nullDeref
  /-- an assertion fails -/
  | aborts
  deriving DecidableEq, Repr

/-- Allocator.c 244: `if ((NewPtr) || (Data)) CCDebugAllocatorTrackReplaced(Ptr, NewPtr, *Data);`.  The argument `*Data` is
read before the call. -/
def reallocated (newPtr : Option Nat) (data : Option Info) : Realloc :=
  if newPtr.isSome || data.isSome then
    match data with
    | none => .nullDeref
    | some info =>
      match newPtr with
      | none => .aborts
      | some q => .replace q info
  else .null

/-- The data `CCMemoryReallocate` hands to the reallocator of the allocator with number `index` (Allocator.c 578): the
data of the type it was given if that is of the same allocator, else null. -/
def reallocData (typeAllocator index : Int) (typeData : Option Info) : Option Info :=
  if typeAllocator = index then typeData else none

/-- `CCDictionaryEntryForKey` and `CCDictionarySetEntry` on a dictionary as a list of keys and values: changes the value
of `k`, which is `new` if there is none yet. -/
def upsert {α β : Type} [DecidableEq α] (d : List (α × β)) (k : α) (new : β) (f : β → β) : List (α × β) :=
  match d with
  | [] => [(k, f new)]
  | (k', v) :: d => if k' = k then (k', f v) :: d else (k', v) :: upsert d k new f

/-- A dump: files, their lines, the addresses of each line. -/
abbrev Dump := List (Nat × List (Int × List Nat))

/-- One turn of the loop of `CCDebugAllocatorDump` (DebugAllocator.c 140-166). -/
def dumpOne (d : Dump) : Slot → Dump
  | none => d
  | some (p, info) => upsert d info.file [] fun lines => upsert lines info.line [] fun ptrs => ptrs ++ [p]

/-- `CCDebugAllocatorDump` (DebugAllocator.c 128-171), when nothing changes the map meanwhile. -/
def dump (m : List Slot) : Dump := m.foldl dumpOne []

/-- What `CCDebugAllocatorPrint` prints (DebugAllocator.c 173-195): a file, a line and an address at a time.  Simplified:
the dictionaries are gone through in the order of their first use. -/
def printed (d : Dump) : List (Nat × Int × Nat) :=
  d.flatMap fun f => f.2.flatMap fun l => l.2.map fun p => (f.1, l.1, p)

end Verif.DebugAlloc
