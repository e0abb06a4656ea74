/-!
# Models of reference counts, identifiers and the virtual file lock with their memory orders

As in `TaskWeak.lean`, what happens before what is followed: each store to an atomic variable carries the uses it makes known to whoever reads it with an acquire (or relaxed, with an acquire fence after it).  Only a release adds what its thread knows;
a read-modify-write sees the last store and hands on what that carries (release sequences, C11 5.1.2.4 paragraph 10).  A thread knows its own uses, and what the stores carry that it reads with an acquire.
The memory orders are parameters; the theorems say which are needed.
-/
namespace Verif.HandoverWeak

/-! ## Reference counts (`Allocator.c` 596-666) -/
namespace Ref

/-- Is the decrement (642) a release; is there an acquire fence before the destructor (655). -/
structure Orders where
  subRel : Bool
  fence : Bool
deriving DecidableEq, Repr

/-- The orders of the file (642, 655). -/
def code : Orders := ⟨true, true⟩

/-- A thread: how many references it owns, and (not part of the program) the uses of the memory it knows. -/
structure Thr where
  refs : Nat
  knows : List Nat
deriving DecidableEq, Repr

/-- The last store to the count and what it carries, the threads; not part of the program: the number of uses so far, and for each destruction the uses so far and those known to have happened before.
The count is a natural number: fewer than `2^31` references. -/
structure Sys where
  count : Nat
  carries : List Nat
  thrs : List Thr
  uses : Nat
  destroyed : List (Nat × List Nat)

/-- Memory just allocated by one of `n + 1` threads (count 1). -/
def init (n : Nat) : Sys := ⟨1, [], ⟨1, []⟩ :: List.replicate n ⟨0, []⟩, 0, []⟩

/-- One step of a thread. -/
inductive Step (o : Orders) : Sys → Sys → Prop
  /-- the memory is used by an owner of a reference -/
  | use {y : Sys} {i c : Nat} {k : List Nat} : y.thrs[i]? = some ⟨c + 1, k⟩ → Step o y { y with uses := y.uses + 1, thrs := y.thrs.set i ⟨c + 1, k ++ [y.uses]⟩ }
  /-- `CCMemoryRetain` (596-613): a relaxed increment (604) -/
  | retain {y : Sys} {i c : Nat} {k : List Nat} : y.thrs[i]? = some ⟨c + 1, k⟩ → Step o y { y with count := y.count + 1, thrs := y.thrs.set i ⟨c + 2, k⟩ }
  /-- a reference is given to another thread, by some means that orders what was before -/
  | give {y : Sys} {i j c d : Nat} {k l : List Nat} : y.thrs[i]? = some ⟨c + 1, k⟩ → i ≠ j → y.thrs[j]? = some ⟨d, l⟩ →
      Step o y { y with thrs := (y.thrs.set i ⟨c, k⟩).set j ⟨d + 1, l ++ k⟩ }
  /-- `CCMemoryDeallocate` (632-666): references remain -/
  | drop {y : Sys} {i c : Nat} {k : List Nat} : y.thrs[i]? = some ⟨c + 1, k⟩ → y.count ≠ 1 →
      Step o y { y with count := y.count - 1, carries := if o.subRel then y.carries ++ k else y.carries, thrs := y.thrs.set i ⟨c, k⟩ }
  /-- `CCMemoryDeallocate` (632-666): none remains; the destructor (661) is called -/
  | destroy {y : Sys} {i c : Nat} {k : List Nat} : y.thrs[i]? = some ⟨c + 1, k⟩ → y.count = 1 →
      Step o y { y with
        count := 0
        carries := if o.subRel then y.carries ++ k else y.carries
        thrs := y.thrs.set i ⟨c, if o.fence then k ++ y.carries else k⟩
        destroyed := y.destroyed ++ [(y.uses, if o.fence then k ++ y.carries else k)] }

/-- The states reachable by `n + 1` threads. -/
inductive Reach (o : Orders) (n : Nat) : Sys → Prop
  | init : Reach o n (init n)
  | step {y y' : Sys} : Reach o n y → Step o y y' → Reach o n y'

end Ref

/-! ## One identifier of the consecutive generator (`ConsecutiveIDGenerator.c` 120-166) -/
namespace Id

/-- Is the store of `Recycle` (160, 163) a release; is there an acquire fence after the exchange of `TryAssign` (128, 143). -/
structure Orders where
  storeRel : Bool
  fence : Bool
deriving DecidableEq, Repr

/-- The orders of the file (128, 143, 160, 163). -/
def code : Orders := ⟨true, true⟩

/-- A thread: does it own the identifier, and (not part of the program) the uses of it that it knows. -/
structure Thr where
  owns : Bool
  knows : List Nat
deriving DecidableEq, Repr

/-- The flag of the identifier and what its last store carries, the threads; not part of the program: the number of uses so far, and for each use the earlier ones known to have happened before. -/
structure Sys where
  taken : Bool
  carries : List Nat
  thrs : List Thr
  log : List (Nat × List Nat)

/-- The constructor (91-113); `n` threads. -/
def init (n : Nat) : Sys := ⟨false, [], List.replicate n ⟨false, []⟩, []⟩

/-- One step of a thread. -/
inductive Step (o : Orders) : Sys → Sys → Prop
  /-- `TryAssign`: the exchange finds the flag clear (125, 140) -/
  | assign {y : Sys} {i : Nat} {k : List Nat} : y.thrs[i]? = some ⟨false, k⟩ → y.taken = false →
      Step o y { y with taken := true, thrs := y.thrs.set i ⟨true, if o.fence then k ++ y.carries else k⟩ }
  /-- the owner of the identifier uses what belongs to it -/
  | use {y : Sys} {i : Nat} {k : List Nat} : y.thrs[i]? = some ⟨true, k⟩ →
      Step o y { y with thrs := y.thrs.set i ⟨true, k ++ [y.log.length]⟩, log := y.log ++ [(y.log.length, k)] }
  /-- `Recycle` by the owner (154-166) -/
  | recycle {y : Sys} {i : Nat} {k : List Nat} : y.thrs[i]? = some ⟨true, k⟩ →
      Step o y { y with taken := false, carries := if o.storeRel then k else [], thrs := y.thrs.set i ⟨false, k⟩ }

/-- The states reachable by `n` threads.  An exchange that finds the flag set (125, 140) leaves everything as it is. -/
inductive Reach (o : Orders) (n : Nat) : Sys → Prop
  | init : Reach o n (init n)
  | step {y y' : Sys} : Reach o n y → Step o y y' → Reach o n y'

end Id

/-! ## The virtual file lock (`FileSystem_Private.h` 129-156) -/
namespace Lock

/-- Is the increment of a reader (131) an acquire; is there an acquire fence after its waiting (135); is its decrement (141) a release; is the exchange of a writer (148) an acquire; is its unlocking (153) a release. -/
structure Orders where
  addAcq : Bool
  fence : Bool
  subRel : Bool
  casAcq : Bool
  xorRel : Bool
deriving DecidableEq, Repr

/-- The orders of the file (131, 135, 141, 148, 153). -/
def code : Orders := ⟨true, true, true, true, true⟩

/-- A thread: outside; waiting as a reader (133), `a` the number of its own store; reading; or writing. -/
inductive PC
  | out
  | wait (a : Nat)
  | reading
  | writing
deriving DecidableEq, Repr

/-- A thread, and (not part of the program) the uses it knows. -/
structure Thr where
  pc : PC
  knows : List Nat
deriving DecidableEq, Repr

/-- A store to the lock: the count of readers, the write flag (`FS_VIRTUAL_FILE_WRITE_FLAG`), and what it carries. -/
structure Msg where
  count : Nat
  flag : Bool
  carries : List Nat
deriving DecidableEq, Repr

/-- The stores to the lock, the threads; not part of the program: the reads and writes of what the lock protects, in one sequence (`true` for a write), and for each of them the earlier ones known to have happened before.
The count is a natural number: fewer than `2^31` readers. -/
structure Sys where
  msgs : List Msg
  thrs : List Thr
  log : List (Bool × List Nat)

/-- `ATOMIC_VAR_INIT(0)` (165); `n` threads. -/
def init (n : Nat) : Sys := ⟨[⟨0, false, []⟩], List.replicate n ⟨.out, []⟩, []⟩

/-- One step of a thread. -/
inductive Step (o : Orders) : Sys → Sys → Prop
  /-- `FSVirtualReadLock`: no writer (131) -/
  | lockRead {y : Sys} {i : Nat} {k : List Nat} {m : Msg} : y.thrs[i]? = some ⟨.out, k⟩ → y.msgs.getLast? = some m → m.flag = false →
      Step o y { y with msgs := y.msgs ++ [⟨m.count + 1, m.flag, m.carries⟩], thrs := y.thrs.set i ⟨.reading, if o.addAcq then k ++ m.carries else k⟩ }
  /-- `FSVirtualReadLock`: a writer (131) -/
  | lockWait {y : Sys} {i : Nat} {k : List Nat} {m : Msg} : y.thrs[i]? = some ⟨.out, k⟩ → y.msgs.getLast? = some m → m.flag = true →
      Step o y { y with msgs := y.msgs ++ [⟨m.count + 1, m.flag, m.carries⟩], thrs := y.thrs.set i ⟨.wait y.msgs.length, if o.addAcq then k ++ m.carries else k⟩ }
  /-- `FSVirtualReadLock`: the load sees store number `j`, which has no writer (133-135); one that has leaves the thread where it is -/
  | waited {y : Sys} {i a j : Nat} {k : List Nat} {m : Msg} : y.thrs[i]? = some ⟨.wait a, k⟩ → a ≤ j → y.msgs[j]? = some m → m.flag = false →
      Step o y { y with thrs := y.thrs.set i ⟨.reading, if o.fence then k ++ m.carries else k⟩ }
  /-- a reader reads -/
  | read {y : Sys} {i : Nat} {k : List Nat} : y.thrs[i]? = some ⟨.reading, k⟩ →
      Step o y { y with thrs := y.thrs.set i ⟨.reading, k ++ [y.log.length]⟩, log := y.log ++ [(false, k)] }
  /-- `FSVirtualReadUnlock` (139-144) -/
  | unlockRead {y : Sys} {i : Nat} {k : List Nat} {m : Msg} : y.thrs[i]? = some ⟨.reading, k⟩ → y.msgs.getLast? = some m →
      Step o y { y with msgs := y.msgs ++ [⟨m.count - 1, m.flag, if o.subRel then m.carries ++ k else m.carries⟩], thrs := y.thrs.set i ⟨.out, k⟩ }
  /-- `FSVirtualWriteLock` (146-149) -/
  | lockWrite {y : Sys} {i : Nat} {k : List Nat} {m : Msg} : y.thrs[i]? = some ⟨.out, k⟩ → y.msgs.getLast? = some m → m.count = 0 → m.flag = false →
      Step o y { y with msgs := y.msgs ++ [⟨0, true, m.carries⟩], thrs := y.thrs.set i ⟨.writing, if o.casAcq then k ++ m.carries else k⟩ }
  /-- a writer writes -/
  | write {y : Sys} {i : Nat} {k : List Nat} : y.thrs[i]? = some ⟨.writing, k⟩ →
      Step o y { y with thrs := y.thrs.set i ⟨.writing, k ++ [y.log.length]⟩, log := y.log ++ [(true, k)] }
  /-- `FSVirtualWriteUnlock` (151-156) -/
  | unlockWrite {y : Sys} {i : Nat} {k : List Nat} {m : Msg} : y.thrs[i]? = some ⟨.writing, k⟩ → y.msgs.getLast? = some m →
      Step o y { y with msgs := y.msgs ++ [⟨m.count, !m.flag, if o.xorRel then m.carries ++ k else m.carries⟩], thrs := y.thrs.set i ⟨.out, k⟩ }

/-- The states reachable by `n` threads. -/
inductive Reach (o : Orders) (n : Nat) : Sys → Prop
  | init : Reach o n (init n)
  | step {y y' : Sys} : Reach o n y → Step o y y' → Reach o n y'

end Lock
end Verif.HandoverWeak
