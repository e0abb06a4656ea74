/-!
# Model of reference counted memory: `CCMemoryAllocate`, `CCMemoryRetain`, `CCMemoryDeallocate` and
`CCMemorySetDestructor` (`Allocator.c` 509-678)

One allocation shared by any number of threads.  Every atomic operation is one step; the steps of the threads
interleave in any order; atomics are sequentially consistent.  The allocator is a registered one
(`Index >= 0`: the calls do nothing for the null and group allocators), built with `stdatomic`.
The destructor does not itself retain or free the memory.  The memory is not reallocated.
-/
namespace Verif.RefCount

/-- Where a thread is in `CCMemoryDeallocate` (632-666). -/
inductive PC
  /-- not in the call, or past its last step -/
  | idle
  /-- the count dropped to zero (641), the destructor is not yet called (659) -/
  | destroy
  /-- the destructor was called or there is none (659), the deallocator is not yet called (663) -/
  | dealloc
  /-- the assertion of line 650 failed: the count is negative -/
  | abort
deriving DecidableEq, Repr

/-- A thread.  Not part of the program: `held`, the number of references the thread has. -/
structure Thr where
  pc : PC
  held : Nat
deriving DecidableEq, Repr

/-- The header of the allocation and the threads.  Not part of the program: `ran`, the destructors called so
far, `freed`, the number of calls of the deallocator, `touched`, the number of accesses to the
header after the deallocator was called. -/
structure Sys where
  refCount : BitVec 32
  destructor : Option Nat
  thrs : List Thr
  ran : List (Option Nat)
  freed : Nat
  touched : Nat

/-- `CCMemoryAllocate` (509-552) has returned to thread 0; there are `n` more threads. -/
def init (n : Nat) : Sys :=
  { refCount := 1, destructor := none, thrs := ⟨.idle, 1⟩ :: List.replicate n ⟨.idle, 0⟩, ran := [], freed := 0, touched := 0 }

/-- Counting an access to the header. -/
def Sys.touch (y : Sys) : Sys := if y.freed = 0 then y else { y with touched := y.touched + 1 }

/-- Where a thread goes after its decrement (641-653) gave `count`. -/
def afterSub (count : BitVec 32) : PC :=
  if count.toInt < 0 then .abort else if count = 0 then .destroy else .idle

/-- One step of a thread.  A thread only uses the memory while it holds a reference. -/
inductive Step : Sys → Sys → Prop
  /-- `CCMemoryRetain` (604) -/
  | retain {y : Sys} {i : Nat} {k : Nat} : y.thrs[i]? = some ⟨.idle, k + 1⟩ →
      Step y { y.touch with refCount := y.refCount + 1, thrs := y.thrs.set i ⟨.idle, k + 2⟩ }
  /-- a thread hands a reference to another thread (or to itself) -/
  | pass {y : Sys} {i j : Nat} {k m : Nat} {p : PC} : y.thrs[i]? = some ⟨.idle, k + 1⟩ →
      (y.thrs.set i ⟨.idle, k⟩)[j]? = some ⟨p, m⟩ →
      Step y { y with thrs := (y.thrs.set i ⟨.idle, k⟩).set j ⟨p, m + 1⟩ }
  /-- `CCMemorySetDestructor` (674-675) -/
  | setDestructor {y : Sys} {i : Nat} {k : Nat} (d : Option Nat) : y.thrs[i]? = some ⟨.idle, k + 1⟩ →
      Step y { y.touch with destructor := d }
  /-- `CCMemoryDeallocate`, the decrement (641) and the tests that follow it (649-653) -/
  | sub {y : Sys} {i : Nat} {k : Nat} : y.thrs[i]? = some ⟨.idle, k + 1⟩ →
      Step y { y.touch with refCount := y.refCount - 1, thrs := y.thrs.set i ⟨afterSub (y.refCount - 1), k⟩ }
  /-- the destructor (659) -/
  | destroy {y : Sys} {i : Nat} {k : Nat} : y.thrs[i]? = some ⟨.destroy, k⟩ →
      Step y { y.touch with ran := y.ran ++ [y.destructor], thrs := y.thrs.set i ⟨.dealloc, k⟩ }
  /-- the deallocator (663) -/
  | dealloc {y : Sys} {i : Nat} {k : Nat} : y.thrs[i]? = some ⟨.dealloc, k⟩ →
      Step y { y.touch with freed := y.freed + 1, thrs := y.thrs.set i ⟨.idle, k⟩ }

/-- The number of references held. -/
def Sys.refs (y : Sys) : Nat := (y.thrs.map Thr.held).sum

/-- The states reachable by `n + 1` threads that never hold more than `L` references together. -/
inductive Reach (n L : Nat) : Sys → Prop
  | init : Reach n L (init n)
  | step {y y' : Sys} : Reach n L y → Step y y' → y'.refs ≤ L → Reach n L y'

end Verif.RefCount
