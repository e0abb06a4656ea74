/-!
# Model of failed allocations: `CommonC/MemoryAllocation.c`, `CommonC/MemoryAllocation.h`, `CommonC/DebugTypes.c`

The functions that allocate memory call a callback when the allocator has none to give.  Whether an allocation succeeds is given, as the
address of the memory or `none` for NULL.  A callback is any function of what it is told and of the data of the caller; it may allocate
memory itself, so a run has a list of the calls to callbacks, of the messages logged, and a result, or ends the program with a status.
-/
namespace Verif.AllocError

/-- The functions, as a `CCFunctionIndicator` (DebugTypes.h:28) points to them: `CCMalloc`, `CCRealloc`, `CCMallocBlock`,
`CCReallocBlock` (MemoryAllocation.c:33-125). -/
inductive Fn where
  | malloc
  | realloc
  | mallocBlock
  | reallocBlock
deriving DecidableEq, Repr

/-- Where the call is: `__FILE__`, `__func__`, `__LINE__` (MemoryAllocation.h:68-76). -/
structure Site where
  file : String
  func : String
  line : Int
deriving DecidableEq, Repr

/-- `CCFunctionDataMalloc` and `CCFunctionDataRealloc` (MemoryAllocation.h:36-53).  Only the second has a member `ptr`: `none` is the
first, `some p` the second with the pointer `p`. -/
structure Report where
  indicator : Fn
  info : String
  site : Site
  type : Int
  ptr : Option (Option Nat)
  bytes : Nat
deriving DecidableEq, Repr

/-- What happens in a run; a result of `error` is the end of the program with a status. -/
structure Run where
  told : List (Report × Nat)
  logged : List (Site × String)
  result : Except Int (Option Nat)

/-- `CCErrorCallback` and `CCErrorCallbackBlock` (DebugTypes.h:37-41). -/
abbrev Callback := Report → Nat → Run

/-- The arguments of a call: where it is, allocator, pointer (for the two that reallocate), size and data for the callback
(MemoryAllocation.c:33, 52, 88, 107). -/
structure Args where
  site : Site
  type : Int
  ptr : Option Nat
  bytes : Nat
  data : Nat

/-- What the callback is told (MemoryAllocation.c:38-46, 57-66, 93-101, 112-121). -/
def report (a : Args) : Fn → Report
  | .malloc => ⟨.malloc, "Failed to allocate memory.", a.site, a.type, none, a.bytes⟩
  | .realloc => ⟨.realloc, "Failed to reallocate memory.", a.site, a.type, some a.ptr, a.bytes⟩
  | .mallocBlock => ⟨.mallocBlock, "Failed to allocate memory.", a.site, a.type, none, a.bytes⟩
  | .reallocBlock => ⟨.realloc, "Failed to reallocate memory.", a.site, a.type, some a.ptr, a.bytes⟩

/-- `CCMalloc` (MemoryAllocation.c:33-50), `CCRealloc` (52-70), `CCMallocBlock` (88-105), `CCReallocBlock` (107-125); `memory` is what
the allocator gives. -/
def call (fn : Fn) (a : Args) (memory : Option Nat) (callback : Option Callback) : Run :=
  match memory with
  | some m => ⟨[], [], .ok (some m)⟩
  | none =>
    match callback with
    | some f => let r := f (report a fn) a.data; ⟨(report a fn, a.data) :: r.told, r.logged, r.result⟩
    | none => ⟨[], [], .ok none⟩

/-- `ErrorLog`, which is `CCErrorLog` (DebugTypes.c:31-35, 47). -/
def errorLog : Callback := fun r _ => ⟨[], [(r.site, r.info)], .ok none⟩

/-- `ErrorLogAndExit`, which is `CCErrorLogAndExit` (DebugTypes.c:37-42, 48). -/
def errorLogAndExit : Callback := fun r _ => ⟨[], [(r.site, r.info)], .error 0⟩

/-- `CC_SAFE_Malloc` (MemoryAllocation.h:128-133): the variable afterwards, and whether the statements for the failure are run. -/
def safeMalloc (a : Args) (memory : Option Nat) : List (Site × String) × Except Int (Option Nat × Bool) :=
  let r := call .malloc a memory (some errorLog)
  (r.logged, r.result.map fun x => (x, x.isNone))

/-- `CC_SAFE_Realloc` (MemoryAllocation.h:141-149) on a variable that holds `x`. -/
def safeRealloc (a : Args) (x : Option Nat) (memory : Option Nat) : List (Site × String) × Except Int (Option Nat × Bool) :=
  let r := call .realloc { a with ptr := x } memory (some errorLog)
  (r.logged, r.result.map fun t => if t.isNone then (x, true) else (t, false))

/-- A callback that frees something and tries again, as MemoryAllocation.h:104-113 suggests (MemoryAllocation.c:33-50): the attempts'
outcomes are given, each attempt but the last has a callback that makes the next. -/
def attempts (fn : Fn) (a : Args) : List (Option Nat) → Run
  | [] => ⟨[], [], .ok none⟩
  | [m] => call fn a m none
  | m :: m' :: ms => call fn a m (some fun _ _ => attempts fn a (m' :: ms))

end Verif.AllocError
