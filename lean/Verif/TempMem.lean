/-!
Memory for the time of a scope: `CC_TEMP_Malloc_explicit`, `CC_TEMP_Malloc` and `CC_TEMP_Free` (MemoryAllocation.h 157-197).

The macros declare variables, one of them an array whose length is computed; what they amount to is where the memory is, how long that array is and what has been freed.  Only the outcome of `CCMalloc` is left open.  The arguments are values: that they are put into expressions without parentheses is not modelled, but
that the size is evaluated twice is.
-/

namespace Verif.TempMem

/-- Where a pointer points: nowhere, to a block of the heap with its size, or to the array in the scope. -/
inductive Ptr where
  | null
  | heap (block size : Nat)
  | stack
deriving DecidableEq

/-- The variables the macro declares (MemoryAllocation.h 185-189): the pointer `x`, `__CC_PRIV__SIZE`, `__CC_PRIV__NEEDS_FREEING`, `__CC_PRIV__ALLOC_ON_STACK`, the length of `__CC_PRIV__BACKUP`; and the blocks freed so far, in order (not in the program). -/
structure Scope where
  x : Ptr
  size : Nat
  needsFreeing : Bool
  onStack : Bool
  backup : Nat
  freed : List Nat

/-- `CCMalloc` (MemoryAllocation.c 33-50) when it gives the block, if any; the error callback is taken to give none. -/
def malloc (block : Option Nat) (size : Nat) : Ptr :=
  match block with
  | none => .null
  | some b => .heap b size

/-- `CC_TEMP_Malloc_explicit` (MemoryAllocation.h 184-193): `size` is what the expression for the size gives when evaluated first (186), `again` what it gives when evaluated again (187), which is only done for a size greater than `stackSize`. -/
def allocate (size again stackSize maxStackSize : Nat) (block : Option Nat) : Scope :=
  let x := if size ≤ stackSize then .null else malloc block again
  let needsFreeing := decide (x ≠ .null)
  let onStack := !needsFreeing && decide (size ≤ maxStackSize)
  { x := if onStack then .stack else x, size := size, needsFreeing := needsFreeing, onStack := onStack, backup := size * onStack.toNat, freed := [] }

/-- `CC_SHOULD_ALLOC_ON_STACK` (MemoryAllocation.h 173-175), unless defined before. -/
def should : Nat := 64

/-- `CC_ALLOC_ON_STACK_MAX` (MemoryAllocation.h 169-171), unless defined before. -/
def most : Nat := should * 2

/-- `CC_TEMP_Malloc` (MemoryAllocation.h 179-180). -/
def temp (size again : Nat) (block : Option Nat) : Scope := allocate size again should most block

/-- `CCFree` (MemoryAllocation.c 72-75), which does nothing for null; the array in the scope is not for it to free (`none`). -/
def free (p : Ptr) (freed : List Nat) : Option (List Nat) :=
  match p with
  | .null => some freed
  | .heap b _ => some (freed ++ [b])
  | .stack => none

/-- `CC_TEMP_Free` (MemoryAllocation.h 197). -/
def release (s : Scope) : Option Scope :=
  if s.needsFreeing then (free s.x s.freed).map fun f => { s with x := .null, freed := f } else some { s with x := .null }

/-- Several times `CC_TEMP_Free` (MemoryAllocation.h 197). -/
def releases : Nat → Scope → Option Scope
  | 0, s => some s
  | k + 1, s => (release s).bind (releases k)

end Verif.TempMem
