/-!
# Model of the life of a task: `CommonC/Task.c`

A heap of blocks: each is allocated or not, and an allocated one has its bytes (`none`: not set) and its destructor.  Destructors are the user's: a number, and a call of it is logged with the bytes of the block.  The destructor of the task itself is
`CCTaskDestructor`.  Whether an allocation succeeds is up to `ok`.  Runs are not concurrent (that is C34).  `none`: a block that is not allocated is used or freed.
-/
namespace Verif.TaskLife

abbrev Bytes := List (Option UInt8)

/-- A block of memory for input or output: its bytes, and the destructor (`CCMemorySetDestructor`). -/
structure Block where
  bytes : Bytes
  destructor : Option Nat

/-- The memory: the blocks, and for each task block its input and output (`CCTaskInfo`, Task.c:60-65); the next address; the calls of destructors. -/
structure Mem where
  next : Nat
  block : Nat → Option Block
  task : Nat → Option (Option Nat × Option Nat)
  log : List (Nat × Bytes)

/-- Change one place. -/
def upd {α : Type} (f : Nat → α) (a : Nat) (b : α) : Nat → α := fun x => if x = a then b else f x

/-- `CCFree` of an input or output: its destructor is called. -/
def freeBlock (m : Mem) (b : Nat) : Option Mem := do
  let k ← m.block b
  return { m with block := upd m.block b none, log := match k.destructor with | some d => m.log ++ [(d, k.bytes)] | none => m.log }

/-- `CCFree` of a task (only one reference), with `CCTaskDestructor` (Task.c:68-72). -/
def freeTask (m : Mem) (t : Nat) : Option Mem := do
  let (i, o) ← m.task t
  let m ← match i with | some b => freeBlock m b | none => some m
  let m ← match o with | some b => freeBlock m b | none => some m
  return { m with task := upd m.task t none }

/-- `CCTaskCreate` (Task.c:74-119); an input that is not NULL has the size given.  `ok 0`, `ok 1`, `ok 2`: whether the allocations of the task, of the input, and of the output succeed.  The answer is an address or NULL. -/
def create (ok : Nat → Bool) (m : Mem) (outSize : Nat) (outDestructor : Option Nat) (inSize : Nat) (input : Option (List UInt8)) (inDestructor : Option Nat) :
    Option (Mem × Option Nat) :=
  if ok 0 then
    let t := m.next
    let m := { m with next := m.next + 1, task := upd m.task t (some (none, none)) }
    if inSize ≠ 0 ∧ ok 1 = false then (freeTask m t).map fun m => (m, some t)
    else
      let i := if inSize ≠ 0 then some m.next else none
      let m := if inSize ≠ 0 then
          { m with
            next := m.next + 1
            block := upd m.block m.next (some ⟨match input with | some l => l.map some | none => List.replicate inSize none, inDestructor⟩)
            task := upd m.task t (some (some m.next, none)) }
        else m
      if outSize ≠ 0 ∧ ok 2 = false then (freeTask m t).map fun m => (m, some t)
      else
        let m := if outSize ≠ 0 then
            { m with
              next := m.next + 1
              block := upd m.block m.next (some ⟨List.replicate outSize (some 0), outDestructor⟩)
              task := upd m.task t (some (i, some m.next)) }
          else m
        some (m, some t)
  else some (m, none)

/-- `CCTaskRun` (Task.c:128-142): the function is given the input and the output (NULL: `none`), and may change both, but not their size. -/
def run (f : Option Bytes → Option Bytes → Option Bytes × Option Bytes) (m : Mem) (t : Nat) : Option Mem := do
  let (i, o) ← m.task t
  let ib ← match i with | some b => (m.block b).map some | none => some none
  let ob ← match o with | some b => (m.block b).map some | none => some none
  let (i', o') := f (ib.map (·.bytes)) (ob.map (·.bytes))
  let m := match i, ib, i' with | some b, some k, some l => { m with block := upd m.block b (some { k with bytes := l }) } | _, _, _ => m
  return match o, ob, o' with | some b, some k, some l => { m with block := upd m.block b (some { k with bytes := l }) } | _, _, _ => m

/-- `CCTaskGetResult` (Task.c:171-178) of a task that was run: what the result points to (NULL: `some none`). -/
def result (m : Mem) (t : Nat) : Option (Option Bytes) := do
  let (_, o) ← m.task t
  match o with
  | some b => return some (← m.block b).bytes
  | none => return none

end Verif.TaskLife
