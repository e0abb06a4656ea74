/-!
# Model of who owns the tasks of a task queue, and the nodes that carry them: `CommonC/TaskQueue.c`, `CommonC/ConcurrentQueue.c`

One call after the other (the order of the tasks under concurrent use is C20, C35 and C49).  Tasks and nodes are reference counted blocks (`CCRetain`, `CCFree`), numbered in the order of allocation; what is freed is logged.  The nodes handed over to
the garbage collector are reclaimed at any time, in any order, and those left when the collector is destroyed (C18, C19, C109).  A task is run at once.  Allocations succeed.  The count is without its wrap after `2^64` tasks.
`none`: a freed task or node is used.
-/
namespace Verif.TaskOwn

/-- `CCTaskQueueInfo` (TaskQueue.c:34-41), the list of `CCConcurrentQueueInfo` (ConcurrentQueue.c:33-37) from `head` to `tail`, and the blocks: of every task its references and whether it completed (Task.c:55-65), of every node its references and its task (NULL: `none`). -/
structure Sys where
  serial : Bool
  last : Option Nat
  count : Nat
  chain : List Nat
  pending : List Nat
  nodes : Nat
  nrc : Nat → Nat
  payload : Nat → Option Nat
  nfreed : List Nat
  tasks : Nat
  trc : Nat → Nat
  completed : Nat → Bool
  tfreed : List Nat

/-- Change one place. -/
def upd {α : Type} (f : Nat → α) (a : Nat) (b : α) : Nat → α := fun x => if x = a then b else f x

/-- `CCTaskQueueCreate` (TaskQueue.c:83-95), with `CCConcurrentQueueCreate` (ConcurrentQueue.c:81-99): the dummy node. -/
def init (serial : Bool) : Sys :=
  ⟨serial, none, 0, [0], [], 1, upd (fun _ => 0) 0 1, fun _ => none, [], 0, fun _ => 0, fun _ => false, []⟩

/-- `CCFree` of a task, `CCTaskDestroy` (Task.c:121-126). -/
def freeTask (s : Sys) (t : Nat) : Option Sys :=
  if s.trc t = 0 then none
  else some { s with trc := upd s.trc t (s.trc t - 1), tfreed := if s.trc t = 1 then s.tfreed ++ [t] else s.tfreed }

/-- `CCFree` of a node, `CCConcurrentQueueDestroyNode` (ConcurrentQueue.c:53-58): the destructor of the node, `CCTaskQueueNodeDestructor` (TaskQueue.c:104-108), destroys its task. -/
def freeNode (s : Sys) (n : Nat) : Option Sys :=
  if s.nrc n = 0 then none
  else if s.nrc n = 1 then do
    let s ← match s.payload n with
      | none => some s
      | some t => freeTask s t
    return { s with nrc := upd s.nrc n 0, nfreed := s.nfreed ++ [n] }
  else some { s with nrc := upd s.nrc n (s.nrc n - 1) }

/-- `CCTaskCreate` (Task.c:74-119). -/
def create (s : Sys) : Sys :=
  { s with tasks := s.tasks + 1, trc := upd s.trc s.tasks 1, completed := upd s.completed s.tasks false }

/-- `CCRetain` of a task. -/
def retain (s : Sys) (t : Nat) : Option Sys :=
  if s.trc t = 0 then none else some { s with trc := upd s.trc t (s.trc t + 1) }

/-- `CCTaskRun` (Task.c:128-142). -/
def runTask (s : Sys) (t : Nat) : Option Sys :=
  if s.trc t = 0 then none else some { s with completed := upd s.completed t true }

/-- `CCTaskQueuePush` (TaskQueue.c:110-120), with `CCConcurrentQueuePush` (ConcurrentQueue.c:112-133), which retains the node. -/
def push (s : Sys) (t : Nat) : Sys :=
  { s with
    nodes := s.nodes + 1
    nrc := upd s.nrc s.nodes 2
    payload := upd s.payload s.nodes (some t)
    chain := s.chain ++ [s.nodes]
    count := s.count + 1 }

/-- `CCConcurrentQueuePop` (ConcurrentQueue.c:147-184): the node in `head` is handed over to the collector, the next one is returned and stays in the queue as `head`. -/
def popNode (s : Sys) : Sys × Option Nat :=
  match s.chain with
  | d :: n :: ns => ({ s with chain := n :: ns, pending := s.pending ++ [d] }, some n)
  | _ => (s, none)

/-- The end of `CCTaskQueuePop` (TaskQueue.c:143-164). -/
def popRest (s : Sys) : Option (Sys × Option Nat) :=
  match popNode s with
  | (s, none) => some (s, none)
  | (s, some n) => do
    let task := s.payload n
    let s ← freeNode { s with payload := upd s.payload n none } n
    match task with
    | none => return (if s.serial then { s with last := none } else s, none)
    | some t => do
      let s ← if s.serial then (retain s t).map fun s => { s with last := some t } else some s
      return ({ s with count := s.count - 1 }, some t)

/-- `CCTaskQueuePop` (TaskQueue.c:122-165); the lock (126) is free. -/
def pop (s : Sys) : Option (Sys × Option Nat) :=
  match s.serial, s.last with
  | true, some t =>
    if s.trc t = 0 then none
    else if s.completed t then do
      let s ← freeTask s t
      popRest { s with last := none }
    else some (s, none)
  | _, _ => popRest s

/-- The collector reclaims node `n`: `CCConcurrentQueueClearNode` (ConcurrentQueue.c:60-66). -/
def reclaim (s : Sys) (n : Nat) : Option Sys := freeNode { s with pending := s.pending.erase n } n

/-- The loop of `CCConcurrentQueueDestructor` (ConcurrentQueue.c:70-73); the number bounds the rounds, the nodes in the queue are enough. -/
def popAll : Nat → Sys → Option Sys
  | 0, _ => none
  | fuel + 1, s =>
    match popNode s with
    | (s, none) => some s
    | (s, some n) => do popAll fuel (← freeNode s n)

/-- The collector reclaims everything (EpochGarbageCollector.c:172-176). -/
def reclaimAll : List Nat → Sys → Option Sys
  | [], s => some s
  | n :: ns, s => do reclaimAll ns (← reclaim s n)

/-- `CCConcurrentQueueDestructor` (ConcurrentQueue.c:68-79). -/
def destroyTasks (s : Sys) : Option Sys := do
  let s ← popAll (s.chain.length + 1) s
  match s.chain with
  | [] => none
  | d :: ns => do
    let s ← freeNode { s with chain := ns } d
    reclaimAll s.pending s

/-- `CCTaskQueueDestructor` (TaskQueue.c:49-53). -/
def destroy (s : Sys) : Option Sys := do
  let s ← destroyTasks s
  match s.last with
  | none => return s
  | some t => (freeTask s t).map fun s => { s with last := none }

/-- `CCTaskQueueIsEmpty` (TaskQueue.c:167-172). -/
def isEmpty (s : Sys) : Bool := s.count == 0

end Verif.TaskOwn
