/-!
# Model of the serial task queue (`TaskQueue.c`)

Any number of threads push and pop; each atomic operation, and each access to `lastTask`, is one step. Atomics are sequentially consistent.
The concurrent queue below is an atomic FIFO whose pop may also report empty spuriously (`ConcurrentQueue.c` 147-184 can). Tasks
are run by the threads that got them and by anybody else who holds a reference: whether a task currently reports finished (`Task.c` 146-153) is up to
the environment. Node allocation does not fail. Destruction of the queue is not modelled.
-/
namespace Verif.TaskQueue

/-- Where a thread is in `CCTaskQueuePush` (110-120) or `CCTaskQueuePop` (122-164). -/
inductive PC (T : Type)
  | idle
  /-- push: the node is in the queue (118), the count not yet increased (119) -/
  | pushed
  /-- pop: the lock is taken (128), `lastTask` not yet looked at (130) -/
  | locked
  /-- pop: `lastTask` is null, before 143 -/
  | ready
  /-- pop: about to give up the lock and return null (134, 146) -/
  | giveUp
  /-- pop: a task was taken (143), `lastTask` not yet set (157) -/
  | taken (t : T)
  /-- pop: `lastTask` is set (157), the lock still held (158) -/
  | stored (t : T)
  /-- pop: the lock is given up, the count not yet decreased (161) -/
  | released (t : T)
  deriving DecidableEq, Repr

/-- `CCTaskQueueInfo` (`TaskQueue.c` 34-41) and the threads. Not part of the program: `pushedTasks` and `handedOut`, the tasks in the order of their
pushes and pops, and `seen`, the tasks that have reported finished at some time. -/
structure Sys (T : Type) where
  tasks : List T
  last : Option T
  lock : Bool
  count : BitVec 64
  pcs : List (PC T)
  done : T → Bool
  pushedTasks : List T
  handedOut : List T
  seen : T → Prop

/-- `CCTaskQueueCreate` (`TaskQueue.c` 82-94) for `CCTaskQueueExecuteSerially`, with `n` threads. -/
def init (T : Type) (n : Nat) (done : T → Bool) : Sys T :=
  { tasks := [], last := none, lock := false, count := 0, pcs := List.replicate n .idle, done,
    pushedTasks := [], handedOut := [], seen := fun t => done t = true }

/-- One step of thread `i` or of the environment. -/
inductive Step {T : Type} : Sys T → Sys T → Prop
  /-- 118: the push takes effect -/
  | push {y : Sys T} {i : Nat} (t : T) : y.pcs[i]? = some .idle →
      Step y { y with tasks := y.tasks ++ [t], pcs := y.pcs.set i .pushed, pushedTasks := y.pushedTasks ++ [t] }
  /-- 119 -/
  | pushCount {y : Sys T} {i : Nat} : y.pcs[i]? = some .pushed → Step y { y with count := y.count + 1, pcs := y.pcs.set i .idle }
  /-- 128: the lock is held by another thread, null is returned -/
  | busy {y : Sys T} {i : Nat} : y.pcs[i]? = some .idle → y.lock = true → Step y y
  /-- 128: the lock is taken -/
  | lock {y : Sys T} {i : Nat} : y.pcs[i]? = some .idle → y.lock = false → Step y { y with lock := true, pcs := y.pcs.set i .locked }
  /-- 130: no last task -/
  | noLast {y : Sys T} {i : Nat} : y.pcs[i]? = some .locked → y.last = none → Step y { y with pcs := y.pcs.set i .ready }
  /-- 132: the last task is not finished -/
  | unfinished {y : Sys T} {i : Nat} {t} : y.pcs[i]? = some .locked → y.last = some t → y.done t = false → Step y { y with pcs := y.pcs.set i .giveUp }
  /-- 132, 138-139: the last task is finished, the reference is given up -/
  | finished {y : Sys T} {i : Nat} {t} : y.pcs[i]? = some .locked → y.last = some t → y.done t = true →
      Step y { y with last := none, pcs := y.pcs.set i .ready }
  /-- 143, 144: nothing was popped -/
  | nothing {y : Sys T} {i : Nat} : y.pcs[i]? = some .ready → Step y { y with pcs := y.pcs.set i .giveUp }
  /-- 143: a task is popped -/
  | take {y : Sys T} {i : Nat} {t ts} : y.pcs[i]? = some .ready → y.tasks = t :: ts →
      Step y { y with tasks := ts, pcs := y.pcs.set i (.taken t), handedOut := y.handedOut ++ [t] }
  /-- 134, 146 -/
  | giveUp {y : Sys T} {i : Nat} : y.pcs[i]? = some .giveUp → Step y { y with lock := false, pcs := y.pcs.set i .idle }
  /-- 157 -/
  | store {y : Sys T} {i : Nat} {t} : y.pcs[i]? = some (.taken t) → Step y { y with last := some t, pcs := y.pcs.set i (.stored t) }
  /-- 158 -/
  | release {y : Sys T} {i : Nat} {t} : y.pcs[i]? = some (.stored t) → Step y { y with lock := false, pcs := y.pcs.set i (.released t) }
  /-- 161, 163: the task is returned -/
  | popCount {y : Sys T} {i : Nat} {t} : y.pcs[i]? = some (.released t) → Step y { y with count := y.count - 1, pcs := y.pcs.set i .idle }
  /-- a task starts or finishes running -/
  | env {y : Sys T} (done : T → Bool) : Step y { y with done, seen := fun t => y.seen t ∨ done t = true }

/-- The states reachable by `n` threads. -/
inductive Reach {T : Type} (n : Nat) : Sys T → Prop
  | init (done) : Reach n (init T n done)
  | step {y y'} : Reach n y → Step y y' → Reach n y'

/-- `CCTaskQueueIsEmpty` (`TaskQueue.c` 166-171). -/
def isEmpty {T : Type} (y : Sys T) : Bool := y.count == 0

end Verif.TaskQueue
