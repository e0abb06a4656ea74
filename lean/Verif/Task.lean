/-!
# Model of running a task (`Task.c`)

Any number of threads call `CCTaskRun` and `CCTaskIsFinished` on one task. Each atomic operation is one step; the steps of the
threads interleave in any order. Atomics are sequentially consistent. The task function does not touch the state.
-/
namespace Verif.Task

/-- `CCTaskState` (`Task.c` 55-58); `executions` is a `uint32_t`. -/
structure St where
  executions : BitVec 32
  completed : Bool
  deriving DecidableEq, Repr

/-- Where a thread is in `CCTaskRun` (`Task.c` 130-144). -/
inductive PC
  /-- not in `CCTaskRun` -/
  | idle
  /-- at the first load (135) -/
  | enter
  /-- before the first exchange (136), having loaded `s` -/
  | start (s : St)
  /-- in the task function (138) -/
  | body
  /-- at the second load (141) -/
  | leave
  /-- before the second exchange (142), having loaded `s` -/
  | stop (s : St)
  deriving DecidableEq, Repr

/-- The task and the threads. Not part of the program: `started` counts the runs that passed line 136, `ended` those that passed line 142. -/
structure Sys where
  st : St
  pcs : List PC
  started : Nat
  ended : Nat

/-- `CCTaskCreate` (`Task.c` 83): the initial state, with `n` threads. -/
def init (n : Nat) : Sys := ⟨⟨0, false⟩, List.replicate n .idle, 0, 0⟩

/-- The value stored at the start of a run (`Task.c` 136). -/
def St.begin (s : St) : St := ⟨s.executions + 1, false⟩

/-- The value stored at the end of a run (`Task.c` 142). -/
def St.finish (s : St) : St := ⟨s.executions - 1, s.executions == 1⟩

/-- One atomic step of thread `i`. The exchanges are weak: they may fail although the value is the expected one. -/
inductive Step : Sys → Sys → Prop
  /-- a thread calls `CCTaskRun` (130) -/
  | call {y i} : y.pcs[i]? = some .idle → Step y { y with pcs := y.pcs.set i .enter }
  /-- 135 -/
  | load {y i} : y.pcs[i]? = some .enter → Step y { y with pcs := y.pcs.set i (.start y.st) }
  /-- 136, failing -/
  | retry {y i s} : y.pcs[i]? = some (.start s) → Step y { y with pcs := y.pcs.set i .enter }
  /-- 136, succeeding -/
  | start {y i s} : y.pcs[i]? = some (.start s) → y.st = s →
      Step y { y with st := s.begin, pcs := y.pcs.set i .body, started := y.started + 1 }
  /-- the task function returns (138) -/
  | body {y i} : y.pcs[i]? = some .body → Step y { y with pcs := y.pcs.set i .leave }
  /-- 141 -/
  | load' {y i} : y.pcs[i]? = some .leave → Step y { y with pcs := y.pcs.set i (.stop y.st) }
  /-- 142, failing -/
  | retry' {y i s} : y.pcs[i]? = some (.stop s) → Step y { y with pcs := y.pcs.set i .leave }
  /-- 142, succeeding -/
  | stop {y i s} : y.pcs[i]? = some (.stop s) → y.st = s →
      Step y { y with st := s.finish, pcs := y.pcs.set i .idle, ended := y.ended + 1 }

/-- The states reachable by `n` threads. -/
inductive Reach (n : Nat) : Sys → Prop
  | init : Reach n (init n)
  | step {y y'} : Reach n y → Step y y' → Reach n y'

/-- What `CCTaskIsFinished` returns (`Task.c` 146-153). -/
def isFinished (y : Sys) : Bool := y.st.completed

end Verif.Task
