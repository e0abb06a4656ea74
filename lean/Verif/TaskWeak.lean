/-!
# Model of tasks and of the default task queue with their memory orders (`Task.c`, `TaskQueue.c`)

The state of a task (`Task->state`, 55-58, 64) has a list of stores, in their order; a load may see any of them that is not older than the last one the thread has seen (C11 5.1.2.4), an exchange sees the last one.  What happens before what is followed:
each store carries the runs of the task whose function is known to have returned to whoever reads it with an acquire; only a release store adds what its thread knows, and an exchange hands on what the store it replaces carries
(release sequences, 5.1.2.4 paragraph 10).  A thread knows its own runs, and what the stores carry that it reads with an acquire.

The memory orders are parameters (`Orders`); `code` are those of the file.

* The exchange loops (135-137, 141-143) are one step, the successful exchange.
* The function of a task (139) is one step: it writes the output.
* `executions` is a natural number: fewer than `2^32` runs at a time.
-/
namespace Verif.TaskWeak

/-- How each access is ordered: is the exchange that begins a run (137) an acquire, the one that ends it (143) a release, the load of `CCTaskIsFinished` (150) an acquire. -/
structure Orders where
  beginAcq : Bool
  endRel : Bool
  lookAcq : Bool
deriving DecidableEq, Repr

/-- The orders of the file (137, 143, 150). -/
def code : Orders := ⟨true, true, false⟩

/-- A store to the state of the task (55-58).  Not part of the program: `carries`, the runs it makes known; `begun`, the number of runs begun so far; `ended`, the runs ended so far. -/
structure Msg where
  execs : Nat
  completed : Bool
  carries : List Nat
  begun : Nat
  ended : List Nat
deriving DecidableEq, Repr

/-- A thread: outside; in `CCTaskRun` before and after the function (139), `r` the number of the run and `past` the runs that had ended when it began; or with the output given by `CCTaskGetResult` (171-178), which saw store number `j`. -/
inductive PC
  | idle
  | before (r : Nat) (past : List Nat)
  | after (r : Nat)
  | result (j : Nat)
deriving DecidableEq, Repr

/-- A thread, the last store it has seen, and (not part of the program) the runs it knows. -/
structure Thr where
  pc : PC
  last : Nat
  knows : List Nat
deriving DecidableEq, Repr

/-- What is recorded, not part of the program. -/
inductive Ev
  /-- the function of run `r` was called; `past` had ended when the run began, `knows` are the runs known to have happened before -/
  | call (r : Nat) (past knows : List Nat)
  /-- the output was read after `CCTaskGetResult`, when `begun` runs had been begun as far as it saw; `knows` are the runs known to have happened before -/
  | read (begun : Nat) (knows : List Nat)
deriving DecidableEq, Repr

/-- The stores, the threads, and what is recorded. -/
structure Sys where
  msgs : List Msg
  thrs : List Thr
  log : List Ev

/-- `CCTaskCreate` (74-120); `n` threads. -/
def init (n : Nat) : Sys := ⟨[⟨0, false, [], 0, []⟩], List.replicate n ⟨.idle, 0, []⟩, []⟩

/-- One step of a thread. -/
inductive Step (o : Orders) : Sys → Sys → Prop
  /-- `CCTaskRun`: the exchange that begins the run (135-137) -/
  | begin {y : Sys} {i l : Nat} {k : List Nat} {m : Msg} : y.thrs[i]? = some ⟨.idle, l, k⟩ → y.msgs.getLast? = some m →
      Step o y { y with
        msgs := y.msgs ++ [⟨m.execs + 1, false, m.carries, m.begun + 1, m.ended⟩]
        thrs := y.thrs.set i ⟨.before m.begun m.ended, y.msgs.length, if o.beginAcq then k ++ m.carries else k⟩ }
  /-- `CCTaskRun`: the function (139) -/
  | call {y : Sys} {i l r : Nat} {k past : List Nat} : y.thrs[i]? = some ⟨.before r past, l, k⟩ →
      Step o y { y with thrs := y.thrs.set i ⟨.after r, l, k ++ [r]⟩, log := y.log ++ [.call r past k] }
  /-- `CCTaskRun`: the exchange that ends the run (141-143) -/
  | finish {y : Sys} {i l r : Nat} {k : List Nat} {m : Msg} : y.thrs[i]? = some ⟨.after r, l, k⟩ → y.msgs.getLast? = some m →
      Step o y { y with
        msgs := y.msgs ++ [⟨m.execs - 1, decide (m.execs = 1), if o.endRel then m.carries ++ k else m.carries, m.begun, m.ended ++ [r]⟩]
        thrs := y.thrs.set i ⟨.idle, y.msgs.length, k⟩ }
  /-- `CCTaskIsFinished` (146-153): a run is still to be completed; in `CCTaskWait` (155-169) the loop goes on -/
  | notYet {y : Sys} {i l j : Nat} {k : List Nat} {m : Msg} : y.thrs[i]? = some ⟨.idle, l, k⟩ → l ≤ j → y.msgs[j]? = some m → m.completed = false →
      Step o y { y with thrs := y.thrs.set i ⟨.idle, j, if o.lookAcq then k ++ m.carries else k⟩ }
  /-- `CCTaskGetResult` (171-178): the task is completed -/
  | result {y : Sys} {i l j : Nat} {k : List Nat} {m : Msg} : y.thrs[i]? = some ⟨.idle, l, k⟩ → l ≤ j → y.msgs[j]? = some m → m.completed = true →
      Step o y { y with thrs := y.thrs.set i ⟨.result j, j, if o.lookAcq then k ++ m.carries else k⟩ }
  /-- the output is read -/
  | read {y : Sys} {i l j : Nat} {k : List Nat} {m : Msg} : y.thrs[i]? = some ⟨.result j, l, k⟩ → y.msgs[j]? = some m →
      Step o y { y with thrs := y.thrs.set i ⟨.idle, l, k⟩, log := y.log ++ [.read m.begun k] }

/-- The states reachable by `n` threads. -/
inductive Reach (o : Orders) (n : Nat) : Sys → Prop
  | init : Reach o n (init n)
  | step {y y' : Sys} : Reach o n y → Step o y y' → Reach o n y'

/-! ## The default task queue -/

/-- `CCTaskQueueDefault` (`TaskQueue.c` 56-81): a thread is outside; has set `Lock` (72) and is creating the queue of tasks; has created it (74); or has returned. -/
inductive QPC
  | out
  | creating
  | created
  | back
deriving DecidableEq, Repr

/-- A thread, and (not part of the program) whether the creation of the queue is known to have happened before what it does next. -/
structure QThr where
  pc : QPC
  knows : Bool
deriving DecidableEq, Repr

/-- `Lock`, `Init` (70-71) with whether its store carries the knowledge of the creation, and the threads. -/
structure QSys where
  lock : Bool
  init : Option Bool
  thrs : List QThr

/-- All static (58-71); `n` threads. -/
def qInit (n : Nat) : QSys := ⟨false, none, List.replicate n ⟨.out, false⟩⟩

/-- One step; `rel`: is the store of `Init` (75) a release; `acq`: is its load (78) an acquire.  A load that does not see the store of `Init` leaves the thread where it is (78). -/
inductive QStep (rel acq : Bool) : QSys → QSys → Prop
  /-- the first to set `Lock` (72) -/
  | first {y : QSys} {i : Nat} {k : Bool} : y.thrs[i]? = some ⟨.out, k⟩ → y.lock = false → QStep rel acq y { y with lock := true, thrs := y.thrs.set i ⟨.creating, k⟩ }
  /-- `Queue.data.tasks` is set (74) -/
  | create {y : QSys} {i : Nat} {k : Bool} : y.thrs[i]? = some ⟨.creating, k⟩ → QStep rel acq y { y with thrs := y.thrs.set i ⟨.created, true⟩ }
  /-- `Init` is set (75, 80) -/
  | store {y : QSys} {i : Nat} {k : Bool} : y.thrs[i]? = some ⟨.created, k⟩ → QStep rel acq y { y with init := some (rel && k), thrs := y.thrs.set i ⟨.back, k⟩ }
  /-- others see that `Init` is set (78, 80) -/
  | see {y : QSys} {i : Nat} {k c : Bool} : y.thrs[i]? = some ⟨.out, k⟩ → y.lock = true → y.init = some c → QStep rel acq y { y with thrs := y.thrs.set i ⟨.back, k || (acq && c)⟩ }
  /-- the queue has been used; the thread may call again -/
  | again {y : QSys} {i : Nat} {k : Bool} : y.thrs[i]? = some ⟨.back, k⟩ → QStep rel acq y { y with thrs := y.thrs.set i ⟨.out, k⟩ }

/-- The states reachable by `n` threads. -/
inductive QReach (rel acq : Bool) (n : Nat) : QSys → Prop
  | init : QReach rel acq n (qInit n)
  | step {y y' : QSys} : QReach rel acq n y → QStep rel acq y y' → QReach rel acq n y'

end Verif.TaskWeak
