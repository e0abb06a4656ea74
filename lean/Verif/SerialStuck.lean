/-!
# Model of whether a serial task queue goes on handing out tasks: `CommonC/TaskQueue.c`, `CommonC/Task.c`

The tasks that wait, the task the queue handed out last, and of every task its state (`CCTaskState`, Task.c:55-58) and the references users have to it; those of the queue are counted by `waiting` and `last`.  Runs of a task overlap with each other and with all calls.
A pop is one step: it holds `lock` from beginning to end, and a pop that does not get the lock returns NULL and changes nothing (TaskQueue.c:128).  The order under concurrent pops is C35, the freeing is C111.
-/
namespace Verif.SerialStuck

/-- `CCTaskQueueInfo` (TaskQueue.c:35-42) of a queue of type `CCTaskQueueExecuteSerially`, and the tasks: `executions` and `completed` are their state, `refs` the references of users. -/
structure St where
  waiting : List Nat
  last : Option Nat
  executions : Nat → Nat
  completed : Nat → Bool
  refs : Nat → Nat

/-- Change one place. -/
def upd {α : Type} (f : Nat → α) (a : Nat) (b : α) : Nat → α := fun x => if x = a then b else f x

/-- `CCTaskQueueCreate` (TaskQueue.c:83-95). -/
def init : St := ⟨[], none, fun _ => 0, fun _ => false, fun _ => 0⟩

/-- The calls of the users. -/
inductive Op
  | create (t : Nat)
  | retain (t : Nat)
  | destroy (t : Nat)
  | push (t : Nat)
  | pop
  | begin (t : Nat)
  | finish (t : Nat)
  deriving DecidableEq

/-- Whether the queue has no last task, or it is finished (TaskQueue.c:130-132). -/
def ready (s : St) : Bool := match s.last with
  | none => true
  | some t => s.completed t

/-- `CCTaskQueuePop` (TaskQueue.c:122-164) of a serial queue: the queue after it, and the task or NULL.  The reference of the queue becomes that of the user, and the queue retains the task as `lastTask` (157). -/
def pop (s : St) : St × Option Nat :=
  if ready s then
    match s.waiting with
    | [] => ({ s with last := none }, none)
    | t :: ts => ({ s with waiting := ts, last := some t, refs := upd s.refs t (s.refs t + 1) }, some t)
  else (s, none)

/-- One call.  `none`: the user uses a task it has no reference to, gives up the last reference while it runs the task, or ends a run that was not begun.  `create`: any block that is not in use may be returned.
`begin`, `finish`: the two exchanges of `CCTaskRun` (Task.c:135-137, 141-143). -/
def step (s : St) : Op → Option St
  | .create t => if s.refs t = 0 ∧ t ∉ s.waiting ∧ s.last ≠ some t then some { s with refs := upd s.refs t 1, executions := upd s.executions t 0, completed := upd s.completed t false } else none
  | .retain t => if s.refs t = 0 then none else some { s with refs := upd s.refs t (s.refs t + 1) }
  | .destroy t => if s.refs t = 0 ∨ (s.refs t = 1 ∧ s.executions t ≠ 0) then none else some { s with refs := upd s.refs t (s.refs t - 1) }
  | .push t => if s.refs t = 0 ∨ (s.refs t = 1 ∧ s.executions t ≠ 0) then none else some { s with refs := upd s.refs t (s.refs t - 1), waiting := s.waiting ++ [t] }
  | .pop => some (pop s).1
  | .begin t => if s.refs t = 0 then none else some { s with executions := upd s.executions t (s.executions t + 1), completed := upd s.completed t false }
  | .finish t => if s.executions t = 0 then none else some { s with executions := upd s.executions t (s.executions t - 1), completed := upd s.completed t (s.executions t == 1) }

/-- Calls one after the other. -/
def run (s : St) : List Op → Option St
  | [] => some s
  | o :: os => (step s o).bind fun s => run s os

/-- The states a queue and its tasks get into. -/
def Reach (s : St) : Prop := ∃ os, run init os = some s

end Verif.SerialStuck
