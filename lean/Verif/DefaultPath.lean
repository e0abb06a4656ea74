/-!
# Model of `FSPathDefault`: initialising the default path once

`CommonC/SystemPath.m` 133-169.

Threads run the function at the same time; every access to a shared variable is one step and steps of different threads
interleave (sequential consistency).  Simplified: what the components are made of is not modelled, only which thread's
collection is in use and how many have been made; building the strings (161) is part of the step that assigns the
components.
-/
namespace Verif.DefaultPath

/-- Where a thread is. -/
inductive Pc where
  /-- before the first load (139-141) -/
  | load
  /-- in the spin loop (143) -/
  | spin
  /-- behind the loop, before `if (!FSDefaultPath.info.components)` (145) -/
  | check
  /-- making components (147-158) -/
  | make
  /-- before the store that publishes the path (163) -/
  | store
  /-- before clearing the flag (166) -/
  | clear
  /-- returned (141, 168) -/
  | done
  deriving DecidableEq, Repr

/-- Shared variables and threads. -/
structure State where
  /-- `InitialisedPath` is set (137) -/
  init : Bool
  /-- `FSDefaultPathLock` (133) -/
  flag : Bool
  /-- `FSDefaultPath.info.components`, by the number of the collection; `none` is null -/
  comps : Option Nat
  /-- collections made -/
  made : Nat
  threads : List Pc
  deriving DecidableEq, Repr

/-- `n` threads call the function. -/
def start (n : Nat) : State := ⟨false, false, none, 0, List.replicate n .load⟩

/-- One step of a thread at `pc`: the shared variables after it, and where the thread is then (139-168).  The loop of line
143 goes on while `test_and_set` returns false. -/
def act (s : State) : Pc → State × Pc
  | .load => (s, if s.init then .done else .spin)
  | .spin => ({ s with flag := true }, if !s.flag then .spin else .check)
  | .check => (s, if s.comps.isNone then .make else .clear)
  | .make => ({ s with comps := some s.made, made := s.made + 1 }, .store)
  | .store => ({ s with init := true }, .clear)
  | .clear => ({ s with flag := false }, .done)
  | .done => (s, .done)

/-- Thread `i` takes a step. -/
def step (s : State) (i : Nat) : State :=
  match s.threads[i]? with
  | none => s
  | some pc => { (act s pc).1 with threads := s.threads.set i (act s pc).2 }

/-- A schedule. -/
def run (s : State) (is : List Nat) : State := is.foldl step s

end Verif.DefaultPath
