import Verif.DebugAlloc

/-!
# What tracking means

The entries of the index map in use, and executions.
-/
namespace Verif.DebugAlloc

/-- The entries of the index map in use, null ones included. -/
def slots (s : State) : List Slot :=
  match s.ctx with
  | none => []
  | some m => s.maps[m]?.getD []

/-- The pointers tracked, each with the place recorded for it. -/
def tracked (s : State) : List (Nat × Info) := (slots s).filterMap id

/-- `s` comes about when `n` threads run from the start. -/
def Reachable (hold : Bool) (n : Nat) (s : State) : Prop := ∃ l, run hold (start n) l = some s

/-- No thread is in a call. -/
def Quiet (s : State) : Prop := ∀ pc ∈ s.threads, pc = .idle

/-- The entries of one file and line. -/
def under (m : List Slot) (file : Nat) (line : Int) : List Nat :=
  m.filterMap fun e => match e with
    | some (p, info) => if info.file = file ∧ info.line = line then some p else none
    | none => none

/-- A thread that has memory not in the map yet. -/
def tracking : Pc → Nat
  | .trackLoad _ _ => 1
  | .trackCas _ _ _ => 1
  | .trackReload _ _ => 1
  | .trackPut _ _ _ => 1
  | _ => 0

/-- The number of allocations begun in a schedule. -/
def mallocs : List (Nat × Choice) → Nat
  | [] => 0
  | (_, .malloc _ _) :: l => mallocs l + 1
  | _ :: l => mallocs l

end Verif.DebugAlloc
