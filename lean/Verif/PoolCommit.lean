import Verif.ConcPool
/-!
# Model of the commit of the concurrent pool without mixed size atomics (`ConcurrentPoolTemplate.h` 320-347)

The steps are those of `ConcPool.lean`, with the loop of the commit (346) made explicit: each attempt of the exchange is one step.  The exchange is a weak one; a failure although the pointer is the expected one (`spurious`) is counted apart.
-/
namespace Verif.PoolCommit
open ConcPool

/-- The pool; `ptr`, the member `pointer` of the stage (index and last); `busy`, whether the producer is in the loop (346).  Not part of the program: the number of failed attempts of the last commit, those that were spurious, and the number of items popped when it began. -/
structure Z where
  sys : Sys
  ptr : Nat × Nat
  busy : Bool
  fails : Nat
  spurious : Nat
  start : Nat

/-- `CC_CONCURRENT_POOL_INIT` (61) and a `StageBegin` (326-328); `n` consumers. -/
def init (c : Cfg) (n : Nat) : Z := ⟨ConcPool.init c n, (0, 0), false, 0, 0, 0⟩

/-- One step. -/
inductive Step (c : Cfg) : Z → Z → Prop
  /-- a consumer, at any time: the steps of `Pop` and what follows it leave the stage alone -/
  | consumer {z : Z} {y : Sys} : ConcPool.Step c z.sys y → y.stage = z.sys.stage → y.last = z.sys.last → y.committed = z.sys.committed → y.writing = z.sys.writing → y.pushed = z.sys.pushed → Step c z { z with sys := y }
  /-- `StageBegin` (326-328) -/
  | begin {z : Z} : z.busy = false → z.sys.writing = none →
      Step c z { z with sys := { z.sys with stage := z.sys.last, pushed := z.sys.pushed.take z.sys.committed }, ptr := (z.sys.index, z.sys.last) }
  /-- `StagePush` (331-338) -/
  | push {z : Z} {y : Sys} : z.busy = false → ConcPool.Step c z.sys y → y.writing ≠ z.sys.writing → Step c z { z with sys := y }
  /-- `StageCommit` is called (340) -/
  | call {z : Z} : z.busy = false → z.sys.writing = none → Step c z { z with busy := true, fails := 0, spurious := 0, start := z.sys.popped }
  /-- the pointer is the expected one (346): the index is that of the expected pointer, which is the present one -/
  | done {z : Z} : z.busy = true → z.ptr = (z.sys.index, z.sys.last) →
      Step c z { z with sys := { z.sys with index := z.ptr.1, last := z.sys.stage, committed := z.sys.pushed.length }, busy := false }
  /-- it is not (346): the expected pointer becomes the present one -/
  | fail {z : Z} : z.busy = true → z.ptr ≠ (z.sys.index, z.sys.last) → Step c z { z with ptr := (z.sys.index, z.sys.last), fails := z.fails + 1 }
  /-- the weak exchange fails although it is -/
  | spurious {z : Z} : z.busy = true → z.ptr = (z.sys.index, z.sys.last) → Step c z { z with fails := z.fails + 1, spurious := z.spurious + 1 }

/-- The states reachable with `n` consumers. -/
inductive Reach (c : Cfg) (n : Nat) : Z → Prop
  | init : Reach c n (init c n)
  | step {z z' : Z} : Reach c n z → Step c z z' → Reach c n z'

end Verif.PoolCommit
