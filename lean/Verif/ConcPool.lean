/-!
# Model of the concurrent pool (`ConcurrentPoolTemplate.h`)

One producer that stages and commits, any number of consumers; every atomic operation is one step, the writing of an item two steps (it is `none` in between); sequentially consistent.
`w` is the number of values of `CCConcurrentPoolIndex`: `2^32`, or `2^16` with 32 bit pointers (36-40); indexes wrap at `w`.  `max` is the argument `Max` and the size of the array.

* With and without mixed size atomics: the commit either stores `last` (344) or exchanges the whole pointer until it succeeds, which keeps the index and sets `last` (346); failed attempts change nothing in the pool.
* `CCConcurrentPoolPush` (311-318) is a begin, pushes and a commit.
* The documented obligation of the user (30-31, 217, 230): nothing is pushed over an item that is not popped yet, or popped and still being looked at.
-/
namespace Verif.ConcPool

/-- `w` index values, `max` slots. -/
structure Cfg where
  w : Nat
  max : Nat

/-- A consumer: outside; in `Pop` after the load (280); or looking at the item it popped (`k`, not part of the program, is which one). -/
inductive PC
  | idle
  | loaded (index last : Nat)
  | has (slot k : Nat)
deriving DecidableEq, Repr

/-- What is recorded, not part of the program. -/
inductive Ev
  /-- a consumer popped, after `k` pops before -/
  | pop (k : Nat)
  /-- a pop found the pool empty when `left` items were committed and not popped -/
  | empty (left : Nat)
  /-- the consumer of pop number `k` looked at its item and saw `x` -/
  | look (k : Nat) (x : Option Nat)
deriving DecidableEq, Repr

/-- The pool (43-46, 63-76), the stage and the threads.  Not part of the program: `pushed`, the items pushed so far, whether committed or only staged; `committed` and `popped`, how many of them are; `peak`, the largest number of items there were (including one being written); `log`. -/
structure Sys where
  index : Nat
  last : Nat
  items : List (Option Nat)
  stage : Nat
  writing : Option Nat
  thrs : List PC
  pushed : List Nat
  committed : Nat
  popped : Nat
  peak : Nat
  log : List Ev

/-- `CC_CONCURRENT_POOL_INIT` (61), and `n` consumers. -/
def init (c : Cfg) (n : Nat) : Sys := ⟨0, 0, List.replicate c.max none, 0, none, List.replicate n .idle, [], 0, 0, 0, []⟩

/-- One step of the producer or of consumer `i`. -/
inductive Step (c : Cfg) : Sys → Sys → Prop
  /-- `StageBegin` (320-329); items that were staged only are abandoned -/
  | begin {y : Sys} : y.writing = none → Step c y { y with stage := y.last, pushed := y.pushed.take y.committed }
  /-- `StagePush` (331-338): the item is being written; whatever was in that slot has been popped and is not looked at any more -/
  | push {y : Sys} (v : Nat) : y.writing = none → (∀ k, k + c.max ≤ y.pushed.length → k < y.popped ∧ ∀ s, PC.has s k ∉ y.thrs) →
      Step c y { y with items := y.items.set (y.stage % c.max) none, writing := some v, peak := Nat.max y.peak (y.pushed.length + 1) }
  /-- `StagePush` (331-338): the item is written -/
  | pushed {y : Sys} {v : Nat} : y.writing = some v →
      Step c y { y with items := y.items.set (y.stage % c.max) (some v), stage := (y.stage + 1) % c.w, writing := none, pushed := y.pushed ++ [v] }
  /-- `StageCommit` (340-347) -/
  | commit {y : Sys} : y.writing = none → Step c y { y with last := y.stage, committed := y.pushed.length }
  /-- `Pop`: the load (280) finds an item (282) -/
  | load {y : Sys} {i : Nat} : y.thrs[i]? = some .idle → y.index ≠ y.last → Step c y { y with thrs := y.thrs.set i (.loaded y.index y.last) }
  /-- `Pop`: the load (280) finds none (282, 292) -/
  | empty {y : Sys} {i : Nat} : y.thrs[i]? = some .idle → y.index = y.last → Step c y { y with log := y.log ++ [.empty (y.committed - y.popped)] }
  /-- `Pop`: the compare and exchange succeeds (284-288) -/
  | pop {y : Sys} {i a b : Nat} : y.thrs[i]? = some (.loaded a b) → y.index = a → y.last = b →
      Step c y { y with index := (a + 1) % c.w, thrs := y.thrs.set i (.has (a % c.max) y.popped), popped := y.popped + 1, log := y.log ++ [.pop y.popped] }
  /-- `Pop`: the compare and exchange fails, spuriously perhaps in the weak variant (284, 292) -/
  | fail {y : Sys} {i a b : Nat} : y.thrs[i]? = some (.loaded a b) → Step c y { y with thrs := y.thrs.set i .idle }
  /-- a consumer looks at the item it popped -/
  | look {y : Sys} {i s k : Nat} : y.thrs[i]? = some (.has s k) → Step c y { y with log := y.log ++ [.look k (y.items[s]?).join] }
  /-- a consumer is finished with its item -/
  | done {y : Sys} {i s k : Nat} : y.thrs[i]? = some (.has s k) → Step c y { y with thrs := y.thrs.set i .idle }

/-- The states reachable with `n` consumers. -/
inductive Reach (c : Cfg) (n : Nat) : Sys → Prop
  | init : Reach c n (init c n)
  | step {y y' : Sys} : Reach c n y → Step c y y' → Reach c n y'

end Verif.ConcPool
