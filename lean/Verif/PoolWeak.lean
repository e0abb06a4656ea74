import Verif.ConcPool
/-!
# Models of the concurrent buffer and of the concurrent pool with their memory orders (`ConcurrentBuffer.c`, `ConcurrentPoolTemplate.h`)

Followed is what happens before what: each store carries what it makes known to whoever reads it with an acquire; only a release adds what its thread knows; an exchange hands on what the last store carried.
-/
namespace Verif.PoolWeak

/-- A function with one value replaced. -/
def upd {α : Type} (f : Nat → α) (i : Nat) (a : α) : Nat → α := fun j => if j = i then a else f j

namespace Buffer

/-- Is the exchange a release, an acquire? -/
structure Orders where
  rel : Bool
  acq : Bool
deriving DecidableEq, Repr

/-- The orders of the file (73, 84). -/
def code : Orders := ⟨true, true⟩

/-- The data in the buffer, if there are any, as what the thread that put them there knew; what the last store to `data` carries; what each thread knows; the number of things done so far outside the buffer.  Not part of the program: for each time data were taken out, by a write that
destroys them (73-77), a swap (84) or a read (89), what was known to the thread that put them there, and what is known to the thread that takes them. -/
structure W where
  data : Option (List Nat)
  carries : List Nat
  knows : Nat → List Nat
  events : Nat
  taken : List (List Nat × List Nat)

/-- `CCConcurrentBufferCreate` (45-60), before the threads begin. -/
def init : W := ⟨none, [], fun _ => [], 0, []⟩

/-- What thread `i` knows after an exchange. -/
def after (o : Orders) (z : W) (i : Nat) : List Nat := if o.acq then z.knows i ++ z.carries else z.knows i

/-- One step of thread `i`. -/
inductive Step (o : Orders) : W → W → Prop
  /-- it does something, for instance it fills the data it will put into the buffer -/
  | work {z : W} (i : Nat) : Step o z { z with knows := upd z.knows i (z.knows i ++ [z.events]), events := z.events + 1 }
  /-- the exchange of `CCConcurrentBufferWriteData` (73) and `CCConcurrentBufferWriteDataSwap` (84): of data, or of `NULL` (`CCConcurrentBufferReadData`, 89) -/
  | exchange {z : W} (i : Nat) (null : Bool) : Step o z { z with
      data := if null then none else some (z.knows i)
      carries := if o.rel then z.carries ++ z.knows i else z.carries
      knows := upd z.knows i (after o z i)
      taken := z.taken ++ (z.data.toList.map fun a => (a, after o z i)) }

/-- The states reachable. -/
inductive Reach (o : Orders) : W → Prop
  | init : Reach o init
  | step {z z' : W} : Reach o z → Step o z z' → Reach o z'

end Buffer

namespace Pool
open ConcPool

/-- Is the commit (344, 346) a release; is the exchange of a pop (284, 301) an acquire?  -/
structure Orders where
  rel : Bool
  acq : Bool
deriving DecidableEq, Repr

/-- The orders of the file, with `memory_order_consume` (284, 301) taken as an acquire, which is what compilers do. -/
def code : Orders := ⟨true, true⟩

/-- The orders of the file by the letter: the address of the item (286, 303) is computed from the value the relaxed load returned (280, 297), not from the one the exchange read, so that no dependency is carried from the exchange and `memory_order_consume` orders nothing. -/
def letter : Orders := ⟨true, false⟩

/-- The pool; what the last store to the pointer carries; what the producer and each consumer knows; the number of items written so far.  Not part of the program: for each item pushed, the number of the writing of it; for each pop, the writing of the item popped and what the consumer knows. -/
structure W where
  sys : Sys
  carries : List Nat
  prod : List Nat
  knows : Nat → List Nat
  events : Nat
  wrote : List Nat
  pops : List (Option Nat × List Nat)

/-- `CC_CONCURRENT_POOL_INIT` (61), and `n` consumers. -/
def init (c : Cfg) (n : Nat) : W := ⟨ConcPool.init c n, [], [], fun _ => [], 0, [], []⟩

/-- One step, as in `ConcPool.lean` (in which loads see the last store; the exchange of a pop fails if the load before it did not). -/
inductive Step (o : Orders) (c : Cfg) : W → W → Prop
  /-- a step that is none of those below -/
  | other {z : W} {y : Sys} : ConcPool.Step c z.sys y → y.popped = z.sys.popped → y.pushed = z.sys.pushed → y.thrs ≠ z.sys.thrs ∨ y.log ≠ z.sys.log ∨ y.writing ≠ z.sys.writing → Step o c z { z with sys := y }
  /-- `StageBegin` (320-329) -/
  | begin {z : W} : z.sys.writing = none → Step o c z { z with sys := { z.sys with stage := z.sys.last, pushed := z.sys.pushed.take z.sys.committed }, wrote := z.wrote.take z.sys.committed }
  /-- `StagePush` (331-338): the item is written -/
  | pushed {z : W} {v : Nat} : z.sys.writing = some v →
      Step o c z { z with sys := { z.sys with items := z.sys.items.set (z.sys.stage % c.max) (some v), stage := (z.sys.stage + 1) % c.w, writing := none, pushed := z.sys.pushed ++ [v] }
                          prod := z.prod ++ [z.events], wrote := z.wrote ++ [z.events], events := z.events + 1 }
  /-- `StageCommit` (340-347): a store with mixed size atomics, otherwise an exchange (`mixed`) -/
  | commit {z : W} (mixed : Bool) : z.sys.writing = none →
      Step o c z { z with sys := { z.sys with last := z.sys.stage, committed := z.sys.pushed.length }, carries := (if mixed then [] else z.carries) ++ (if o.rel then z.prod else []) }
  /-- `Pop`: the exchange succeeds (284, 301) -/
  | pop {z : W} {i a b : Nat} : z.sys.thrs[i]? = some (.loaded a b) → z.sys.index = a → z.sys.last = b →
      Step o c z { z with sys := { z.sys with index := (a + 1) % c.w, thrs := z.sys.thrs.set i (.has (a % c.max) z.sys.popped), popped := z.sys.popped + 1, log := z.sys.log ++ [.pop z.sys.popped] }
                          knows := upd z.knows i (if o.acq then z.knows i ++ z.carries else z.knows i)
                          pops := z.pops ++ [(z.wrote[z.sys.popped]?, if o.acq then z.knows i ++ z.carries else z.knows i)] }

/-- The states reachable with `n` consumers. -/
inductive Reach (o : Orders) (c : Cfg) (n : Nat) : W → Prop
  | init : Reach o c n (init c n)
  | step {z z' : W} : Reach o c n z → Step o c z z' → Reach o c n z'

end Pool
end Verif.PoolWeak
