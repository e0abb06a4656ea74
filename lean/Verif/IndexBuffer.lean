import Verif.IDGen
/-!
# Model of the concurrent index buffer (`ConcurrentIndexBuffer.c`)

The index buffer is an ID generator (`Verif/IDGen.lean`) and a concurrent buffer without destructor, of which only the atomic exchange matters (`ConcurrentBuffer.c` 80-90).
The memory of a thread is its state in the generator: `held` are the indexes it acquired, for writing or reading, and has not staged or discarded.

* `WriteAcquire` (72-77) calls the generator until it succeeds.  In the model a thread whose try failed may do something else before it tries again: that gives more interleavings, not fewer.
* `Discard` (102-107) is the generator's recycle.
* `Stage` (93-100) is the exchange followed by the generator's recycle of the previous index.
-/
namespace Verif.IndexBuffer
open Verif

/-- `staged` is the pointer-sized word in the buffer: 0, or the staged index plus one. -/
structure Sys where
  gen : IDGen.Sys
  staged : Nat

/-- `CCConcurrentIndexBufferCreate` (44-62). -/
def init (c : IDGen.Cfg) (n : Nat) : Sys := ⟨IDGen.init c n, 0⟩

/-- One step of a thread.  A thread stages or discards only indexes it has. -/
inductive Step (c : IDGen.Cfg) : Sys → Sys → Prop
  /-- `WriteAcquire`, `Discard`, and the recycle inside `Stage`: a step of the generator -/
  | gen {y : Sys} {g : IDGen.Sys} : IDGen.Step c y.gen g → Step c y { y with gen := g }
  /-- `Stage`: the exchange (97) when nothing was staged -/
  | stage {y : Sys} {i id : Nat} {h : List Nat} : y.gen.thrs[i]? = some ⟨.idle, h⟩ → id ∈ h → y.staged = 0 →
      Step c y { gen := { y.gen with thrs := y.gen.thrs.set i ⟨.idle, h.erase id⟩ }, staged := id + 1 }
  /-- `Stage`: the exchange (97) when an index was staged, which is then recycled (99), up to the assertion at ConsecutiveIDGenerator.c:156 -/
  | restage {y : Sys} {i id : Nat} {h : List Nat} : y.gen.thrs[i]? = some ⟨.idle, h⟩ → id ∈ h → y.staged ≠ 0 →
      Step c y { gen := { y.gen with thrs := y.gen.thrs.set i ⟨if y.staged - 1 < c.size then .check (y.staged - 1) else .abort, h.erase id⟩ }, staged := id + 1 }
  /-- `ReadAcquire` (79-91) with a staged index -/
  | read {y : Sys} {i : Nat} {h : List Nat} : y.gen.thrs[i]? = some ⟨.idle, h⟩ → y.staged ≠ 0 →
      Step c y { gen := { y.gen with thrs := y.gen.thrs.set i ⟨.idle, (y.staged - 1) :: h⟩ }, staged := 0 }
  /-- `ReadAcquire` (79-91) with nothing staged -/
  | readNone {y : Sys} {i : Nat} {h : List Nat} : y.gen.thrs[i]? = some ⟨.idle, h⟩ → y.staged = 0 → Step c y y

/-- The states reachable by `n` threads. -/
inductive Reach (c : IDGen.Cfg) (n : Nat) : Sys → Prop
  | init : Reach c n (init c n)
  | step {y y' : Sys} : Reach c n y → Step c y y' → Reach c n y'

end Verif.IndexBuffer
