/-!
# Model of the consecutive ID generator (`ConsecutiveIDGenerator.c`) behind `ConcurrentIDGenerator.c`

Any number of threads; every atomic operation is one step and the steps interleave in any order (sequential
consistency; the weak orders and fences of the code are not modelled).  The 64-bit (or 32-bit) sample of neighbouring bytes is one
atomic load, as the code assumes (lines 66-72).

`CCConcurrentIDGeneratorTryAssign` and `CCConcurrentIDGeneratorRecycle` only forward (ConcurrentIDGenerator.c:88-100);
`CCConcurrentIDGeneratorAssign` (77-86) calls the former until it succeeds.
-/
namespace Verif.IDGen

/-- A generator: `size` IDs; `w` bytes per sample (8 or 4), or, with `strict`, no samples (`CC_CONSECUTIVE_ID_GENERATOR_STRICT_COMPLIANCE`). -/
structure Cfg where
  size : Nat
  w : Nat
  strict : Bool

/-- `PaddedPoolCount` (95-99). -/
def Cfg.padded (c : Cfg) : Nat := if c.strict then c.size else ((c.size - 1) / c.w + 1) * c.w

/-- Where a thread is. -/
inductive PC
  | idle
  /-- head of the loop at `Loop = i` (133), about to load the sample (135) -/
  | sample (i : Nat)
  /-- head of the loop at `Loop2 = i` (138; 123 in the strict build), about to exchange byte `i` (140; 125) -/
  | try (i stop : Nat)
  /-- in `Recycle`, before the assertion's load (162; 159) -/
  | check (id : Nat)
  /-- in `Recycle`, before the store (163; 160) -/
  | store (id : Nat)
  /-- an assertion failed -/
  | abort
deriving DecidableEq, Repr

/-- A thread.  Not part of the program: `held`, the IDs it has. -/
structure Thr where
  pc : PC
  held : List Nat
deriving DecidableEq, Repr

/-- What happened: an ID was handed out, a try failed, an ID was recycled.  `idle` are the IDs that nobody had at
any moment since the call began. -/
inductive Ev
  | take (id : Nat) (idle : List Nat)
  | fail (idle : List Nat)
  | give (id : Nat)
deriving DecidableEq, Repr

/-- The pool and the threads.  Not part of the program: `unused i`, the IDs nobody had since thread `i` began its call, and `log`. -/
structure Sys where
  pool : List Nat
  thrs : List Thr
  unused : Nat → List Nat
  log : List Ev

/-- `CCConsecutiveIDGeneratorConstructor` (92-115); `n` threads.  Bytes that pad the last sample are taken for good (110). -/
def init (c : Cfg) (n : Nat) : Sys :=
  { pool := List.replicate c.size 0 ++ List.replicate (c.padded - c.size) 255,
    thrs := List.replicate n ⟨.idle, []⟩, unused := fun _ => [], log := [] }

/-- The IDs nobody has. -/
def Sys.free (c : Cfg) (y : Sys) : List Nat := (List.range c.size).filter fun id => y.pool[id]? == some 0

/-- `Sample == CC_CONCURRENT_ID_POOL_SAMPLE_MAX`: all bytes of the sample are 255. -/
def sampleFull (c : Cfg) (pool : List Nat) (i : Nat) : Bool := ((pool.drop i).take c.w).all fun b => b == 255

/-- One step of a thread.  A thread recycles only an ID it has. -/
inductive Step (c : Cfg) : Sys → Sys → Prop
  /-- `TryAssign` is called (120) -/
  | call {y : Sys} {i : Nat} {h : List Nat} : y.thrs[i]? = some ⟨.idle, h⟩ →
      Step c y { y with thrs := y.thrs.set i ⟨if c.strict then .try 0 c.size else .sample 0, h⟩,
                        unused := fun j => if j = i then y.free c else y.unused j }
  /-- the sample shows that all its IDs are taken (135-136) -/
  | full {y : Sys} {i k : Nat} {h : List Nat} : y.thrs[i]? = some ⟨.sample k, h⟩ → k < c.size → sampleFull c y.pool k = true →
      Step c y { y with thrs := y.thrs.set i ⟨.sample (k + c.w), h⟩ }
  /-- the sample shows an ID that is not taken (135-138) -/
  | some {y : Sys} {i k : Nat} {h : List Nat} : y.thrs[i]? = some ⟨.sample k, h⟩ → k < c.size → sampleFull c y.pool k = false →
      Step c y { y with thrs := y.thrs.set i ⟨.try k (k + c.w), h⟩ }
  /-- no sample is left, `FALSE` is returned (133, 151) -/
  | fail {y : Sys} {i k : Nat} {h : List Nat} : y.thrs[i]? = some ⟨.sample k, h⟩ → ¬ k < c.size →
      Step c y { y with thrs := y.thrs.set i ⟨.idle, h⟩, log := y.log ++ [.fail (y.unused i)] }
  /-- the exchange finds a taken byte (140) -/
  | taken {y : Sys} {i k stop b : Nat} {h : List Nat} : y.thrs[i]? = some ⟨.try k stop, h⟩ → k < stop → y.pool[k]? = some b → b ≠ 0 →
      Step c y { y with pool := y.pool.set k 255, thrs := y.thrs.set i ⟨.try (k + 1) stop, h⟩ }
  /-- the exchange finds a free byte, the ID is returned (140-144) -/
  | assign {y : Sys} {i k stop : Nat} {h : List Nat} : y.thrs[i]? = some ⟨.try k stop, h⟩ → k < stop → y.pool[k]? = some 0 →
      Step c y { y with pool := y.pool.set k 255, thrs := y.thrs.set i ⟨.idle, k :: h⟩,
                        unused := fun j => (y.unused j).filter (· ≠ k), log := y.log ++ [.take k (y.unused i)] }
  /-- the bytes of the sample are exhausted (138, 133; 123, 131) -/
  | next {y : Sys} {i k stop : Nat} {h : List Nat} : y.thrs[i]? = some ⟨.try k stop, h⟩ → ¬ k < stop →
      Step c y { y with thrs := y.thrs.set i ⟨.sample stop, h⟩ }
  /-- a thread hands an ID to another thread (or to itself) -/
  | pass {y : Sys} {i j id : Nat} {h h' : List Nat} {p : PC} : y.thrs[i]? = some ⟨.idle, h⟩ → id ∈ h →
      (y.thrs.set i ⟨.idle, h.erase id⟩)[j]? = some ⟨p, h'⟩ →
      Step c y { y with thrs := (y.thrs.set i ⟨.idle, h.erase id⟩).set j ⟨p, id :: h'⟩ }
  /-- `Recycle` is called; the first assertion (154-156) -/
  | recycle {y : Sys} {i id : Nat} {h : List Nat} : y.thrs[i]? = some ⟨.idle, h⟩ → id ∈ h →
      Step c y { y with thrs := y.thrs.set i ⟨if id < c.size then .check id else .abort, h.erase id⟩ }
  /-- the second assertion (162) -/
  | check {y : Sys} {i id b : Nat} {h : List Nat} : y.thrs[i]? = some ⟨.check id, h⟩ → y.pool[id]? = some b →
      Step c y { y with thrs := y.thrs.set i ⟨if b ≠ 0 then .store id else .abort, h⟩ }
  /-- the store (163) -/
  | store {y : Sys} {i id : Nat} {h : List Nat} : y.thrs[i]? = some ⟨.store id, h⟩ →
      Step c y { y with pool := y.pool.set id 0, thrs := y.thrs.set i ⟨.idle, h⟩, log := y.log ++ [.give id] }

/-- The states reachable by `n` threads. -/
inductive Reach (c : Cfg) (n : Nat) : Sys → Prop
  | init : Reach c n (init c n)
  | step {y y' : Sys} : Reach c n y → Step c y y' → Reach c n y'

end Verif.IDGen
