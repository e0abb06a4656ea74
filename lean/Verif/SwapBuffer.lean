/-!
# Model of the concurrent swap buffer (`ConcurrentSwapBufferTemplate.h`, `ConcurrentSwapBuffer.h`)

One writer and one reader; every access to the shared `index` is one step; sequentially consistent.  The content of a buffer is `some v`, or `none` while the writer is in the middle of writing it.
`size_t` is 64 bits.
-/
namespace Verif.SwapBuffer

/-- `CC_CONCURRENT_SWAP_BUFFER_MODIFIED_FLAG` (ConcurrentSwapBufferTemplate.h:35). -/
def flag : BitVec 64 := 0x80

/-- The writer: outside, filling the buffer it got from `GetFuture`, or in `Apply` after the load (75). -/
inductive WPC
  | idle
  | filling
  | loaded (next : BitVec 64)
deriving DecidableEq, Repr

/-- The reader: outside (it may be looking at the buffer it got last), or in `Read` after a load that saw the flag (94). -/
inductive RPC
  | idle
  | loaded
deriving DecidableEq, Repr

/-- The structure (ConcurrentSwapBuffer.h:33-38) and the two threads.  Not part of the program: `applied`, the content of each buffer applied so far, in order, starting with the initial content;
`reads`, for each read so far what the returned buffer contained and what had been applied last at that moment. -/
structure Sys where
  index : BitVec 64
  write : BitVec 64
  read : BitVec 64
  bufs : List (Option Nat)
  w : WPC
  r : RPC
  applied : List (Option Nat)
  reads : List (Option Nat × Option Nat)

/-- `CC_CONCURRENT_SWAP_BUFFER_INIT` (ConcurrentSwapBufferTemplate.h:37), every buffer containing `v`. -/
def init (v : Nat) : Sys := ⟨0, 1, 2, [some v, some v, some v], .idle, .idle, [some v], []⟩

/-- The content of buffer `i`. -/
def Sys.buf (y : Sys) (i : BitVec 64) : Option Nat := (y.bufs[i.toNat]?).join
/-- What was applied last. -/
def Sys.latest (y : Sys) : Option Nat := (y.applied.getLast?).join

/-- One step of the writer or the reader. -/
inductive Step : Sys → Sys → Prop
  /-- the writer starts to fill the buffer it gets from `GetFuture` (69-72) -/
  | fill {y : Sys} : y.w = .idle → Step y { y with bufs := y.bufs.set y.write.toNat none, w := .filling }
  /-- the writer has filled it with `v` -/
  | filled {y : Sys} (v : Nat) : y.w = .filling → Step y { y with bufs := y.bufs.set y.write.toNat (some v), w := .idle }
  /-- `Apply`: the load (76) -/
  | load {y : Sys} : y.w = .idle → Step y { y with w := .loaded y.index }
  /-- `Apply`: the flag was set, the exchange (80) and the new write index (88) -/
  | swap {y : Sys} {n : BitVec 64} : y.w = .loaded n → n &&& flag ≠ 0 →
      Step y { y with index := y.write ||| flag, write := y.index &&& ~~~flag, w := .idle, applied := y.applied ++ [y.buf y.write] }
  /-- `Apply`: the flag was not set, the store (85) and the new write index (88) -/
  | store {y : Sys} {n : BitVec 64} : y.w = .loaded n → n &&& flag = 0 →
      Step y { y with index := y.write ||| flag, write := n &&& ~~~flag, w := .idle, applied := y.applied ++ [y.buf y.write] }
  /-- `Read`: the load (95) does not see the flag; the buffer read before is returned (102) -/
  | readSame {y : Sys} : y.r = .idle → y.index &&& flag = 0 → Step y { y with reads := y.reads ++ [(y.buf y.read, y.latest)] }
  /-- `Read`: the load (95) sees the flag -/
  | readLoad {y : Sys} : y.r = .idle → y.index &&& flag ≠ 0 → Step y { y with r := .loaded }
  /-- `Read`: the exchange and the new read index (97-99); that buffer is returned (102) -/
  | readSwap {y : Sys} : y.r = .loaded →
      Step y { y with index := y.read, read := y.index ^^^ flag, r := .idle, reads := y.reads ++ [(y.buf (y.index ^^^ flag), y.latest)] }

/-- The reachable states, the buffers containing `v` initially. -/
inductive Reach (v : Nat) : Sys → Prop
  | init : Reach v (init v)
  | step {y y' : Sys} : Reach v y → Step y y' → Reach v y'

end Verif.SwapBuffer
