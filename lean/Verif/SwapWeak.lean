/-!
# Model of the concurrent swap buffer with its memory orders (`ConcurrentSwapBufferTemplate.h`)

`SwapBuffer.lean` has every access to `index` see the last store.  Here the stores to `index` are kept in their modification order (C11 5.1.2.4): a load sees any store that is not older
than the last one its thread has seen; a store takes any place after that one, but not between an exchange and the store it read; an exchange reads such a store and takes the place after
it.  What happens before what, and data races on the buffers, are followed as in `CircWeak.lean`: `wSeen` is the last step of the reader known to happen before what the writer does next,
`rSeen` the reverse, and an exchange passes on what the store it read made known (a release sequence).

The memory orders are parameters (`Orders`), `code` are those of the file.  `memory_order_consume` (97) orders what depends on the value, which the address of the buffer does: it is
an acquire here.  `inOrder` is false for a machine that may carry out a load after a store that follows it in the program, unless that is a release.

There are one writer and one reader.  The value of `index` is a flag and the number of a buffer (`SwapBuffer.lean` has the bits).
-/
namespace Verif.SwapWeak

/-- How each access is ordered: are the exchange (80) and the store (85) of `Apply` releases; is its load (76) an acquire; is its exchange (80) one; is the exchange of `Read` (97) an acquire; is it
a release; does the machine keep loads before the stores that follow them. -/
structure Orders where
  applyRel : Bool
  loadAcq : Bool
  swapAcq : Bool
  readAcq : Bool
  readRel : Bool
  inOrder : Bool
deriving DecidableEq, Repr

/-- The orders of the file (76, 80, 85, 95, 97). -/
def code (inOrder : Bool) : Orders := ⟨true, false, false, true, false, inOrder⟩

/-- A store to `index`: its flag and buffer, whether it is by an exchange that read the store before it, and the steps of the writer and of the reader it makes known.  Not part of the
program: the content of the buffer. -/
structure Msg where
  flag : Bool
  buf : Nat
  rmw : Bool
  wStamp : Nat
  rStamp : Nat
  content : Option Nat
deriving DecidableEq, Repr

/-- A buffer: its content, `none` while the writer is in the middle of filling it.  Not part of the program: the steps at which it was last written and read. -/
structure Slot where
  val : Option Nat
  wStamp : Nat
  rStamp : Nat

/-- A look at the buffer the reader has come to in the program and not yet carried out: the buffer, what the reader knew, the step it was at, and the content it is to see. -/
structure Load where
  buf : Nat
  seen : Nat
  step : Nat
  expect : Option Nat
deriving DecidableEq, Repr

/-- The writer: outside, filling the buffer it got from `GetFuture`, or in `Apply` after the load (76). -/
inductive W
  | idle
  | filling
  | loaded (flag : Bool) (buf : Nat)
deriving DecidableEq, Repr

/-- The reader: outside (it may be looking at the buffer it got last), or in `Read` after a load that saw the flag (95). -/
inductive R
  | idle
  | loaded
deriving DecidableEq, Repr

/-- What is recorded, not part of the program. -/
inductive Ev
  /-- a read took a buffer with this content, and this had been applied last -/
  | took (content last : Option Nat)
  /-- the reader looked at its buffer, saw the first and was to see the second -/
  | look (saw expected : Option Nat)
  /-- the exchange of `Read` read a value without the flag, so that `Index` (97) is no buffer -/
  | noFlag
  /-- the reader's look at a buffer races with a write of the writer -/
  | readRace
  /-- the writer's filling of a buffer races with a look of the reader -/
  | writeRace
deriving DecidableEq, Repr

/-- The stores to `index` in modification order, the structure (ConcurrentSwapBuffer.h:33-38), the threads and what they have seen: `wIdx` and `rIdx` are the numbers of the last store seen.
Not part of the program: what the reader is to see, what was applied last, and the log. -/
structure Sys where
  msgs : List Msg
  write : Nat
  read : Nat
  bufs : Nat → Slot
  w : W
  r : R
  wIdx : Nat
  rIdx : Nat
  wStep : Nat
  rStep : Nat
  wSeen : Nat
  rSeen : Nat
  pending : List Load
  expected : Option Nat
  last : Option Nat
  log : List Ev

/-- `CC_CONCURRENT_SWAP_BUFFER_INIT` (ConcurrentSwapBufferTemplate.h:37), every buffer containing `v`. -/
def init (v : Nat) : Sys :=
  { msgs := [⟨false, 0, false, 0, 0, some v⟩], write := 1, read := 2, bufs := fun _ => ⟨some v, 0, 0⟩, w := .idle, r := .idle, wIdx := 0, rIdx := 0, wStep := 1, rStep := 1,
    wSeen := 0, rSeen := 0, pending := [], expected := some v, last := some v, log := [] }

/-- Replaces one buffer. -/
def put (f : Nat → Slot) (i : Nat) (s : Slot) : Nat → Slot := fun j => if j = i then s else f j

/-- A store may take place `p` in the modification order: the store that is there now is not an exchange that read the one before. -/
def free (l : List Msg) (p : Nat) : Prop := p ≤ l.length ∧ ∀ x, l[p]? = some x → x.rmw = false

/-- Where store number `i` is when another has taken place `p`. -/
def shift (p i : Nat) : Nat := if p ≤ i then i + 1 else i

/-- One step of the writer or the reader. -/
inductive Step (o : Orders) : Sys → Sys → Prop
  /-- the writer starts to fill the buffer it gets from `GetFuture` (69-72) -/
  | fill {y : Sys} : y.w = .idle →
      Step o y { y with
        bufs := put y.bufs y.write { y.bufs y.write with val := none, wStamp := y.wStep }
        log := if y.wSeen < (y.bufs y.write).rStamp then y.log ++ [.writeRace] else y.log
        wStep := y.wStep + 1
        w := .filling }
  /-- the writer has filled it with `v` -/
  | filled {y : Sys} (v : Nat) : y.w = .filling → Step o y { y with bufs := put y.bufs y.write { y.bufs y.write with val := some v }, w := .idle }
  /-- `Apply`: the load (76) -/
  | load {y : Sys} {i : Nat} {x : Msg} : y.w = .idle → y.wIdx ≤ i → y.msgs[i]? = some x →
      Step o y { y with wIdx := i, w := .loaded x.flag x.buf, wSeen := if o.loadAcq then max y.wSeen x.rStamp else y.wSeen }
  /-- `Apply`: the flag was set, the exchange (80) and the new write index (88) -/
  | swap {y : Sys} {b i : Nat} {x : Msg} : y.w = .loaded true b → y.wIdx ≤ i → y.msgs[i]? = some x → free y.msgs (i + 1) →
      Step o y { y with
        msgs := y.msgs.insertIdx (i + 1) ⟨true, y.write, true, if o.applyRel then y.wStep else x.wStamp, if o.applyRel then max x.rStamp y.wSeen else x.rStamp, (y.bufs y.write).val⟩
        write := x.buf
        wIdx := i + 1
        rIdx := shift (i + 1) y.rIdx
        wSeen := if o.swapAcq then max y.wSeen x.rStamp else y.wSeen
        wStep := y.wStep + 1
        last := (y.bufs y.write).val
        w := .idle }
  /-- `Apply`: the flag was not set, the store (85) and the new write index (88) -/
  | store {y : Sys} {b p : Nat} : y.w = .loaded false b → y.wIdx < p → free y.msgs p →
      Step o y { y with
        msgs := y.msgs.insertIdx p ⟨true, y.write, false, if o.applyRel then y.wStep else 0, if o.applyRel then y.wSeen else 0, (y.bufs y.write).val⟩
        write := b
        wIdx := p
        rIdx := shift p y.rIdx
        wStep := y.wStep + 1
        last := (y.bufs y.write).val
        w := .idle }
  /-- `Read`: the load (95) does not see the flag; the buffer read before is returned (102) -/
  | readSame {y : Sys} {i : Nat} {x : Msg} : y.r = .idle → y.rIdx ≤ i → y.msgs[i]? = some x → x.flag = false → Step o y { y with rIdx := i }
  /-- `Read`: the load (95) sees the flag -/
  | readFlag {y : Sys} {i : Nat} {x : Msg} : y.r = .idle → y.rIdx ≤ i → y.msgs[i]? = some x → x.flag = true → Step o y { y with rIdx := i, r := .loaded }
  /-- `Read`: the exchange (97); a release waits for the looks before it, another only if the machine does -/
  | readSwap {y : Sys} {i : Nat} {x : Msg} : y.r = .loaded → y.rIdx ≤ i → y.msgs[i]? = some x → free y.msgs (i + 1) → (o.readRel || o.inOrder) = false ∨ y.pending = [] →
      Step o y { y with
        msgs := y.msgs.insertIdx (i + 1) ⟨false, y.read, true, x.wStamp, if o.readRel then y.rStep else x.rStamp, none⟩
        read := x.buf
        rIdx := i + 1
        wIdx := shift (i + 1) y.wIdx
        rSeen := if o.readAcq then max y.rSeen x.wStamp else y.rSeen
        rStep := y.rStep + 1
        expected := x.content
        log := y.log ++ [if x.flag then .took x.content y.last else .noFlag]
        r := .idle }
  /-- the reader comes to look at the buffer it got last -/
  | look {y : Sys} : y.r = .idle → Step o y { y with pending := y.pending ++ [⟨y.read, y.rSeen, y.rStep, y.expected⟩], rStep := y.rStep + 1 }
  /-- one of the looks is carried out -/
  | see {y : Sys} {l : Load} : l ∈ y.pending →
      Step o y { y with
        pending := y.pending.erase l
        bufs := put y.bufs l.buf { y.bufs l.buf with rStamp := max (y.bufs l.buf).rStamp l.step }
        log := (if l.seen < (y.bufs l.buf).wStamp then y.log ++ [.readRace] else y.log) ++ [.look (y.bufs l.buf).val l.expect] }

/-- The reachable states. -/
inductive Reach (o : Orders) (v : Nat) : Sys → Prop
  | init : Reach o v (init v)
  | step {y y' : Sys} : Reach o v y → Step o y y' → Reach o v y'

end Verif.SwapWeak
