/-!
# Model of data containers (`Data.c`, `DataBuffer.c`, `DataContainer.c`)

Memory is a list of cells; `none` is an uninitialised byte. A failed assertion, a division by zero or an
access outside a block is `none` of the result. Sizes and offsets are natural numbers. A mapped region is
modelled as a private copy that is written back when it is unmapped with write access; this is the same as direct access
because the functions of `Data.c` touch nothing else between the map and the unmap of one object.
-/
namespace Verif.Data

abbrev Cell := Option UInt8

/-- `memcpy` of `new` to `l + pos`. -/
def overwrite (l : List Cell) (pos : Nat) (new : List Cell) : Option (List Cell) :=
  if pos + new.length ≤ l.length then some (l.take pos ++ new ++ l.drop (pos + new.length)) else none

/-- The `n` cells at `l + pos`. -/
def slice (l : List Cell) (pos n : Nat) : Option (List Cell) :=
  if pos + n ≤ l.length then some ((l.drop pos).take n) else none

/-- `CCDataHintRead` and `CCDataHintWrite` (`DataTypes.h`). -/
structure Access where
  read : Bool
  write : Bool
  deriving DecidableEq, Repr

def Access.r : Access := ⟨true, false⟩
def Access.w : Access := ⟨false, true⟩

/-- `CCBufferMap` with the cells behind its pointer (`Buffer.h`). -/
structure BufMap where
  offset : Nat
  size : Nat
  hint : Access
  mem : List Cell
  deriving DecidableEq, Repr

/-- `SIZE_MAX`. -/
def sizeMax : Nat := 2 ^ 64 - 1

/-- `CCDataInterface` (`DataInterface.h` 186-210): the callbacks used by `Data.c`. The optional
callbacks without a fallback (`sync`, `invalidate`, `purge`, `buffer`, `modifiedBuffer`) are left out. -/
structure Interface (σ : Type) where
  hints : σ → Access
  size : σ → Nat
  map : σ → Nat → Nat → Access → Option BufMap
  unmap : σ → BufMap → Option σ
  preferredMapSize : Option (σ → Nat) := none
  resize : Option (σ → Nat → Option σ) := none
  read : Option (σ → Nat → Nat → List Cell → Option (Nat × List Cell)) := none
  write : Option (σ → Nat → Nat → List Cell → Option (Nat × σ)) := none
  fill : Option (σ → Nat → Nat → UInt8 → Option (Nat × σ)) := none
  copy : Option (σ → Nat → Nat → σ → Nat → Option (Nat × σ)) := none

/-- `CCDataInfo` (`Data.h` 73-81): internal, cached hash, and mutated flag. -/
structure Data (σ : Type) where
  st : σ
  hash : Nat
  mutated : Bool
  deriving Repr

variable {σ τ : Type}

/-- `CCDataCreate` (`Data.c` 40-74). -/
def create (internal : σ) : Data σ := { st := internal, hash := 0, mutated := true }

/-- `CCDataGetPreferredMapSize` (`Data.c` 88-93). -/
def preferred (I : Interface σ) (d : Data σ) : Nat :=
  match I.preferredMapSize with
  | some f => f d.st
  | none => sizeMax

/-- `CCDataSetSize` (`Data.c` 102-107). -/
def setSize (I : Interface σ) (d : Data σ) (n : Nat) : Bool × Data σ :=
  match I.resize with
  | some f =>
    match f d.st n with
    | some s => (true, { d with st := s })
    | none => (false, d)
  | none => (false, d)

/-- `CCDataGetHash` (`Data.c` 109-123), `H` being whichever of the three hash functions is used. -/
def getHash (H : σ → Nat) (d : Data σ) : Nat × Data σ :=
  if d.mutated then (H d.st, { d with hash := H d.st, mutated := false }) else (d.hash, d)

/-- `CCDataSync`, `CCDataInvalidate`, `CCDataModifiedRange` (`Data.c` 125-139, 155-163) on the flag; `s` is the
internal after the callback or after the caller's modification of the buffer. -/
def touch (d : Data σ) (s : σ) : Data σ := { d with st := s, mutated := true }

/-- `CCDataMapBuffer` (`Data.c` 165-173). -/
def mapBuffer (I : Interface σ) (d : Data σ) (off size : Nat) (a : Access) : Option BufMap :=
  if off + size ≤ I.size d.st ∧ (a.read → (I.hints d.st).read) ∧ (a.write → (I.hints d.st).write) then I.map d.st off size a
  else none

/-- `CCDataUnmapBuffer` (`Data.c` 175-181). -/
def unmapBuffer (I : Interface σ) (d : Data σ) (m : BufMap) : Option (Data σ) := do
  let s ← I.unmap d.st m
  some { d with st := s, mutated := m.hint.write }

/-- One step of `CCDataReadBuffer` (`Data.c` 195-197, 203-205): map `n` bytes at `off`, copy them to `buf + pos`, unmap. -/
def readStep (I : Interface σ) (d : Data σ) (off n : Nat) (buf : List Cell) (pos : Nat) : Option (Data σ × List Cell × Nat) := do
  let m ← mapBuffer I d off n .r
  let src ← slice m.mem 0 m.size
  let buf ← overwrite buf pos src
  let d ← unmapBuffer I d m
  some (d, buf, m.size)

/-- Loop and remainder of `CCDataReadBuffer` (`Data.c` 192-209): `left` chunks to go, at chunk `loop`. -/
def readLoop (I : Interface σ) (p off size : Nat) : Nat → Nat → Data σ → List Cell → Nat → Option (Data σ × List Cell × Nat)
  | 0, _, d, buf, read => do
    let (d, buf, n) ← readStep I d (off + read) (size - read) buf read
    some (d, buf, read + n)
  | left + 1, loop, d, buf, read => do
    let (d, buf, n) ← readStep I d (off + loop * p) p buf (loop * p)
    if n ≠ p then some (d, buf, read + n)
    else readLoop I p off size left (loop + 1) d buf (read + n)

/-- `CCDataReadBuffer` (`Data.c` 183-212): result, memory of the caller's buffer, and data object. -/
def readBuffer (I : Interface σ) (d : Data σ) (off size : Nat) (buf : List Cell) : Option (Data σ × List Cell × Nat) :=
  if off + size ≤ I.size d.st ∧ (I.hints d.st).read then
    match I.read with
    | some f => do
      let (n, buf) ← f d.st off size buf
      some (d, buf, n)
    | none =>
      if preferred I d = 0 then none
      else readLoop I (preferred I d) off size (size / preferred I d) 0 d buf 0
  else none

/-- One step of a writer (`Data.c` 227-229, 235-237, 299-301, 307-309): map `n` bytes at `off`, store `src m.size` there, unmap. -/
def writeStep (I : Interface σ) (d : Data σ) (off n : Nat) (src : Nat → Option (List Cell)) : Option (Data σ × Nat) := do
  let m ← mapBuffer I d off n .w
  let new ← src m.size
  let mem ← overwrite m.mem 0 new
  let d ← unmapBuffer I d { m with mem := mem }
  some (d, m.size)

/-- Loop and remainder of `CCDataWriteBuffer` and `CCDataFillBuffer` (`Data.c` 224-241, 296-313); `src pos n` is the
source of `n` bytes for position `pos` of the transfer. The early return skips line 242/314, the other ends set the flag. -/
def writeLoop (I : Interface σ) (src : Nat → Nat → Option (List Cell)) (p off size : Nat) :
    Nat → Nat → Data σ → Nat → Option (Data σ × Nat)
  | 0, _, d, written => do
    let (d, n) ← writeStep I d (off + written) (size - written) (src written)
    some ({ d with mutated := true }, written + n)
  | left + 1, loop, d, written => do
    let (d, n) ← writeStep I d (off + loop * p) p (src (loop * p))
    if n ≠ p then some (d, written + n)
    else writeLoop I src p off size left (loop + 1) d (written + n)

/-- `CCDataWriteBuffer` (`Data.c` 214-245). -/
def writeBuffer (I : Interface σ) (d : Data σ) (off size : Nat) (buf : List Cell) : Option (Data σ × Nat) :=
  if off + size ≤ I.size d.st ∧ (I.hints d.st).write then
    match I.write with
    | some f => do
      let (n, s) ← f d.st off size buf
      some ({ d with st := s, mutated := true }, n)
    | none =>
      if preferred I d = 0 then none
      else writeLoop I (fun pos n => slice buf pos n) (preferred I d) off size (size / preferred I d) 0 d 0
  else none

/-- `CCDataFillBuffer` (`Data.c` 286-317). -/
def fillBuffer (I : Interface σ) (d : Data σ) (off size : Nat) (v : UInt8) : Option (Data σ × Nat) :=
  if off + size ≤ I.size d.st ∧ (I.hints d.st).write then
    match I.fill with
    | some f => do
      let (n, s) ← f d.st off size v
      some ({ d with st := s, mutated := true }, n)
    | none =>
      if preferred I d = 0 then none
      else writeLoop I (fun _ n => some (List.replicate n (some v))) (preferred I d) off size (size / preferred I d) 0 d 0
  else none

/-- One step of `CCDataCopyBuffer` (`Data.c` 262-266, 272-276). -/
def copyStep (I : Interface σ) (J : Interface τ) (s : Data σ) (t : Data τ) (so dst n : Nat) :
    Option (Data σ × Data τ × Nat) := do
  let sm ← mapBuffer I s so n .r
  let (t, k) ← writeStep J t dst sm.size (fun k => slice sm.mem 0 k)
  let s ← unmapBuffer I s sm
  some (s, t, k)

/-- Loop and remainder of `CCDataCopyBuffer` (`Data.c` 259-279). -/
def copyLoop (I : Interface σ) (J : Interface τ) (p so dst size : Nat) :
    Nat → Nat → Data σ → Data τ → Nat → Option (Data σ × Data τ × Nat)
  | 0, _, s, t, copied => do
    let (s, t, n) ← copyStep I J s t (so + copied) (dst + copied) (size - copied)
    some (s, { t with mutated := true }, copied + n)
  | left + 1, loop, s, t, copied => do
    let (s, t, n) ← copyStep I J s t (so + loop * p) (dst + loop * p) p
    if n ≠ p then some (s, t, copied + n)
    else copyLoop I J p so dst size left (loop + 1) s t (copied + n)

/-- `CCDataCopyBuffer` between two different objects with different interfaces, or interfaces without `copy` (`Data.c` 247-284). -/
def copyBuffer (I : Interface σ) (J : Interface τ) (s : Data σ) (so size : Nat) (t : Data τ) (dst : Nat) :
    Option (Data σ × Data τ × Nat) :=
  if so + size ≤ I.size s.st ∧ dst + size ≤ J.size t.st ∧ (I.hints s.st).read ∧ (J.hints t.st).write then
    if preferred I s = 0 then none
    else copyLoop I J (preferred I s) so dst size (size / preferred I s) 0 s t 0
  else none

/-- `CCDataCopyBuffer` through the `copy` callback, between two different objects (`Data.c` 256, 281-283). -/
def copyDirect (I : Interface σ) (s : Data σ) (so size : Nat) (t : Data σ) (dst : Nat) : Option (Data σ × Nat) :=
  if so + size ≤ I.size s.st ∧ dst + size ≤ I.size t.st ∧ (I.hints s.st).read ∧ (I.hints t.st).write then
    match I.copy with
    | some f => do
      let (n, x) ← f s.st so size t.st dst
      some ({ t with st := x, mutated := true }, n)
    | none => none
  else none

/-! ## `DataBuffer.c` -/

/-- `CCDataBufferInternal` (`DataBuffer.c` 32-36). -/
structure Buffer where
  mem : List Cell
  hint : Access
  deriving DecidableEq, Repr

/-- `CCDataBufferInterface` (`DataBuffer.c` 54-71, 131-192). -/
def bufferInterface : Interface Buffer where
  hints b := b.hint
  size b := b.mem.length
  map b off size a := do
    let mem ← slice b.mem off size
    some { offset := off, size := size, hint := a, mem := mem }
  unmap b m :=
    if m.hint.write then do
      let mem ← overwrite b.mem m.offset m.mem
      some { b with mem := mem }
    else some b
  resize := some fun b n => some { b with mem := b.mem.take n ++ List.replicate (n - b.mem.length) none }
  read := some fun b off size buf => do
    let src ← slice b.mem off size
    let buf ← overwrite buf 0 src
    some (size, buf)
  write := some fun b off size buf => do
    let src ← slice buf 0 size
    let mem ← overwrite b.mem off src
    some (size, { b with mem := mem })
  fill := some fun b off size v => do
    let mem ← overwrite b.mem off (List.replicate size (some v))
    some (size, { b with mem := mem })
  copy := some fun s so size t dst => do
    let src ← slice s.mem so size
    let mem ← overwrite t.mem dst src
    some (size, { t with mem := mem })

/-- The same memory behind the required callbacks only, with a preferred map size, as a client may implement `CCDataInterface`. -/
def plainInterface (p : Nat) : Interface Buffer where
  hints := bufferInterface.hints
  size := bufferInterface.size
  map := bufferInterface.map
  unmap := bufferInterface.unmap
  preferredMapSize := some fun _ => p

/-! ## `DataContainer.c` -/

/-- `CCDataContainerInternal` (`DataContainer.c` 32-38): the elements in the order of enumeration. -/
structure Container where
  elementSize : Nat
  elems : List (List Cell)
  hint : Access
  deriving DecidableEq, Repr

/-- Copy of the elements to the staging memory (`DataContainer.c` 130-139). `es` is the element size, `i` the container index. -/
def gather (es aligned count : Nat) : List (List Cell) → (i index : Nat) → List Cell → Option (List Cell)
  | [], _, _, ptr => some ptr
  | e :: rest, i, index, ptr =>
    if i * es ≥ aligned then do
      let ptr ← overwrite ptr (index * es) e
      if (i + 1) * es = count then some ptr else gather es aligned count rest (i + 1) (index + 1) ptr
    else gather es aligned count rest (i + 1) index ptr

/-- Copy of the staging memory to the elements (`DataContainer.c` 158-168). -/
def scatter (es aligned count : Nat) (ptr : List Cell) : List (List Cell) → (i index : Nat) → Option (List (List Cell))
  | [], _, _ => some []
  | e :: rest, i, index =>
    if i * es ≥ aligned then do
      let new ← slice ptr (index * es) es
      if (i + 1) * es = count then some (new :: rest)
      else do
        let r ← scatter es aligned count ptr rest (i + 1) (index + 1)
        some (new :: r)
    else do
      let r ← scatter es aligned count ptr rest (i + 1) index
      some (e :: r)

/-- `PartialEnd ? elementSize - PartialEnd : 0` added to the size (`DataContainer.c` 117, 153). -/
def alignedSize (es size : Nat) : Nat := size + if size % es ≠ 0 then es - size % es else 0

/-- `PartialStart ? elementSize : 0` (`DataContainer.c` 120, 130, 158). -/
def extra (es off : Nat) : Nat := if off % es ≠ 0 then es else 0

/-- `CCDataContainerMapBuffer` (`DataContainer.c` 114-143): `mem` is the whole staging block, whose part from `PartialStart` on
the caller sees. Allocation failure is not modelled. -/
def containerStage (c : Container) (off size : Nat) (a : Access) : Option (List Cell) :=
  let es := c.elementSize
  if es = 0 then none
  else
    let ptr : List Cell := List.replicate (alignedSize es size + extra es off) none
    if a.read then gather es (off - off % es) (off - off % es + alignedSize es size + extra es off) c.elems 0 0 ptr
    else some ptr

/-- `CCDataContainerUnmapBuffer` (`DataContainer.c` 145-171), given the staging block. -/
def containerUnstage (c : Container) (off size : Nat) (a : Access) (ptr : List Cell) : Option Container :=
  let es := c.elementSize
  if es = 0 then none
  else if a.write then do
    let r ← scatter es (off - off % es) (off - off % es + alignedSize es size + extra es off) ptr c.elems 0 0
    some { c with elems := r }
  else some c

/-- `CCDataContainerInterface` (`DataContainer.c` 48-55). `mem` of a map is the staging block from
`PartialStart` on; the cells before it are not reachable through the map and are kept as they were staged. -/
def containerInterface : Interface Container where
  hints c := c.hint
  size c := c.elems.length * c.elementSize
  map c off size a := do
    let ptr ← containerStage c off size a
    some { offset := off, size := size, hint := a, mem := ptr.drop (off % c.elementSize) }
  unmap c m := do
    let ptr ← containerStage c m.offset m.size m.hint
    containerUnstage c m.offset m.size m.hint (ptr.take (m.offset % c.elementSize) ++ m.mem)

end Verif.Data
