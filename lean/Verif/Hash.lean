/-!
# Model of the data hashes (`Hash.c`)

A data object is its bytes together with its preferred map size; `CCDataMapBuffer(Data, off, n)`
yields `n` bytes from `off`, and asserts that they lie inside the data (`none` otherwise).
-/
namespace Verif.Hash

abbrev U8 := BitVec 8
abbrev U32 := BitVec 32

/-- `CCDataMapBuffer` (`Data.c` 165-173) seen from its caller: the mapped bytes; the assertion of
line 168 is a precondition. -/
def map (data : List U8) (off n : Nat) : Option (List U8) :=
  if off + n ≤ data.length then some ((data.drop off).take n) else none

/-- One byte of the Jenkins hash (`Hash.c` 43-45). -/
def jenkinsByte (h : U32) (b : U8) : U32 :=
  let h := h + b.setWidth 32
  let h := h + h <<< 10
  h ^^^ h >>> 6

/-- The end of the Jenkins hash (`Hash.c` 66-68). -/
def jenkinsEnd (h : U32) : U32 :=
  let h := h + h <<< 3
  let h := h ^^^ h >>> 11
  h + h <<< 15

/-- The map loop of `CCHashJenkins32` (`Hash.c` 37-52): `k` rounds remain, `i` is `Loop`.  The result
is the hash, the number of bytes read and whether the loop was left through `goto Finalizer`. -/
def jenkinsLoop (data : List U8) (p : Nat) : Nat → Nat → U32 → Nat → Option (U32 × Nat × Bool)
  | 0, _, h, read => some (h, read, false)
  | k + 1, i, h, read => do
    let m ← map data (i * p) p
    let h := m.foldl jenkinsByte h
    let read := read + m.length
    if m.length ≠ p then some (h, read, true) else jenkinsLoop data p k (i + 1) h read

/-- `CCHashJenkins32` (`Hash.c` 31-71). Division by a zero preferred map size is undefined. -/
def jenkins (data : List U8) (p : Nat) : Option U32 :=
  if p = 0 then none
  else do
    let (h, read, done) ← jenkinsLoop data p (data.length / p) 0 0#32 0
    if done then some (jenkinsEnd h)
    else do
      let m ← map data read (data.length - read)
      some (jenkinsEnd (m.foldl jenkinsByte h))

/-- `CCHashROL32` (`Hash.c` 73-76). -/
def rol (x : U32) (n : Nat) : U32 := x <<< n ||| x >>> (32 - n)

/-- The scrambling of a block (`Hash.c` 102-104). -/
def scramble (k : U32) : U32 := rol (k * 0xcc9e2d51#32) 15 * 0x1b873593#32

/-- One block (`Hash.c` 101-107). -/
def murmurBlock (h k : U32) : U32 := rol (h ^^^ scramble k) 13 * 5#32 + 0xe6546b64#32

/-- `((uint32_t*)Map.ptr)[Index]` (`Hash.c` 101), little-endian. -/
def block (m : List U8) (i : Nat) : U32 :=
  m.getD (i * 4 + 3) 0#8 ++ m.getD (i * 4 + 2) 0#8 ++ m.getD (i * 4 + 1) 0#8 ++ m.getD (i * 4) 0#8

/-- The leftover bytes (`Hash.c` 110-131). -/
def murmurTail (h : U32) (t : List U8) : U32 :=
  match t.length with
  | 3 => h ^^^ scramble (((0#32 ^^^ (t.getD 2 0#8).setWidth 32 <<< 16) ^^^ (t.getD 1 0#8).setWidth 32 <<< 8) ^^^ (t.getD 0 0#8).setWidth 32)
  | 2 => h ^^^ scramble ((0#32 ^^^ (t.getD 1 0#8).setWidth 32 <<< 8) ^^^ (t.getD 0 0#8).setWidth 32)
  | 1 => h ^^^ scramble (0#32 ^^^ (t.getD 0 0#8).setWidth 32)
  | _ => h

/-- The work on one map (`Hash.c` 98-131, 141-174). -/
def murmurMap (h : U32) (m : List U8) : U32 :=
  let blocks := m.length / 4
  let h := (List.range blocks).foldl (fun h i => murmurBlock h (block m i)) h
  let leftover := m.length - blocks * 4
  if leftover ≠ 0 then murmurTail h (m.drop (blocks * 4)) else h

/-- The map loop of `CCHashMurmur32` (`Hash.c` 94-137). -/
def murmurLoop (data : List U8) (p : Nat) : Nat → Nat → U32 → Nat → Option (U32 × Nat × Bool)
  | 0, _, h, read => some (h, read, false)
  | k + 1, i, h, read => do
    let m ← map data (i * p) p
    let h := murmurMap h m
    let read := read + m.length
    if m.length ≠ p then some (h, read, true) else murmurLoop data p k (i + 1) h read

/-- The end of the Murmur hash (`Hash.c` 180-185); `Read` is a `size_t`, xor-ed into 32 bits. -/
def murmurEnd (h : U32) (read : Nat) : U32 :=
  let h := h ^^^ BitVec.ofNat 32 read
  let h := h ^^^ h >>> 16
  let h := h * 0x85ebca6b#32
  let h := h ^^^ h >>> 13
  let h := h * 0xc2b2ae35#32
  h ^^^ h >>> 16

/-- The map size used by `CCHashMurmur32` (`Hash.c` 91-92). -/
def murmurSize (p : Nat) : Nat := if p / 4 * 4 = 0 then 4 else p / 4 * 4

/-- `CCHashMurmur32` (`Hash.c` 78-188). -/
def murmur (data : List U8) (p : Nat) : Option U32 := do
  let p := murmurSize p
  let (h, read, done) ← murmurLoop data p (data.length / 4 * 4 / p) 0 0#32 0
  if done then some (murmurEnd h read)
  else do
    let m ← map data read (data.length - read)
    some (murmurEnd (murmurMap h m) (read + m.length))

end Verif.Hash
