import Verif.CopyCont
/-!
# Model of serialising data with containers and reading it back (`CommonC/Reflect.c` 1946-2063, 2123-2278; `CommonC/ReflectedTypes.c` 482-546, 1445-1580)

Data is written with `CCReflectSerializeBinary` and read with `CCReflectDeserializeBinary`.  The memory and the types are those of
`CopyCont.lean`: a list of objects, each with a count of references; using a freed object and a failing assertion are the outcome `none`.

Simplified, besides what `CopyCont.lean` says: the stream is a list of tokens instead of bytes, a number, a string, a count of elements
and the description of a mapped type being one token each (C75, C76, C84 and C100 are about their bytes); a string is read back in
the form it had (tagged or not); reading a description of another element type than that of the reader is not
modelled (`none`); the elements that lie in the zone are enumerated in order (C103); the memory of a pointer is allocated after its content
was read.
-/
namespace Verif.StreamCont

open Verif.CopyCont

/-- What is written. -/
inductive Tok where
  /-- The byte 1 or 0: a pointer is not null, there is another element. -/
  | flag (b : Bool)
  /-- An integer or a float. -/
  | num (n : Nat)
  /-- A tagged string, described and written. -/
  | word (n : Nat)
  /-- Another string, described and written. -/
  | text (n : Nat)
  /-- The description of `PTYPE(void, retain, dynamic)`. -/
  | voidPointer
  /-- The description of an array of `n` elements. -/
  | array (e : Ty) (n : Nat)
  /-- The description of an enumerable of elements. -/
  | enumerable (e : Ty)
  /-- The number of elements of an enumerable; `none` is `SIZE_MAX`. -/
  | count (n : Option Nat)
  deriving DecidableEq, Repr

/-- The loops over the elements (Reflect.c 2019-2024, 2036-2042, 2053-2056): what is written for each of them. -/
def writeAll (f : Val → Option (List Tok)) : List Val → Option (List (List Tok))
  | [] => some []
  | v :: vs => do
    let ts ← f v
    let tss ← writeAll f vs
    some (ts :: tss)

/-- What is written for a container (ReflectedTypes.c 1445-1458, 1484-1500, 1542-1558; Reflect.c 1946-1951, 2012-2062): the description and the data
it is mapped to.  A linked list does not know its number of elements, so every element has the byte 1 before it and the last one
the byte 0 behind it. -/
def container (k : Kind) (e : Ty) (tss : List (List Tok)) : List Tok :=
  match k with
  | .array => .array e tss.length :: tss.flatten
  | .list => .enumerable e :: .count (some tss.length) :: tss.flatten
  | .linked => .enumerable e :: .count none :: (tss.flatMap fun ts => .flag true :: ts) ++ [.flag false]

/-- `CCReflectSerializeBinary` (Reflect.c 1953-2063).  Every pointer is followed, weak ones too; of a pointer to `void` only whether it
is null is written (ReflectedTypes.c 352-354). -/
def write (h : Heap) : Ty → Val → Option (List Tok)
  | .num, .num n => some [.num n]
  | .raw _, .null => some [.flag false]
  | .raw _, .ptr _ => some [.flag true]
  | .ptr _ _, .null => some [.flag false]
  | .ptr _ t, .ptr p => do
    let x ← readCell h p
    let ts ← write h t x
    some (.flag true :: ts)
  | .pair a b, .pair x y => do
    let ts ← write h a x
    let us ← write h b y
    some (ts ++ us)
  | .str, .num n => some [.word n]
  | .str, .ptr p =>
    match h[p]? with
    | some ⟨.text s, _ + 1⟩ => some [.text s]
    | _ => none
  | .cont _ _, .null => some [.voidPointer, .flag false]
  | .cont k e, .ptr p => do
    let vs ← readSeq h p
    let tss ← writeAll (write h e) vs
    some (container k e tss)
  | _, _ => none

/-- What reading gives: the memory, the data and the rest of the stream. -/
abbrev Read := List Tok → Heap → Option (Heap × Val × List Tok)

/-- A loop that reads a number of elements (Reflect.c 2220-2223, 2265-2272). -/
def readN (f : Read) : Nat → List Tok → Heap → Option (Heap × List Val × List Tok)
  | 0, ts, h => some (h, [], ts)
  | n + 1, ts, h => do
    let (h, v, ts) ← f ts h
    let (h, vs, ts) ← readN f n ts h
    some (h, v :: vs, ts)

/-- The loop that reads elements until the byte 0 (Reflect.c 2246-2260), in at most `fuel` rounds. -/
def readWhile (f : Read) : Nat → List Tok → Heap → Option (Heap × List Val × List Tok)
  | _, .flag false :: ts, h => some (h, [], ts)
  | fuel + 1, .flag true :: ts, h => do
    let (h, v, ts) ← f ts h
    let (h, vs, ts) ← readWhile f fuel ts h
    some (h, v :: vs, ts)
  | _, _, _ => none

/-- The end of the unmappers and `CCReflectDeserializeBinaryHandler` (ReflectedTypes.c 1460-1481, 1502-1539, 1560-1580; Reflect.c
2123-2126): a new container with the elements, retained for the destination and freed by the unmapper. -/
def finish (k : Kind) (vs : List Val) (ts : List Tok) (h : Heap) : Option (Heap × Val × List Tok) := do
  let (h, c) ← make k vs h
  match c with
  | .ptr q => do
    let h ← retain h q
    let h ← free h q
    some (h, .ptr q, ts)
  | v => some (h, v, ts)

/-- `CCReflectDeserializeBinary` (Reflect.c 2128-2278). -/
def read : Ty → Read
  | .num, .num n :: ts, h => some (h, .num n, ts)
  | .raw _, .flag false :: ts, h => some (h, .null, ts)
  | .raw _, .flag true :: ts, h =>
    let (h, q) := new h (.cell .null)
    some (h, .ptr q, ts)
  | .ptr _ _, .flag false :: ts, h => some (h, .null, ts)
  | .ptr _ t, .flag true :: ts, h => do
    let (h, x, ts) ← read t ts h
    let (h, q) := new h (.cell x)
    some (h, .ptr q, ts)
  | .pair a b, ts, h => do
    let (h, x, ts) ← read a ts h
    let (h, y, ts) ← read b ts h
    some (h, .pair x y, ts)
  | .str, .word n :: ts, h => some (h, .num n, ts)
  | .str, .text s :: ts, h =>
    let (h, q) := new h (.text s)
    some (h, .ptr q, ts)
  | .cont _ _, .voidPointer :: .flag false :: ts, h => some (h, .null, ts)
  | .cont .array e, .array e' n :: ts, h =>
    if e' = e then do
      let (h, vs, ts) ← readN (read e) n ts h
      finish .array vs ts h
    else none
  | .cont k e, .enumerable e' :: .count c :: ts, h =>
    if e' = e ∧ k ≠ .array then do
      let (h, vs, ts) ← (match c with
        | some n => readN (read e) n ts h
        | none => readWhile (read e) ts.length ts h)
      finish k vs ts h
    else none
  | _, _, _ => none

end Verif.StreamCont
