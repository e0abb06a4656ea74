/-!
# Model of the assertions about ranges

The assertions by which the arrays, strings and data reject ranges outside of them, with the arithmetic of `size_t` and `ptrdiff_t` as it is in C, and the ranges the calls then touch:
`CCArrayReplaceElementsAtIndex`, `CCArrayCopyElementsAtIndex`, `CCArrayRemoveElementsAtIndex` (`CommonC/Array.c` 119-126, 137-145, 205-212), `CCStringCopySubstring` (`CommonC/CCString.c` 828-847),
`CCDataModifiedRange`, `CCDataMapBuffer`, `CCDataReadBuffer`, `CCDataWriteBuffer`, `CCDataFillBuffer` and `CCDataCopyBuffer` (`CommonC/Data.c` 155-314) of the data buffers (`CommonC/DataBuffer.c` 130-188).

Simplifications:
* Only the ranges are modelled, in elements (arrays), characters (ASCII strings that are not tagged) or bytes (data); what is there is the subject of C01, C30 and the others.
* The product of a count and the size of an element does not wrap (it does not for elements of one byte).
* Both operands of a copy of data have the same size.
-/
namespace Verif.RangeCheck

/-- The number of values of a `size_t`. -/
abbrev W : Nat := 18446744073709551616

/-- The conversion of a `ptrdiff_t` to a `size_t`, as in the sum of both. -/
def toSize (z : Int) : Nat := (z % W).toNat

/-- `count > (Index + Count - 1)` (Array.c 140, 141, 208). -/
def arrayCheck (count i n : Nat) : Bool := decide ((i + n + W - 1) % W < count)

/-- `Offset + Length <= length` (CCString.c 831). -/
def stringCheck (length o n : Nat) : Bool := decide ((o + n) % W ≤ length)

/-- `(Offset + Size) <= size` (Data.c 158, 168, 186, 217, 250, 251, 289): `Offset` is signed. -/
def dataCheck (size : Nat) (o : Int) (n : Nat) : Bool := decide ((toSize o + n) % W ≤ size)

/-- The calls. -/
inductive Call where
  | arrayReplace (i n : Nat)
  | arrayCopy (i j n : Nat)
  | arrayRemove (i n : Nat)
  | substring (o n : Nat)
  | data (o : Int) (n : Nat)
  | dataCopy (src dst : Int) (n : Nat)

/-- The ranges a call touches, each a start and a length; nothing if an assertion stops it.
`arrayReplace`: Array.c 121-125.  `arrayCopy`: 139-144.  `arrayRemove`: 207-210.  `substring`: CCString.c 831, 846.  `data`: Data.c 158, 168, 186, 217, 289 with DataBuffer.c 130-188.  `dataCopy`: Data.c 250-251. -/
def touches (size : Nat) : Call → Option (List (Int × Nat))
  | .arrayReplace i n => if i < size ∧ n ≠ 0 then some [(i, n)] else none
  | .arrayCopy i j n => if arrayCheck size i n = true ∧ arrayCheck size j n = true ∧ n ≠ 0 then some [(i, n), (j, n)] else none
  | .arrayRemove i n =>
    let m := (size + W - (i + n) % W) % W
    if arrayCheck size i n = true then some [(i, m), (((i + n) % W : Nat), m)] else none
  | .substring o n => if stringCheck size o n = true then some [(o, n)] else none
  | .data o n => if dataCheck size o n = true then some [(o, n)] else none
  | .dataCopy s d n => if dataCheck size s n = true ∧ dataCheck size d n = true then some [(s, n), (d, n)] else none

/-- The count of an array after `CCArrayRemoveElementsAtIndex` (Array.c 211). -/
def countAfter (count n : Nat) : Nat := (count + W - n) % W

end Verif.RangeCheck
