/-!
# Model of the memory an array asks for

`CCArrayCreate`, `CCArrayAppendElement(s)`, `CCArrayInsertElement(s)AtIndex`, `CCArrayRemoveElementsAtIndex` (`CommonC/Array.c` 37-109, 147-212): the number of bytes of the memory of the elements, with the sums and products
of `size_t` as they are in C.

Simplifications:
* Only the sizes are modelled; the elements are the subject of C01-C03, where sizes are natural numbers.
* `CCMalloc` and `CCRealloc` give a block of the bytes asked for, or NULL; which is a parameter of the call (`granted`).
* Removals are of ranges within the array (for others see C151).
-/
namespace Verif.ArrayBytes

/-- The number of values of a `size_t`. -/
abbrev W : Nat := 2 ^ 64

/-- `CCArrayInfo` (Array.h 43-47); `bytes`: the size of the block `data` points at, nothing if it is NULL. -/
structure Arr where
  size : Nat
  chunk : Nat
  count : Nat
  bytes : Option Nat
  deriving DecidableEq, Repr

/-- `CCArrayCreate` (Array.c 37-56); nothing if the assertion fails. -/
def create (size chunk : Nat) (granted : Bool) : Option Arr :=
  if 1 ≤ chunk then some ⟨size, chunk, 0, if granted then some (chunk * size % W) else none⟩ else none

/-- The bytes asked for to have room for `n` elements more (Array.c 93 and 179; 70 and 154 for one element, with `n` 0 there). -/
def request (a : Arr) (n : Nat) : Nat := ((a.count + n) % W / a.chunk + 1) * a.chunk * a.size % W

/-- Whether `n` elements more need more memory (Array.c 90-91 and 176-177). -/
def grows (a : Arr) (n : Nat) : Bool := decide (a.chunk - a.count % a.chunk < n) || (a.count % a.chunk == 0 && (a.count != 0 || a.bytes.isNone))

/-- Whether one element more needs more memory (Array.c 68 and 152). -/
def growsOne (a : Arr) : Bool := a.count % a.chunk == 0 && (a.count != 0 || a.bytes.isNone)

/-- The calls: `addN` is `CCArrayAppendElements` (Array.c 85-109) and `CCArrayInsertElementsAtIndex` (170-195), `add` is `CCArrayAppendElement` (64-83) and `CCArrayInsertElementAtIndex` (147-168), `remove` is
`CCArrayRemoveElementsAtIndex` (205-212). -/
inductive Op where
  | addN (n : Nat) (granted : Bool)
  | add (granted : Bool)
  | remove (n : Nat)

/-- One call.  Nothing: an assertion fails.  Second component: whether it returned an index, not `SIZE_MAX`. -/
def step (a : Arr) : Op → Option (Arr × Bool)
  | .addN n granted =>
    if n = 0 then none
    else if grows a n = true ∧ granted = false then some (a, false)
    else some ({ a with count := (a.count + n) % W, bytes := if grows a n then some (request a n) else a.bytes }, true)
  | .add granted =>
    if growsOne a = true ∧ granted = false then some (a, false)
    else some ({ a with count := (a.count + 1) % W, bytes := if growsOne a then some (request a 0) else a.bytes }, true)
  | .remove n => if n ≤ a.count then some ({ a with count := a.count - n }, true) else none

end Verif.ArrayBytes
