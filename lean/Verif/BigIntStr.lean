import Verif.BigIntText
import Verif.BigIntFast
/-!
# Model of the operations of big integers that take or give a string

`BigInt.c` 189-197, 286-296, 409-417, 467-475 and `BigIntFast.h` 298-308, 332-337, 400-435, 473-487,
563-577, 653-667. A string is its list of characters, as in `BigIntText`. The temporary big integers are
destroyed at the end of each function; the model drops them.
-/
namespace Verif.BigInt

/-- `CCBigIntSetString` (`BigInt.c` 189-197): the previous components are removed first (124), so that
they play no part. -/
def setString (s : List Char) : Option BI := parse s

/-- `CCBigIntCompareString` (`BigInt.c` 286-296). -/
def compareString (a : BI) (s : List Char) : Option Ordering := do
  let b ← setString s
  some (compareBig a b)

/-- `CCBigIntAddString` (`BigInt.c` 409-417). -/
def addString (a : BI) (s : List Char) : Option BI := do
  let b ← setString s
  addBig a b

/-- `CCBigIntSubString` (`BigInt.c` 467-475). -/
def subString (a : BI) (s : List Char) : Option BI := do
  let b ← setString s
  subBig a b

end Verif.BigInt

namespace Verif.BigIntFast
open Verif.BigInt

/-- `CCBigIntFastCopy` (`BigIntFast.h` 298-308). `CCBigIntSet(Value, Integer)` is
`CCBigIntSetBigIntFast` (`BigInt.c` 78-85) for an integer which is not tagged. -/
def copy : Fast → Option Fast
  | .tagged bits => some (.tagged bits)
  | .big b => do
    let c ← BigInt.setBig b
    some (.big c)

/-- `CCBigIntFastGetSign` (`BigIntFast.h` 332-337). -/
def getSign : Fast → Bool
  | .tagged bits => decide (getTagged bits < 0)
  | .big b => b.sign

/-- `CCBigIntFastSetString` (`BigIntFast.h` 400-408): a tagged integer gives way to a new big integer. -/
def setString (s : List Char) : Option Fast := do
  let b ← BigInt.setString s
  some (.big b)

/-- `CCBigIntFastGetString` (`BigIntFast.h` 423-435). -/
def getString (a : Fast) : Option (List Char) := do
  let b ← getBig a
  some (print b)

/-- `CCBigIntFastCompareString` (`BigIntFast.h` 473-487). -/
def compareString (a : Fast) (s : List Char) : Option Ordering :=
  match a with
  | .tagged bits => do
    let b ← BigInt.setString s
    let r ← BigInt.compareInt b (getTagged bits)
    some r.swap
  | .big a => BigInt.compareString a s

/-- `CCBigIntFastAddString` (`BigIntFast.h` 563-577). -/
def addString (asserts : Bool) (a : Fast) (s : List Char) : Option Fast :=
  match a with
  | .tagged bits => do
    let b ← BigInt.setString s
    addBig asserts (.tagged bits) b
  | .big a => do
    let r ← BigInt.addString a s
    some (.big r)

/-- `CCBigIntFastSubString` (`BigIntFast.h` 653-667). -/
def subString (asserts : Bool) (a : Fast) (s : List Char) : Option Fast :=
  match a with
  | .tagged bits => do
    let b ← BigInt.setString s
    subBig asserts (.tagged bits) b
  | .big a => do
    let r ← BigInt.subString a s
    some (.big r)

end Verif.BigIntFast
