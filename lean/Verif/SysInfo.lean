/-!
# Model of the system version and the stripped process name (`SystemInfo.c`, `ProcessInfo.c`)

* What the system provides, the version string and the name of the process, are parameters.
* The value is computed at the first call and kept: only that computation is modelled.
-/
namespace Verif.SysInfo

/-- The values before (SystemInfo.c 71). -/
def zeros : List Nat := [0, 0, 0]

/-- The loop (SystemInfo.c 72-77): `Index`, the three values and the characters left.  `none`: a write outside of the array.  A character is a `UniChar`, 16 bits; the arithmetic is that of `uint32_t`. -/
def parse (idx : Nat) (vals : List Nat) : List Nat → Option (List Nat)
  | [] => some vals
  | c :: cs =>
    if c = 46 then parse (idx + 1) vals cs
    else match vals[idx]? with
      | none => none
      | some v => parse idx (vals.set idx ((v * 10 + c + (2 ^ 32 - 48)) % 2 ^ 32)) cs

/-- `CCSystemVersion` (SystemInfo.c 36-100), for a version string that could be read. -/
def version (s : List Nat) : Option (Nat × Nat × Nat) := match parse 0 zeros s with
  | some [a, b, c] => some (a, b, c)
  | _ => none

/-- `CCSystemVersionLiteral` on macOS (SystemInfo.c 102-111). -/
def literalMac (maj min : Nat) : Nat := if 10 ≤ maj ∧ 10 ≤ min then (maj * 10000 + min * 100) % 2 ^ 32 else (maj * 100 + min * 10) % 2 ^ 32

/-- `CCSystemVersionLiteral` on iOS (SystemInfo.c 112-113). -/
def literalIOS (maj min : Nat) : Nat := (maj * 10000 + min * 100) % 2 ^ 32

/-- `isalnum` for a `char` as an `int`, in the C locale (ProcessInfo.c 93).  `none`: undefined, the argument is negative. -/
def isAlnum (c : Int) : Option Bool := if c < 0 then none else some ((48 ≤ c && c ≤ 57) || (65 ≤ c && c ≤ 90) || (97 ≤ c && c ≤ 122))

/-- The loop of `CCProcessCurrentStrippedName` (ProcessInfo.c 92-94): the characters written so far and those left; the buffer has `max` bytes.  `none`: undefined argument or a write outside of the buffer. -/
def strip (max : Nat) (out : List Int) : List Int → Option (List Int)
  | [] => if out.length < max then some out else none
  | c :: cs => match isAlnum c with
    | none => none
    | some true => if out.length < max then strip max (out ++ [c]) cs else none
    | some false => strip max out cs

/-- `CCProcessCurrentStrippedName` (ProcessInfo.c 84-99) for a process name. -/
def strippedName (max : Nat) (name : List Int) : Option (List Int) := strip max [] name

end Verif.SysInfo
