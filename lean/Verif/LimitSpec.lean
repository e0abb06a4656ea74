import Verif.VarInt
/-!
# Specification for C79: the number that bytes are
-/
namespace Verif.Limit

open Verif.VarInt (Endian)

/-- The number of digits to the base 256, lowest first. -/
def digits : List UInt8 → Nat
  | [] => 0
  | b :: bs => b.toNat + 256 * digits bs

/-- The integer stored as these bytes: lowest byte first unless big endian, two's complement when it has a sign. -/
def number (e : Endian) (sign : Bool) (xs : List UInt8) : Int :=
  let n := digits (if e = .big then xs.reverse else xs)
  if sign ∧ 128 * 256 ^ (xs.length - 1) ≤ n then (n : Int) - 256 ^ xs.length else n

example : number .native true [0xfe, 0xff] = -2 := by decide
example : number .big true [0x80, 0x00] = -32768 := by decide
example : number .little false [0xfe, 0xff] = 65534 := by decide

end Verif.Limit
