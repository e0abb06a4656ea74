/-!
# Model of `Decimal.h`

Values are natural numbers below the width of their C type; every operation that can exceed its type is
reduced explicitly. The loops are by recursion on the number of iterations, which is the absolute value
of the exponent (`while (exp--)`, `while (exp++)`).
-/
namespace Verif.Decimal

/-- `UINT64_MAX`. -/
def max64 : Nat := 2 ^ 64 - 1

/-- Loop of `CCDecimal32MultiplyU64` for exponents from zero (`Decimal.h` 65-72), on `(Hi, Lo)`. -/
def up32 : Nat → Nat × Nat → Nat × Nat
  | 0, s => s
  | n + 1, (hi, lo) =>
    let lo := lo * 10 % 2 ^ 64
    let hi := hi * 10 % 2 ^ 64
    up32 n ((hi + lo / 2 ^ 32) % 2 ^ 64, lo % 2 ^ 32)

/-- Loop of `CCDecimal64MultiplyU64` for exponents from zero (`Decimal.h` 120-124), on `(Hi, Lo)`. -/
def up64 : Nat → Nat × Nat → Nat × Nat
  | 0, s => s
  | n + 1, (hi, lo) => up64 n (hi * 10 % 2 ^ 128, lo * 10 % 2 ^ 128)

/-- State of the loops for negative exponents. -/
structure Down where
  hi : Nat
  lo : Nat
  rem : Nat
  carry : Nat
  deriving DecidableEq, Repr

/-- Loop body for negative exponents (`Decimal.h` 88-95, 140-147; the same text twice). -/
def Down.step (s : Down) : Down :=
  let rem := (s.rem + s.hi % 10 * 2 ^ 32) % 2 ^ 64
  { carry := if rem % 10 + s.lo % 10 + s.carry ≥ 10 then 1 else 0
    rem := rem / 10
    lo := s.lo / 10
    hi := s.hi / 10 }

/-- The loop for negative exponents (`Decimal.h` 86-96, 138-148). -/
def down : Nat → Down → Down
  | 0, s => s
  | n + 1, s => down n s.step

/-- `CCDecimal32MultiplyU64` (`Decimal.h` 51-104), for a 64-bit value and a 32-bit coefficient. -/
def mul32 (value coef : Nat) (exp : Int) : Nat :=
  let lo := value % 2 ^ 32 * coef % 2 ^ 64
  let hi := value / 2 ^ 32 * coef % 2 ^ 64
  if exp ≥ 20 ∧ coef ≠ 0 then max64
  else if exp ≥ 0 then
    let s := up32 exp.toNat (hi, lo)
    if s.1 > 0xffffffff then max64 else (s.2 + s.1 * 2 ^ 32 % 2 ^ 64) % 2 ^ 64
  else if exp ≤ -29 ∧ coef ≠ 0 then 0
  else
    let s := down (-exp).toNat { hi, lo, rem := 0, carry := 0 }
    if s.hi > 0xffffffff then max64 else (s.lo + s.rem + s.hi * 2 ^ 32 % 2 ^ 64 + s.carry) % 2 ^ 64

/-- `CCDecimal64MultiplyU64` (`Decimal.h` 106-156), for a 64-bit value and a 64-bit coefficient. -/
def mul64 (value coef : Nat) (exp : Int) : Nat :=
  let lo := value % 2 ^ 32 * coef % 2 ^ 128
  let hi := value / 2 ^ 32 * coef % 2 ^ 128
  if exp ≥ 20 ∧ coef ≠ 0 then max64
  else if exp ≥ 0 then
    let s := up64 exp.toNat (hi, lo)
    if s.1 > 0xffffffff ∨ s.2 > max64 then max64 else (s.2 + s.1 * 2 ^ 32 % 2 ^ 128) % 2 ^ 64
  else if exp ≤ -39 ∧ coef ≠ 0 then 0
  else
    let s := down (-exp).toNat { hi, lo, rem := 0, carry := 0 }
    if s.hi > 0xffffffff ∨ s.lo > max64 then max64 else (s.lo + s.rem + s.hi * 2 ^ 32 % 2 ^ 128 + s.carry) % 2 ^ 64

end Verif.Decimal
