/-!
# UTF-8, as in RFC 3629
-/
namespace Verif.Utf8.Spec

/-- The characters other than NUL: Unicode scalar values. -/
def Scalar (c : Nat) : Prop := 0 < c ∧ c ≤ 0x10ffff ∧ ¬ (0xd800 ≤ c ∧ c ≤ 0xdfff)

instance (c : Nat) : Decidable (Scalar c) := inferInstanceAs (Decidable (_ ∧ _))

/-- RFC 3629, section 3. -/
def encode (c : Nat) : List Nat :=
  if c < 0x80 then [c]
  else if c < 0x800 then [0xc0 + c / 64, 0x80 + c % 64]
  else if c < 0x10000 then [0xe0 + c / 4096, 0x80 + c / 64 % 64, 0x80 + c % 64]
  else [0xf0 + c / 262144, 0x80 + c / 4096 % 64, 0x80 + c / 64 % 64, 0x80 + c % 64]

/-- A text. -/
def encodeAll (l : List Nat) : List Nat := l.flatMap encode

end Verif.Utf8.Spec
