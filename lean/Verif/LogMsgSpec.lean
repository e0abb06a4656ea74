import Verif.LogFormatSpec

/-!
# Specification: a message is a text
-/
namespace Verif.LogMsg.Spec
open LogFormat.Spec

/-- What is done to a message. -/
inductive Op where
  | write (s : List Char)
  | remove (n : Nat)

/-- What a message is after it. -/
def Op.apply (msg : List Char) : Op → List Char
  | .write s => msg ++ s
  | .remove n => msg.take (msg.length - n)

/-- A format, after its first text: specifiers of C, and others, each with the text after it. -/
inductive Piece where
  | std (s : Specifier) (lit : List Char)
  | custom (text : List Char) (lit : List Char)

def Piece.text : Piece → List Char
  | .std s lit => s.text ++ lit
  | .custom t lit => t ++ lit

/-- The format. -/
def format (lit : List Char) (ps : List Piece) : List Char := lit ++ (ps.map Piece.text).flatten

/-- The conversions of C's `printf` (ISO C11, 7.21.6.1), without `%`. -/
def conversions : List Char := "diouxXfFeEgGaAcspn".toList

/-- How many arguments a specifier of C takes: one for each `*`, and one for the conversion. -/
def arguments (s : Specifier) : Nat :=
  (if s.width = .star then 1 else 0) + (if s.precision = .star then 1 else 0) + (if s.conv = '%' then 0 else 1)

/-- What the pieces add to a message.  `std` says what the specifiers of C write, `custom` what the others make of the message and the arguments. -/
def expand {α : Type} (std : Specifier → List α → List Char) (custom : List Char → List Char → List α → List Char × List α) :
    List Piece → List Char → List α → List Char
  | [], msg, _ => msg
  | .std s lit :: ps, msg, args => expand std custom ps (msg ++ std s args ++ lit) (args.drop (arguments s))
  | .custom t lit :: ps, msg, args => expand std custom ps ((custom t msg args).1 ++ lit) (custom t msg args).2

end Verif.LogMsg.Spec
