import Verif.LogFormatSpec

/-!
# Specification: what the specifiers of arrays and of deletion write
-/
namespace Verif.CustomFmt.Spec
open LogFormat.Spec

/-- How many: written out or taken from the arguments. -/
inductive Count where
  | digits (ds : List Char)
  | star

/-- What is put between elements: a comma, a text, or an argument. -/
inductive Sep where
  | comma
  | text (s : List Char)
  | star

/-- `%[count{separator}]format_specifier` (CustomFormatSpecifiers.h 43). -/
structure ArraySpecifier where
  count : Count
  sep : Sep := .comma
  /-- The specifier of the elements; its `%` is not written. -/
  inner : Specifier

def Count.text : Count → List Char
  | .digits ds => ds
  | .star => ['*']

def Sep.written : Sep → List Char
  | .comma => []
  | .text s => s
  | .star => ['*']

def ArraySpecifier.text (s : ArraySpecifier) : List Char := ['%', '['] ++ s.count.text ++ s.sep.written ++ [']'] ++ s.inner.middle ++ [s.inner.conv]

/-- As it is documented: the number fits in a `size_t`; a separator has no `]` and cannot be taken for something else; the elements have a specifier of C without `*`. -/
structure ArraySpecifier.WF (s : ArraySpecifier) : Prop where
  count : ∀ ds, s.count = .digits ds → ds ≠ [] ∧ (∀ c ∈ ds, isDigit c) ∧ number ds < 2 ^ 64
  sep : ∀ t, s.sep = .text t → t ≠ [] ∧ ']' ∉ t ∧ t.head? ≠ some '*' ∧ ((∃ ds, s.count = .digits ds) → ∀ c, t.head? = some c → ¬ isDigit c)
  inner : s.inner.WF
  small : s.inner.width.value < 2 ^ 31 ∧ s.inner.precision.value < 2 ^ 31
  noStar : s.inner.width ≠ .star ∧ s.inner.precision ≠ .star
  conv : s.inner.conv ∈ ['d', 'i', 'o', 'u', 'x', 'X', 'f', 'F', 'e', 'E', 'g', 'G', 'a', 'A', 'c', 's', 'p']

/-- The elements' texts, with a separator between each and the next. -/
def joined (sep : List Char) : List (List Char) → List Char
  | [] => []
  | [x] => x
  | x :: y :: xs => x ++ sep ++ joined sep (y :: xs)

/-- `%{count}DEL`: how it is written. -/
def deletionText : Option Count → List Char
  | none => ['%', 'D', 'E', 'L']
  | some c => ['%'] ++ c.text ++ ['D', 'E', 'L']

end Verif.CustomFmt.Spec
