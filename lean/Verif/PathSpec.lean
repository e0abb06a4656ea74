import Verif.Path
/-!
# Specification of the path text

`text` writes components down, `Wf` says which component lists have a text of their own, and `seg` reads a text
component by component, without any state.
-/
namespace Verif.Path.Spec
open Verif.Path

/-- How a component is written (Path.h 81-101). -/
def written : Comp → Str
  | .volume n => '/' :: '/' :: n
  | .root => ['/']
  | .relRoot => []
  | .dir n => n ++ ['/']
  | .parent => ['.', '.', '/']
  | .file n => n
  | .ext n => '.' :: n

/-- The text of a list of components. -/
def text (cs : List Comp) : Str := cs.flatMap written

/-- A name without '/' and '.'. -/
def Plain (n : Str) : Prop := n ≠ [] ∧ '/' ∉ n ∧ '.' ∉ n

/-- A name that may be given to a directory: it does not begin with a '.', or it begins with one, then other characters,
then another '.'. -/
def DirName (n : Str) : Prop :=
  '/' ∉ n ∧ ((∃ c m, n = c :: m ∧ c ≠ '.') ∨ (∃ x y, n = '.' :: x ++ '.' :: y ∧ Plain x))

/-- Extensions. -/
def Exts : List Comp → Prop
  | [] => True
  | .ext n :: cs => Plain n ∧ Exts cs
  | _ :: _ => False

/-- A file name: a plain name and extensions, or only one extension, or a plain name behind a '.' and then at least one
extension. -/
def FileName : List Comp → Prop
  | [.ext n] => Plain n
  | .file n :: cs => Exts cs ∧ (Plain n ∨ (∃ x, n = '.' :: x ∧ Plain x ∧ cs ≠ []))
  | _ => False

/-- May `c` be followed by a text beginning with `f`? (`none`: the end) -/
def Follows (c : Comp) (f : Option Char) : Prop :=
  match c with
  | .volume _ => f = none ∨ f = some '/'
  | .root => f ≠ some '/'
  | _ => True

/-- Is the component, not part of a file name, well formed? -/
def Step : Comp → Prop
  | .volume n => Plain n
  | .root => True
  | .dir n => DirName n
  | .parent => True
  | _ => False

/-- Well formed directory part before a text beginning with `f`: a volume is followed by a '/', a root is not. -/
def WfDir : List Comp → Option Char → Prop
  | [], _ => True
  | c :: cs, f => Step c ∧ Follows c ((text cs).head?.or f) ∧ WfDir cs f

/-- Well formed component lists: a directory part and perhaps a file name. -/
def Wf (cs : List Comp) : Prop :=
  ∃ ds fs, cs = ds ++ fs ∧ (fs = [] ∨ FileName fs) ∧ WfDir ds (text fs).head?

/-- The extensions read from `s`, which begins with a '.' unless it is empty: up to the first one that is empty. -/
def segExts (s : Str) : List Comp :=
  match s with
  | [] => []
  | _ :: m =>
    let e := m.takeWhile (· ≠ '.')
    if e = [] then [] else .ext e :: segExts (m.dropWhile (· ≠ '.'))
termination_by s.length
decreasing_by
  have := (List.dropWhile_suffix (fun x : Char => decide (x ≠ '.')) (l := m)).length_le
  simp only [List.length_cons]; omega

/-- The components of a file name `s`. -/
def segFile (s : Str) : List Comp :=
  match s with
  | [] => []
  | c :: m =>
    if c = '.' then
      let e := m.takeWhile (· ≠ '.')
      let r := m.dropWhile (· ≠ '.')
      if e = [] then [] else if r = [] then [.ext e] else .file ('.' :: e) :: segExts r
    else .file (s.takeWhile (· ≠ '.')) :: segExts (s.dropWhile (· ≠ '.'))

/-- Is the name `n` of a directory beginning with a '.' read as such? -/
def dotted (n : Str) : Bool :=
  match n with
  | [] => false
  | c :: m => c ≠ '.' || (m.head? ≠ some '.' && m.head? ≠ none && m.contains '.')

/-- What the parser makes of the text `s` that begins a component. -/
def seg (s : Str) : List Comp :=
  match s with
  | [] => []
  | c :: r =>
    if c = '/' then
      if r.head? = some '/' then
        let n := (r.drop 1).takeWhile (· ≠ '/')
        if n ≠ [] ∧ '.' ∉ n then .volume n :: seg ((r.drop 1).dropWhile (· ≠ '/')) else []
      else .root :: seg r
    else
      let n := (c :: r).takeWhile (· ≠ '/')
      let t := (c :: r).dropWhile (· ≠ '/')
      if t = [] then segFile n
      else if n = ['.', '.'] then .parent :: seg (t.drop 1)
      else if n = ['.'] then
        let u := (t.drop 1).dropWhile (· = '/')
        if u.head? = some '.' then .parent :: seg (u.drop 1) else []
      else if dotted n then .dir n :: seg (t.drop 1)
      else []
termination_by s.length
decreasing_by
  all_goals
    try have h1 := (List.dropWhile_suffix (fun x : Char => decide (x ≠ '/')) (l := r.drop 1)).length_le
    try have h2 := (List.dropWhile_suffix (fun x : Char => decide (x ≠ '/')) (l := c :: r)).length_le
    try have h3 := (List.dropWhile_suffix (fun x : Char => decide (x = '/')) (l := ((c :: r).dropWhile (· ≠ '/')).drop 1)).length_le
    simp only [List.length_drop, List.length_cons] at *
    omega

end Verif.Path.Spec
