import Verif.CopyCont
/-!
# Specification for C101: what data with containers is, and who holds it
-/
namespace Verif.CopyCont

/-- The data as its owner sees it: owned pointers and containers are followed, weak pointers and those to `void` are addresses. -/
inductive Tree where
  | num (n : Nat)
  | null
  | address (p : Nat)
  | text (n : Nat)
  | owned (t : Tree)
  | pair (x y : Tree)
  | seq (ts : List Tree)

/-- How many references an object has; 0 if there is no such object. -/
def count (h : Heap) (p : Nat) : Nat :=
  match h[p]? with
  | some o => o.count
  | none => 0

/-- There is data of the type: every pointer is null or to an object of its type.  A linked list is its first node, so that it has
elements. -/
def Fits (h : Heap) : Ty → Val → Prop
  | .num, v => ∃ n, v = .num n
  | .raw _, v => v = .null ∨ ∃ p, v = .ptr p ∧ p < h.length
  | .ptr .weak _, v => v = .null ∨ ∃ p, v = .ptr p ∧ p < h.length
  | .ptr _ t, v => v = .null ∨ ∃ p x n, v = .ptr p ∧ h[p]? = some ⟨.cell x, n⟩ ∧ Fits h t x
  | .pair a b, v => ∃ x y, v = .pair x y ∧ Fits h a x ∧ Fits h b y
  | .str, v => (∃ w, v = .num w) ∨ ∃ p s n, v = .ptr p ∧ h[p]? = some ⟨.text s, n⟩
  | .cont k e, v => v = .null ∨ ∃ p xs n, v = .ptr p ∧ h[p]? = some ⟨.seq xs, n⟩ ∧ (k = .linked → xs ≠ []) ∧ ∀ x ∈ xs, Fits h e x

/-- The target of a pointer, whether it is freed or not. -/
def target (h : Heap) (p : Nat) : Val :=
  match h[p]? with
  | some ⟨.cell x, _⟩ => x
  | _ => .null

/-- The elements of a container, whether it is freed or not. -/
def elements (h : Heap) (p : Nat) : List Val :=
  match h[p]? with
  | some ⟨.seq xs, _⟩ => xs
  | _ => []

/-- The characters of a string, whether it is freed or not. -/
def characters (h : Heap) (p : Nat) : Nat :=
  match h[p]? with
  | some ⟨.text s, _⟩ => s
  | _ => 0

/-- The data. -/
def content (h : Heap) : Ty → Val → Tree
  | .num, .num n => .num n
  | .str, .num n => .num n
  | .str, .ptr p => .text (characters h p)
  | .raw _, .ptr p => .address p
  | .ptr o t, .ptr p => if o = .weak then .address p else .owned (content h t (target h p))
  | .pair a b, .pair x y => .pair (content h a x) (content h b y)
  | .cont _ e, .ptr p => .seq ((elements h p).map (content h e))
  | _, _ => .null

/-- The references that the data holds: one for every pointer that owns or retains, every string that is not tagged, every
container, at every depth. -/
def held (h : Heap) : Ty → Val → List Nat
  | .raw true, .ptr p => [p]
  | .ptr o t, .ptr p => if o = .weak then [] else p :: held h t (target h p)
  | .pair a b, .pair x y => held h a x ++ held h b y
  | .str, .ptr p => [p]
  | .cont _ e, .ptr p => p :: (elements h p).flatMap (held h e)
  | _, _ => []

/-- The pointers, of whichever kind, which a place has itself, not by way of a container. -/
def direct : Ty → Val → List Nat
  | .raw _, .ptr p => [p]
  | .ptr _ _, .ptr p => [p]
  | .pair a b, .pair x y => direct a x ++ direct b y
  | _, _ => []

/-- The pointers that elements of containers have, in all containers of the data. -/
def inElements (h : Heap) : Ty → Val → List Nat
  | .ptr o t, .ptr p => if o = .weak then [] else inElements h t (target h p)
  | .pair a b, .pair x y => inElements h a x ++ inElements h b y
  | .cont _ e, .ptr p => (elements h p).flatMap fun x => direct e x ++ inElements h e x
  | _, _ => []

/-- No element of the type has a pointer itself. -/
def NoPointer : Ty → Prop
  | .raw _ => False
  | .ptr _ _ => False
  | .pair a b => NoPointer a ∧ NoPointer b
  | _ => True

/-- The elements of the containers in the type are numbers, strings, containers, and structures of these. -/
def Simple : Ty → Prop
  | .ptr .weak _ => True
  | .ptr _ t => Simple t
  | .pair a b => Simple a ∧ Simple b
  | .cont _ e => NoPointer e ∧ Simple e
  | _ => True

/-- No array in the data is empty. -/
def NoEmptyArray (h : Heap) : Ty → Val → Prop
  | .ptr o t, .ptr p => o = .weak ∨ NoEmptyArray h t (target h p)
  | .pair a b, .pair x y => NoEmptyArray h a x ∧ NoEmptyArray h b y
  | .cont k e, .ptr p => (k = .array → elements h p ≠ []) ∧ ∀ x ∈ elements h p, NoEmptyArray h e x
  | _, _ => True

/-- Everything that the data holds has not been freed. -/
def Alive (h : Heap) (t : Ty) (v : Val) : Prop := ∀ p ∈ held h t v, 0 < count h p

/-- The second memory has what the first one has, and maybe more. -/
def Extends (h h' : Heap) : Prop := ∀ (p : Nat) (o : Obj), h[p]? = some o → ∃ n, h'[p]? = some ⟨o.body, n⟩

end Verif.CopyCont
