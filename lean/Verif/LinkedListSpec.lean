import Verif.LinkedList
/-!
# Specification of CCLinkedList and CCQueue: chains are mathematical lists
-/
namespace Verif.LinkedList.Spec
open Verif.LinkedList

/-- The nodes of `c`, in this order, form one complete doubly linked chain of the heap: every node is usable, its previous
pointer is the element before it (NULL for the first) and its next pointer the element after it (NULL for the last). -/
def IsChain (h : Heap) (c : List Nat) : Prop :=
  ∀ before x after, c = before ++ x :: after →
    h.live x = true ∧ h.prev x = before.getLast? ∧ h.next x = after.head?

/-- The heap consists of exactly the chains `cs`: all are well formed and non-empty, no node occurs twice, and every
usable node is in one of them. -/
structure Consists (h : Heap) (cs : List (List Nat)) : Prop where
  chains : ∀ c ∈ cs, c ≠ [] ∧ IsChain h c
  nodup : cs.flatten.Nodup
  all : ∀ x, h.live x = true → x ∈ cs.flatten

/-- Add a chain unless it is empty. -/
def add (c : List Nat) (cs : List (List Nat)) : List (List Nat) := if c = [] then cs else c :: cs

/-- The edit on mathematical lists each call stands for.  `fresh` is the identity of a node created by the call.
`Edit fresh cs op cs' r`: on the chains `cs` the call turns them into `cs'` and returns `r`. -/
inductive Edit (fresh : Nat) : List (List Nat) → Op → List (List Nat) → Option Nat → Prop
  | create (cs) : Edit fresh cs .create ([fresh] :: cs) (some fresh)
  | insertAfter (cs rest : List (List Nat)) (a b c : List Nat) (l n : Nat) :
      cs.Perm ((a ++ l :: b) :: c :: rest) → n ∈ c →
      Edit fresh cs (.insertAfter l n) ((a ++ l :: (c ++ b)) :: rest) (some l)
  | insertBefore (cs rest : List (List Nat)) (a b c : List Nat) (l n : Nat) :
      cs.Perm ((a ++ l :: b) :: c :: rest) → n ∈ c →
      Edit fresh cs (.insertBefore l n) ((a ++ (c ++ l :: b)) :: rest) (some n)
  /-- `insert` may choose the side: directly before or directly after `l`; it returns `n` or `l` accordingly. -/
  | insertB (cs rest : List (List Nat)) (a b c : List Nat) (l n : Nat) :
      cs.Perm ((a ++ l :: b) :: c :: rest) → n ∈ c →
      (a = [] ∧ (c.getLast? = some n ∨ b ≠ [] ∨ c.head? ≠ some n)) →
      Edit fresh cs (.insert l n) ((a ++ (c ++ l :: b)) :: rest) (some n)
  | insertA (cs rest : List (List Nat)) (a b c : List Nat) (l n : Nat) :
      cs.Perm ((a ++ l :: b) :: c :: rest) → n ∈ c →
      ¬ (a = [] ∧ (c.getLast? = some n ∨ b ≠ [] ∨ c.head? ≠ some n)) →
      Edit fresh cs (.insert l n) ((a ++ l :: (c ++ b)) :: rest) (some l)
  | append (cs rest : List (List Nat)) (a c : List Nat) (l n : Nat) :
      cs.Perm (a :: c :: rest) → l ∈ a → n ∈ c → Edit fresh cs (.append l n) ((a ++ c) :: rest) (some n)
  | prepend (cs rest : List (List Nat)) (a c : List Nat) (l n : Nat) :
      cs.Perm (a :: c :: rest) → l ∈ a → n ∈ c → Edit fresh cs (.prepend l n) ((c ++ a) :: rest) (some n)
  | removeNode (cs rest : List (List Nat)) (a b : List Nat) (n : Nat) :
      cs.Perm ((a ++ n :: b) :: rest) → Edit fresh cs (.removeNode n) ([n] :: add (a ++ b) rest) none
  | remove (cs rest : List (List Nat)) (a m b : List Nat) (s e : Nat) :
      cs.Perm ((a ++ m ++ b) :: rest) → m.head? = some s → m.getLast? = some e →
      Edit fresh cs (.remove s e) (m :: add (a ++ b) rest) none
  | destroyNode (cs rest : List (List Nat)) (a b : List Nat) (n : Nat) :
      cs.Perm ((a ++ n :: b) :: rest) → Edit fresh cs (.destroyNode n) (add (a ++ b) rest) none
  /-- Destroying a list frees the given node and everything after it; what comes before stays a chain. -/
  | destroy (cs rest : List (List Nat)) (a b : List Nat) (n : Nat) :
      cs.Perm ((a ++ n :: b) :: rest) → Edit fresh cs (.destroy n) (add a rest) none

/-- All pairs (heap, chains) produced by a history of API calls from program start, each call being one that has a
meaning on the chains. -/
inductive History : Heap → List (List Nat) → Prop
  | start : History .empty []
  | call (h : Heap) (cs : List (List Nat)) (op : Op) (cs' : List (List Nat)) (r : Option Nat) (h' : Heap) (r' : Option Nat) :
      History h cs → Edit h.size cs op cs' r → step h op = some (h', r') → History h' cs'

/-- A history of one queue: `loose` are created nodes not in the queue, `pushed`/`popped` the nodes pushed and returned by
pop so far, in order of the calls. -/
inductive QHistory : Heap → Queue → (loose pushed popped : List Nat) → Prop
  | start : QHistory .empty qCreate [] [] []
  | create (h q loose pushed popped) :
      QHistory h q loose pushed popped → QHistory (createNode h).1 q ((createNode h).2 :: loose) pushed popped
  | push (h q loose pushed popped n h' q') :
      QHistory h q loose pushed popped → n ∈ loose → qPush h q n = some (h', q') →
      QHistory h' q' (loose.erase n) (pushed ++ [n]) popped
  | pop (h q loose pushed popped n h' q') :
      QHistory h q loose pushed popped → qPop h q = some (h', q', some n) → QHistory h' q' (n :: loose) pushed (popped ++ [n])
  | popEmpty (h q loose pushed popped h' q') :
      QHistory h q loose pushed popped → qPop h q = some (h', q', none) → QHistory h' q' loose pushed popped

end Verif.LinkedList.Spec
