/-!
# Model of `CommonC/LinkedList.c`, `LinkedList.h` (CCLinkedList) and `CommonC/Queue.c` (CCQueue)

Nodes are natural numbers, handed out in order of creation.  The node payload (`data`) is not touched by any of these functions
and is left out.  Every dereference checks that the node exists and has not been freed; otherwise the
result is `none` (undefined behaviour).  The head/tail searches are loops; the model gives them as many iterations as there are
nodes, running out (a cyclic chain, i.e. an endless loop in C) is also `none`.  Node allocation failure is not modelled.
-/
namespace Verif.LinkedList

/-- All nodes ever created: `CCLinkedListNode` (LinkedList.h:41-45) has a `next` and a `prev` pointer. -/
structure Heap where
  size : Nat
  freed : Nat → Bool
  next : Nat → Option Nat
  prev : Nat → Option Nat

/-- The program start: no nodes. -/
def Heap.empty : Heap := ⟨0, fun _ => false, fun _ => none, fun _ => none⟩

/-- The node may be dereferenced. -/
def Heap.live (h : Heap) (x : Nat) : Bool := decide (x < h.size) && !h.freed x

/-- Point update of a pointer field. -/
def upd (f : Nat → Option Nat) (x : Nat) (v : Option Nat) : Nat → Option Nat := fun y => if y = x then v else f y

/-- Read `x->next`. -/
def nextOf (h : Heap) (x : Nat) : Option (Option Nat) := if h.live x then some (h.next x) else none
/-- Read `x->prev`. -/
def prevOf (h : Heap) (x : Nat) : Option (Option Nat) := if h.live x then some (h.prev x) else none
/-- Write `x->next = v`. -/
def setNext (h : Heap) (x : Nat) (v : Option Nat) : Option Heap :=
  if h.live x then some { h with next := upd h.next x v } else none
/-- Write `x->prev = v`. -/
def setPrev (h : Heap) (x : Nat) (v : Option Nat) : Option Heap :=
  if h.live x then some { h with prev := upd h.prev x v } else none

/-- `CCLinkedListCreateNode` (LinkedList.c:33-45). -/
def createNode (h : Heap) : Heap × Nat :=
  ({ h with size := h.size + 1, next := upd h.next h.size none, prev := upd h.prev h.size none }, h.size)

/-- Loop of `CCLinkedListGetHead` (LinkedList.h:331-337). -/
def headLoop (h : Heap) : Nat → Nat → Option Nat
  | 0, _ => none
  | fuel + 1, x => do
    match ← prevOf h x with
    | none => return x
    | some y => headLoop h fuel y

/-- Loop of `CCLinkedListGetTail` (LinkedList.h:339-345). -/
def tailLoop (h : Heap) : Nat → Nat → Option Nat
  | 0, _ => none
  | fuel + 1, x => do
    match ← nextOf h x with
    | none => return x
    | some y => tailLoop h fuel y

/-- `CCLinkedListGetHead` (LinkedList.h:331-337). -/
def getHead (h : Heap) (x : Nat) : Option Nat := headLoop h h.size x
/-- `CCLinkedListGetTail` (LinkedList.h:339-345). -/
def getTail (h : Heap) (x : Nat) : Option Nat := tailLoop h h.size x

/-- `CCLinkedListInsertAfter` (LinkedList.c:93-117). -/
def insertAfter (h : Heap) (list node : Nat) : Option (Heap × Nat) := do
  match ← nextOf h list with
  | none =>
    let head ← getHead h node
    let h ← setNext h list (some head)
    let h ← setPrev h head (some list)
    return (h, list)
  | some next =>
    let head ← getHead h node
    let tail ← getTail h node
    let h ← setNext h list (some head)
    let h ← setPrev h next (some tail)
    let h ← setPrev h head (some list)
    let h ← setNext h tail (some next)
    return (h, list)

/-- `CCLinkedListInsertBefore` (LinkedList.c:119-143). -/
def insertBefore (h : Heap) (list node : Nat) : Option (Heap × Nat) := do
  match ← prevOf h list with
  | none =>
    let tail ← getTail h node
    let h ← setPrev h list (some tail)
    let h ← setNext h tail (some list)
    return (h, node)
  | some prev =>
    let head ← getHead h node
    let tail ← getTail h node
    let h ← setPrev h list (some tail)
    let h ← setNext h prev (some head)
    let h ← setPrev h head (some prev)
    let h ← setNext h tail (some list)
    return (h, node)

/-- `CCLinkedListInsert` (LinkedList.c:67-91). -/
def insert (h : Heap) (list node : Nat) : Option (Heap × Nat) := do
  let lp ← prevOf h list
  let ln ← nextOf h list
  let np ← prevOf h node
  let nn ← nextOf h node
  if lp = none ∧ nn = none then
    let h ← setPrev h list (some node)
    let h ← setNext h node (some list)
    return (h, node)
  else if ln = none ∧ np = none then
    let h ← setNext h list (some node)
    let h ← setPrev h node (some list)
    return (h, list)
  else if lp = none then insertBefore h list node
  else insertAfter h list node

/-- The branch of `CCLinkedListAppend` (LinkedList.c:151-155) / of `CCLinkedListPrepend` (168-172) that links `last` and `first`. -/
def link (h : Heap) (last first : Nat) : Option Heap := do
  let h ← setNext h last (some first)
  setPrev h first (some last)

/-- `CCLinkedListAppend` (LinkedList.c:145-160).  When `node` has a previous node the C code calls
`CCLinkedListPrepend(Node, Last)` (162-177); `Last` is a tail, so that call takes its first branch, linking `Last` to the head of `Node`;
were it not a tail the two functions would call each other on a cyclic heap, which is `none` here. -/
def append (h : Heap) (list node : Nat) : Option (Heap × Nat) := do
  let last ← getTail h list
  match ← prevOf h node with
  | none =>
    let h ← setNext h last (some node)
    let h ← setPrev h node (some last)
    return (h, node)
  | some _ =>
    let head ← getHead h node
    match ← nextOf h last with
    | none =>
      let h ← setPrev h head (some last)
      let h ← setNext h last (some head)
      return (h, node)
    | some _ => none

/-- `CCLinkedListPrepend` (LinkedList.c:162-177); the nested call is `CCLinkedListAppend(Node, Head)`. -/
def prepend (h : Heap) (list node : Nat) : Option (Heap × Nat) := do
  let head ← getHead h list
  match ← nextOf h node with
  | none =>
    let h ← setPrev h head (some node)
    let h ← setNext h node (some head)
    return (h, node)
  | some _ =>
    let last ← getTail h node
    match ← prevOf h head with
    | none =>
      let h ← setNext h last (some head)
      let h ← setPrev h head (some last)
      return (h, node)
    | some _ => none

/-- `CCLinkedListRemove` (LinkedList.c:190-199). -/
def remove (h : Heap) (start stop : Nat) : Option Heap := do
  let h ← match ← prevOf h start with
    | none => some h
    | some p => do setNext h p (← nextOf h stop)
  let h ← match ← nextOf h stop with
    | none => some h
    | some n => do setPrev h n (← prevOf h start)
  let h ← setPrev h start none
  setNext h stop none

/-- `CCLinkedListRemoveNode` (LinkedList.c:179-188). -/
def removeNode (h : Heap) (node : Nat) : Option Heap := do
  let h ← match ← prevOf h node with
    | none => some h
    | some p => do setNext h p (← nextOf h node)
  let h ← match ← nextOf h node with
    | none => some h
    | some n => do setPrev h n (← prevOf h node)
  let h ← setPrev h node none
  setNext h node none

/-- `CCFree` of a node: it must be live, afterwards it is not. -/
def free (h : Heap) (x : Nat) : Option Heap :=
  if h.live x then some { h with freed := fun y => if y = x then true else h.freed y } else none

/-- `CCLinkedListDestroyNode` (LinkedList.c:47-53). -/
def destroyNode (h : Heap) (node : Nat) : Option Heap := do
  let h ← removeNode h node
  free h node

/-- Loop of `CCLinkedListDestroy` (LinkedList.c:55-65). -/
def destroyLoop : Nat → Heap → Option Nat → Option Heap
  | _, h, none => some h
  | 0, _, some _ => none
  | fuel + 1, h, some n => do
    let nxt ← nextOf h n
    let h ← destroyNode h n
    destroyLoop fuel h nxt

/-- `CCLinkedListDestroy` (LinkedList.c:55-65). -/
def destroy (h : Heap) (list : Nat) : Option Heap := destroyLoop h.size h (some list)

/-- The API calls that change chains. -/
inductive Op where
  | create
  | insert (list node : Nat)
  | insertAfter (list node : Nat)
  | insertBefore (list node : Nat)
  | append (list node : Nat)
  | prepend (list node : Nat)
  | removeNode (node : Nat)
  | remove (start stop : Nat)
  | destroyNode (node : Nat)
  | destroy (list : Nat)

/-- One API call; the second component is the returned node, if the function returns one. -/
def step (h : Heap) : Op → Option (Heap × Option Nat)
  | .create => some ((createNode h).1, some (createNode h).2)
  | .insert l n => (insert h l n).map fun (h, r) => (h, some r)
  | .insertAfter l n => (insertAfter h l n).map fun (h, r) => (h, some r)
  | .insertBefore l n => (insertBefore h l n).map fun (h, r) => (h, some r)
  | .append l n => (append h l n).map fun (h, r) => (h, some r)
  | .prepend l n => (prepend h l n).map fun (h, r) => (h, some r)
  | .removeNode n => (removeNode h n).map fun h => (h, none)
  | .remove s e => (remove h s e).map fun h => (h, none)
  | .destroyNode n => (destroyNode h n).map fun h => (h, none)
  | .destroy l => (destroy h l).map fun h => (h, none)

/-! ## CCQueue -/

/-- `CCQueueInfo` (Queue.c:31-35). -/
structure Queue where
  head : Option Nat
  tail : Option Nat
  count : Nat

/-- `CCQueueCreate` (Queue.c:42-56). -/
def qCreate : Queue := ⟨none, none, 0⟩

/-- `CCQueuePush` (Queue.c:65-74). -/
def qPush (h : Heap) (q : Queue) (node : Nat) : Option (Heap × Queue) := do
  let (h, head) ← match q.head with
    | none => some (h, node)
    | some hd => insertBefore h hd node
  let tail := match q.tail with
    | none => some head
    | some t => some t
  return (h, ⟨some head, tail, q.count + 1⟩)

/-- `CCQueuePop` (Queue.c:76-92). -/
def qPop (h : Heap) (q : Queue) : Option (Heap × Queue × Option Nat) := do
  match q.tail with
  | none => return (h, q, none)
  | some t =>
    let tail ← prevOf h t
    let head := if tail = none then none else q.head
    let h ← removeNode h t
    return (h, ⟨head, tail, q.count - 1⟩, some t)

/-- `CCQueuePeek` (Queue.c:94-99). -/
def qPeek (q : Queue) : Option Nat := q.tail

/-- `CCQueueGetCount` (Queue.c:101-106). -/
def qCount (q : Queue) : Nat := q.count

end Verif.LinkedList
