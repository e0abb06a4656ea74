import Verif.LinkedList
import Verif.BitTricks
/-!
# Model of the choice of an implementation: `CommonC/Collection.c`, `Dictionary.c`

Implementations of collections and of dictionaries are tables of functions.  They are registered in a linked list that starts
out with static nodes for the tables the library provides; creating a collection or dictionary without naming an implementation
asks every registered table for a weight and takes the one with the greatest.

The two files contain the same code apart from names, the tables provided and the ordered check; `Kind` tells them apart.  Tables
are identified by their address (a number), their contents are given by `env`.  The nodes of the linked list are those of
`Verif.LinkedList`.  `none` is undefined behaviour or a failed assertion.
-/
namespace Verif.ImplChoice
open Verif.LinkedList (Heap upd nextOf prevOf createNode insert removeNode free)

/-- `CCCollectionHint`, `CCOrderedCollectionHint` (CollectionTypes.h:35-81) and `CCDictionaryHint` (DictionaryInterface.h:53-77). -/
abbrev Hint := BitVec 32

/-- `CCCollectionHintHeavyEnumerating` (CollectionTypes.h:39), `CCDictionaryHintHeavyEnumerating` (DictionaryInterface.h:57). -/
def heavyEnumerating : Hint := 1#32 <<< 0
/-- `CCCollectionHintHeavyFinding` (CollectionTypes.h:41), `CCDictionaryHintHeavyFinding` (DictionaryInterface.h:59). -/
def heavyFinding : Hint := 1#32 <<< 1
/-- `CCCollectionHintHeavyInserting` (CollectionTypes.h:43), `CCDictionaryHintHeavyInserting` (DictionaryInterface.h:61). -/
def heavyInserting : Hint := 1#32 <<< 2
/-- `CCCollectionHintHeavyDeleting` (CollectionTypes.h:45), `CCDictionaryHintHeavyDeleting` (DictionaryInterface.h:63). -/
def heavyDeleting : Hint := 1#32 <<< 3
/-- `CCCollectionHintConstantLength` (CollectionTypes.h:47), `CCDictionaryHintConstantLength` (DictionaryInterface.h:65). -/
def constantLength : Hint := 1#32 <<< 4
/-- `CCCollectionHintConstantElements` (CollectionTypes.h:49), `CCDictionaryHintConstantElements` (DictionaryInterface.h:67). -/
def constantElements : Hint := 1#32 <<< 5
/-- `CCCollectionHintOrdered` (CollectionTypes.h:51). -/
def ordered : Hint := 1#32 <<< 6
/-- `CCOrderedCollectionHintHeavyReplacing` (CollectionTypes.h:72). -/
def heavyReplacing : Hint := 1#32 <<< 8 ||| ordered
/-- `CCOrderedCollectionHintHeavyAppending` (CollectionTypes.h:74). -/
def heavyAppending : Hint := 1#32 <<< 9 ||| ordered
/-- `CCOrderedCollectionHintHeavyPrepending` (CollectionTypes.h:76). -/
def heavyPrepending : Hint := 1#32 <<< 10 ||| ordered
/-- `CCOrderedCollectionHintHeavySorting` (CollectionTypes.h:78). -/
def heavySorting : Hint := 1#32 <<< 11 ||| ordered
/-- `CCOrderedCollectionHintHeavyInserting` (CollectionTypes.h:80). -/
def heavyInsertingOrdered : Hint := 1#32 <<< 12 ||| heavyInserting ||| ordered
/-- `CCCollectionHintSizeMask` (CollectionTypes.h:54), `CCDictionaryHintSizeMask` (DictionaryInterface.h:70). -/
def sizeMask : Hint := 0xc0000000#32

/-- `INT_MIN`. -/
def intMin : Int := -2147483648
/-- `INT_MAX`. -/
def intMax : Int := 2147483647

/-- The result of a calculation with `int`: out of range is undefined behaviour. -/
def cint (x : Int) : Option Int := if intMin ≤ x ∧ x ≤ intMax then some x else none

/-- `CCCollectionHintWeightMax` (Collection.c:52) and `CCDictionaryHintWeightMax` (Dictionary.c:46). -/
def weightMax : Int := 30000

/-- The bits of a hint counted by `CCBitCountSet`, the argument widened to 64 bits and the result cast to `int`. -/
def count (x : Hint) : Int := ((BitTricks.countSet (x.setWidth 64)).toNat : Int)

/-- `CCCollectionHintWeightCreate` (Collection.c:54-64) and `CCDictionaryHintWeightCreate` (Dictionary.c:48-59). -/
def weightCreate (hint fast moderate slow : Hint) : Option Int := do
  let size ← ([10, 1, 100, 0] : List Int)[((hint &&& sizeMask) >>> 30).toNat]?
  let hint := hint &&& ~~~sizeMask
  let fast := fast &&& hint
  let moderate := moderate &&& hint
  let slow := slow &&& hint
  let a ← cint (count fast * 10)
  let a ← cint (a * size)
  let b ← cint (count moderate * -1)
  let b ← cint (b * size)
  let c ← cint (count slow * -100)
  let c ← cint (c * size)
  cint ((← cint (a + b)) + c)

/-- The members of `CCCollectionInterface` (CollectionInterface.h:293-312) and `CCDictionaryInterface` (DictionaryInterface.h:327-349)
that the choice looks at: the weight function and whether there is an `optional.ordered` table. -/
structure Interface where
  weight : Hint → Option Int
  ordered : Bool

/-- The fast hints of the array (CollectionArray.c:165-171). -/
def arrayFast : Hint :=
  heavyEnumerating ||| heavyInserting ||| constantLength ||| constantElements ||| ordered ||| heavyReplacing ||| heavyAppending
/-- The slow hints of the array (CollectionArray.c:173-177). -/
def arraySlow : Hint := heavyFinding ||| heavyDeleting ||| heavyPrepending ||| heavySorting ||| heavyInsertingOrdered
/-- `CCCollectionArrayInterface` (CollectionArray.c:73-86) with `CCCollectionArrayHintWeight` (162-178). -/
def arrayTable : Interface := ⟨fun hint => weightCreate hint arrayFast 0 arraySlow, true⟩

/-- The fast hints of the list (CollectionList.c:89-94). -/
def listFast : Hint :=
  heavyInserting ||| constantLength ||| constantElements ||| heavyReplacing ||| heavyAppending ||| heavyPrepending
/-- The moderate hints of the list (CollectionList.c:95-97). -/
def listModerate : Hint := heavyEnumerating ||| heavyDeleting ||| heavyInsertingOrdered
/-- The slow hints of the list (CollectionList.c:98-100). -/
def listSlow : Hint := ordered ||| heavyFinding ||| heavySorting
/-- `CCCollectionListInterface` (CollectionList.c:68-81) with `CCCollectionListHintWeight` (86-101). -/
def listTable : Interface := ⟨fun hint => weightCreate hint listFast listModerate listSlow, true⟩

/-- The fast hints of the hash map (DictionaryHashMap.c:87-91). -/
def hashMapFast : Hint := heavyFinding ||| heavyInserting ||| constantLength ||| constantElements ||| heavyDeleting
/-- `CCDictionaryHashMapInterface` (DictionaryHashMap.c:46-66) with `CCDictionaryHashMapHintWeight` (84-94). -/
def hashMapTable : Interface := ⟨fun hint => weightCreate hint hashMapFast heavyEnumerating 0, false⟩

/-- Collections or dictionaries. -/
inductive Kind where
  | collection
  | dictionary
deriving DecidableEq, Repr

/-- The tables `InternalInterfaces` points to (Collection.c:67-70, Dictionary.c:61-63), first to last; their addresses are 0 and 1. -/
def builtinTables : Kind → List Interface
  | .collection => [arrayTable, listTable]
  | .dictionary => [hashMapTable]

/-- The variable `Interfaces`, the nodes (`CCCollectionInterfaceNode`, Collection.c:41-44, `CCDictionaryInterfaceNode`,
Dictionary.c:35-38) with the address of the table in each, and which of them are static: the header in front of those says
allocator -1. -/
structure Registry where
  heap : Heap
  data : Nat → Nat
  builtin : Nat → Bool
  list : Option Nat

/-- The static nodes and `Interfaces` (Collection.c:67-71, Dictionary.c:61-64). -/
def init : Kind → Registry
  | .collection => ⟨⟨2, fun _ => false, fun x => if x = 0 then some 1 else none, fun x => if x = 1 then some 0 else none⟩, id,
      fun x => decide (x < 2), some 0⟩
  | .dictionary => ⟨⟨1, fun _ => false, fun _ => none, fun _ => none⟩, id, fun x => decide (x < 1), some 0⟩

/-- `CCCollectionRegisterInterface` (Collection.c:72-91), `CCDictionaryRegisterInterface` (Dictionary.c:65-84).  `memory`: the
allocation of the node succeeds. -/
def register (r : Registry) (interface : Option Nat) (memory : Bool) : Option Registry := do
  let i ← interface
  if memory then
    let (h, node) := createNode r.heap
    let r := { r with heap := h, data := fun x => if x = node then i else r.data x }
    match r.list with
    | some l => do
      let (h, l) ← insert r.heap l node
      return { r with heap := h, list := some l }
    | none => return { r with list := some node }
  else return r

/-- `CCFree` of a node: `CCMemoryDeallocate` (Allocator.c:632-639) returns at once for memory whose header says allocator -1. -/
def release (r : Registry) (node : Nat) : Option Registry :=
  if r.builtin node then if r.heap.live node then some r else none
  else do return { r with heap := ← free r.heap node }

/-- `CCLinkedListDestroyNode` (LinkedList.c:47-53) on a node of the registry. -/
def destroyNode (r : Registry) (node : Nat) : Option Registry := do
  release { r with heap := ← removeNode r.heap node } node

/-- The loop of `CCCollectionDeregisterInterface` (Collection.c:95-107), of `CCDictionaryDeregisterInterface` (Dictionary.c:88-100).
The number of iterations is bounded by the number of nodes; running out (an endless loop) is `none`. -/
def deregisterLoop (r : Registry) (interface : Option Nat) : Nat → Option Nat → Option Registry
  | _, none => some r
  | 0, some _ => none
  | fuel + 1, some node =>
    if r.heap.live node then
      if some (r.data node) = interface then do
        let r' ← match ← prevOf r.heap node with
          | none => do pure { r with list := ← nextOf r.heap node }
          | some _ => pure r
        destroyNode r' node
      else do deregisterLoop r interface fuel (← nextOf r.heap node)
    else none

/-- `CCCollectionDeregisterInterface` (Collection.c:93-108), `CCDictionaryDeregisterInterface` (Dictionary.c:86-101). -/
def deregister (r : Registry) (interface : Option Nat) : Option Registry := deregisterLoop r interface r.heap.size r.list

/-- The loop of `CCCollectionCreate` (Collection.c:116-124) and, with `needOrdered` false, of `CCDictionaryCreate`
(Dictionary.c:108-116): the best table so far and its weight. -/
def bestLoop (env : Nat → Interface) (r : Registry) (hint : Hint) (needOrdered : Bool) :
    Nat → Option Nat → Int → Option Nat → Option (Option Nat)
  | _, none, _, best => some best
  | 0, some _, _, _ => none
  | fuel + 1, some node, weight, best => do
    let next ← nextOf r.heap node
    let new ← (env (r.data node)).weight hint
    if new > weight ∧ (needOrdered = false ∨ (env (r.data node)).ordered = true) then
      bestLoop env r hint needOrdered fuel next new (some (r.data node))
    else bestLoop env r hint needOrdered fuel next weight best

/-- `CCCollectionCreate` (Collection.c:110-127), `CCDictionaryCreate` (Dictionary.c:103-119), up to the assertions of
`CCCollectionCreateWithImplementation` (Collection.c:147-148) and `CCDictionaryCreateWithImplementation` (Dictionary.c:147): the table
the collection or dictionary is created with. -/
def create (kind : Kind) (env : Nat → Interface) (r : Registry) (hint : Hint) : Option Nat := do
  let needOrdered := match kind with
    | .collection => decide (hint &&& ordered ≠ 0)
    | .dictionary => false
  let best ← (← bestLoop env r hint needOrdered r.heap.size r.list intMin none)
  if needOrdered ∧ (env best).ordered = false then none else some best

/-- The calls that change the registry. -/
inductive Call where
  | register (interface : Option Nat) (memory : Bool)
  | deregister (interface : Option Nat)
deriving Repr

/-- One call. -/
def step (r : Registry) : Call → Option Registry
  | .register i m => register r i m
  | .deregister i => deregister r i

/-- A history of calls from program start. -/
def run (kind : Kind) (calls : List Call) : Option Registry := calls.foldlM step (init kind)

end Verif.ImplChoice
