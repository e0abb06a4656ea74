import Verif.ImplChoice
/-!
# Model of the weight of the fast array: `CommonC/CollectionFastArray.c`

The fast array is a table of the library that is not among those registered at program start; `Verif.ImplChoice` has the registry
and the choice.
-/
namespace Verif.FastArrayChoice
open Verif.ImplChoice

/-- The fast hints of the fast array (CollectionFastArray.c:98-104). -/
def fastArrayFast : Hint :=
  heavyEnumerating ||| heavyInserting ||| constantLength ||| constantElements ||| ordered ||| heavyReplacing ||| heavyAppending
/-- The moderate hints of the fast array (CollectionFastArray.c:105). -/
def fastArrayModerate : Hint := heavyDeleting
/-- The slow hints of the fast array (CollectionFastArray.c:106-109). -/
def fastArraySlow : Hint := heavyFinding ||| heavyPrepending ||| heavySorting ||| heavyInsertingOrdered
/-- `CCCollectionFastArrayInterface` (CollectionFastArray.c:65-80) with `CCCollectionFastArrayHintWeight` (95-110). -/
def fastArrayTable : Interface := ⟨fun hint => weightCreate hint fastArrayFast fastArrayModerate fastArraySlow, true⟩

end Verif.FastArrayChoice
