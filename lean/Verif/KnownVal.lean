/-!
# Model of writing values as numbers or names (`CommonC/ReflectedTypes.h` 770-1075, `CommonC/ReflectedTypes.c` 832-920 and 1117-1345,
1639-1680, 1741-1815, 1865-1945)

Functions (destructors, comparators, hashers, mappers), interfaces and the descriptors of opaque types cannot be written to a stream as they
are.  They are written as their number in a list (or their name), and looked up in the same list when they are read.  The lists are turned
into chains of `else if` and into the cases of a `switch` by macros.

A failing assertion is `none`.  Simplified: the numbers are of an unsigned type narrower than `int` (`bits` of 8 by default), the base is not
negative; members of descriptors are values of any type `V`, which are themselves read back as they were written (see C76, C84, C100); a
descriptor is what is in its members.
-/
namespace Verif.KnownVal

/-! ## Numbers -/

/-- `CC_REFLECT_MAP_STATELESS_VALUES_WHEN` (ReflectedTypes.h 817, 830-842): the chain of `else if`, `i` being the index of the first of `known`;
what is written is converted to the type of the numbers. -/
def mapFrom {α : Type} [DecidableEq α] (bits base i : Nat) : List α → α → Option Nat
  | [], _ => none
  | k :: ks, v => if v = k then some ((i + base) % 2 ^ bits) else mapFrom bits base (i + 1) ks v

/-- `CCMemoryDestructorCallbackMapDefaults` and the other functions ending in `MapDefaults` (ReflectedTypes.c 852-869, 898-911, 1132-1161, ...). -/
def mapNumber {α : Type} [DecidableEq α] (bits base : Nat) (known : List α) (v : α) : Option Nat := mapFrom bits base 0 known v

/-- The cases of the `switch` (ReflectedTypes.h 993-996): the labels are not converted. -/
def unmapFrom {α : Type} (base i : Nat) : List α → Nat → Option α
  | [], _ => none
  | k :: ks, n => if n = i + base then some k else unmapFrom base (i + 1) ks n

/-- What a value has been mapped to, as far as the unmappers look: `CCReflectInteger` with its size in bytes, `CCReflectArray` of integers of one
byte, or something else. -/
inductive Mapped where
  | integer (size n : Nat)
  | bytes (b : List UInt8)
  | other
  deriving DecidableEq, Repr

/-- `CC_REFLECT_UNMAP_STATELESS_VALUES` (ReflectedTypes.h 998-1008) and the assertion after it. -/
def unmapNumber {α : Type} (bits base : Nat) (known : List α) : Mapped → Option α
  | .integer size n => if size = bits / 8 then unmapFrom base 0 known n else none
  | _ => none

/-! ## Names (`CC_REFLECT_VALUE_MAP_WITHOUT_NAME` 0) -/

/-- `!strncmp(a, b, n)`, `none` if it reads past the end of either. -/
def strncmp0 : Nat → List UInt8 → List UInt8 → Option Bool
  | 0, _, _ => some true
  | n + 1, a :: as, b :: bs => if a ≠ b then some false else if a = 0 then some true else strncmp0 n as bs
  | _ + 1, _, _ => none

/-- `CC_REFLECT_MAP_STATELESS_VALUE_HANDLER` with names (ReflectedTypes.h 819): an array of `sizeof(#value)` characters. -/
def mapName {α : Type} [DecidableEq α] (name : α → List UInt8) : List α → α → Option (List UInt8)
  | [], _ => none
  | k :: ks, v => if v = k then some (name k ++ [0]) else mapName name ks v

/-- `CC_REFLECT_UNMAP_STATELESS_VALUES` with names (ReflectedTypes.h 1033-1050), the array being `b` and its count the number of its bytes. -/
def unmapNames {α : Type} (name : α → List UInt8) : List α → List UInt8 → Option α
  | [], _ => none
  | k :: ks, b =>
    match strncmp0 b.length b (name k ++ [0]) with
    | none => none
    | some true => some k
    | some false => unmapNames name ks b

/-- The same with what has been read. -/
def unmapName {α : Type} (name : α → List UInt8) (known : List α) : Mapped → Option α
  | .bytes b => unmapNames name known b
  | _ => none

/-! ## The lists -/

/-- `CC_REFLECT_STATELESS_MEMORY_DESTRUCTOR_CALLBACKS` (ReflectedTypes.c 854-864). -/
def destructors : List String := ["CCStringDestroy", "CCBigIntDestroy", "CCBigIntFastDestroy", "CCArrayDestroy", "CCLinkedListDestroy",
  "CCListDestroy", "CCCollectionDestroy", "CCHashMapDestroy", "CCDictionaryDestroy", "CCQueueDestroy"]

/-- `CC_REFLECT_STATELESS_COMPARATORS` (ReflectedTypes.c 900-906). -/
def comparators : List String := ["CCStringComparatorForCollection", "CCBigIntComparatorForCollection", "CCBigIntFastComparatorForCollection",
  "CCStringComparatorForDictionary", "CCBigIntComparatorForDictionary", "CCBigIntFastComparatorForDictionary"]

/-- `CC_REFLECT_STATELESS_REFLECT_TYPE_MAPPERS` (ReflectedTypes.c 1132-1156). -/
def mappers : List String := ["VoidTypeMapper", "CCReflectTerminatedArrayMapper", "CCStringMapper", "CCBigIntMapper", "CCBigIntFastMapper",
  "AllocatorTypeMapper", "CCMemoryDestructorCallbackMapper", "CCComparatorMapper", "ReflectTypeMapper", "MapFunctionMapper", "UnmapFunctionMapper",
  "ValidationMapper", "CCReflectCCArrayMapper", "CCReflectCCLinkedListMapper", "CCReflectCCListMapper", "CCReflectCCCollectionMapper",
  "CCCollectionElementDestructorMapper", "CCReflectCCHashMapMapper", "CCHashMapKeyHasherMapper", "CCHashMapInterfaceMapper",
  "CCReflectCCDictionaryMapper", "CCDictionaryKeyHasherMapper", "CCDictionaryElementDestructorMapper", "CCReflectCCQueueMapper"]

/-- `CC_REFLECT_STATELESS_REFLECT_TYPE_UNMAPPERS` (ReflectedTypes.c 1184-1209); `ReflectTypeUnmapper` is in it twice. -/
def unmappers : List String := ["VoidTypeUnmapper", "CCReflectTerminatedArrayUnmapper", "CCStringUnmapper", "CCBigIntUnmapper",
  "CCBigIntFastUnmapper", "AllocatorTypeUnmapper", "CCMemoryDestructorCallbackUnmapper", "CCComparatorUnmapper", "ReflectTypeUnmapper",
  "MapFunctionUnmapper", "UnmapFunctionUnmapper", "ValidationUnmapper", "ReflectTypeUnmapper", "CCReflectCCArrayUnmapper",
  "CCReflectCCLinkedListUnmapper", "CCReflectCCListUnmapper", "CCReflectCCCollectionUnmapper", "CCCollectionElementDestructorUnmapper",
  "CCReflectCCHashMapUnmapper", "CCHashMapKeyHasherUnmapper", "CCHashMapInterfaceUnmapper", "CCReflectCCDictionaryUnmapper",
  "CCDictionaryKeyHasherUnmapper", "CCDictionaryElementDestructorUnmapper", "CCReflectCCQueueUnmapper"]

/-- `CC_REFLECT_STATELESS_VALIDATIONS` (ReflectedTypes.c 1328-1330). -/
def validations : List String := ["CCReflectValidateMinimum", "CCReflectValidateMaximum"]

/-- `CC_REFLECT_STATELESS_STATIC_POINTER_TYPES` (ReflectedTypes.c 1283-1292). -/
def staticPointers : List String := ["CCReflectTypeMapper", "CCReflectTypeUnmapper", "CCMemoryDestructorCallback", "CCCollectionElementDestructor",
  "CCComparator", "CCHashMapKeyHasher", "PTYPE(CCHashMapInterface, weak, static)", "CCDictionaryElementDestructor", "CCDictionaryKeyHasher"]

/-- `CC_REFLECT_STATELESS_COLLECTION_ELEMENT_DESTRUCTORS` (ReflectedTypes.c 1654-1669). -/
def collectionDestructors : List String := ["CCGenericDestructorForCollection", "CCStringDestructorForCollection", "CCDataDestructorForCollection",
  "CCArrayDestructorForCollection", "CCLinkedListDestructorForCollection", "CCListDestructorForCollection", "CCCollectionDestructorForCollection",
  "CCHashMapDestructorForCollection", "CCDictionaryDestructorForCollection", "CCQueueDestructorForCollection",
  "FSPathComponentDestructorForCollection", "FSPathDestructorForCollection", "FSHandleDestructorForCollection", "CCBigIntDestructorForCollection",
  "CCBigIntFastDestructorForCollection"]

/-- `CC_REFLECT_STATELESS_HASH_MAP_KEY_HASHERS` and `CC_REFLECT_STATELESS_DICTIONARY_KEY_HASHERS` (ReflectedTypes.c 1756-1761, 1880-1885). -/
def hashers : List String := ["CCStringHasherForDictionary", "CCBigIntHasherForDictionary", "CCBigIntFastHasherForDictionary",
  "CCBigIntLowHasherForDictionary", "CCBigIntFastLowHasherForDictionary"]

/-- `CC_REFLECT_STATELESS_HASH_MAP_INTERFACES` (ReflectedTypes.c 1795-1798). -/
def interfaces : List String := ["CCHashMapSeparateChainingArray", "CCHashMapSeparateChainingArrayDataOrientedAll",
  "CCHashMapSeparateChainingArrayDataOrientedHash"]

/-- `CC_REFLECT_STATELESS_DICTIONARY_ELEMENT_DESTRUCTORS` (ReflectedTypes.c 1915-1930). -/
def dictionaryDestructors : List String := ["CCGenericDestructorForDictionary", "CCStringDestructorForDictionary", "CCDataDestructorForDictionary",
  "CCArrayDestructorForDictionary", "CCLinkedListDestructorForDictionary", "CCListDestructorForDictionary", "CCCollectionDestructorForDictionary",
  "CCHashMapDestructorForDictionary", "CCDictionaryDestructorForDictionary", "CCQueueDestructorForDictionary",
  "FSPathComponentDestructorForDictionary", "FSPathDestructorForDictionary", "FSHandleDestructorForDictionary", "CCBigIntDestructorForDictionary",
  "CCBigIntFastDestructorForDictionary"]

/-- `CC_REFLECT_STATELESS_OPAQUE_TYPES` (ReflectedTypes.c 1242-1248). -/
def opaques : List String := ["void", "CCReflectType", "CCAllocatorType", "CCString", "CCBigInt", "CCBigIntFast"]

/-- All of them. -/
def defaults : List (List String) := [destructors, comparators, mappers, unmappers, validations, staticPointers, collectionDestructors, hashers,
  interfaces, dictionaryDestructors, opaques]

/-! ## Descriptors of opaque types -/

/-- The members of a descriptor in memory, by their names. -/
abbrev Mem (V : Type) := String → V

/-- The address of the descriptor of an opaque type: one of those of the library without state (`CC_REFLECT(CCString)` and so on), or any other. -/
inductive Ref where
  | known (name : String)
  | addr (a : Nat)
  deriving DecidableEq, Repr

/-- What the constructors of the descriptors put in their members: the mappers, `sizeof` of the value and `sizeof` of the descriptor. -/
structure World (V : Type) where
  opaqueID : V
  size : String → V
  typeSize : String → V
  mapper : String → V
  unmapper : String → V

/-- `CC_REFLECT_STATEFUL_OPAQUE_TYPES` (ReflectedTypes.c 1250-1257): the types with the names of their members. -/
def kinds : List (String × List String) := [
  ("CCArray", ["elementType", "allocator", "chunkSize"]),
  ("CCLinkedList", ["elementType", "allocator"]),
  ("CCList", ["elementType", "allocator", "chunkSize", "pageSize"]),
  ("CCCollection", ["elementType", "allocator", "hint", "elementDestructor"]),
  ("CCHashMap", ["keyType", "valueType", "allocator", "bucketCount", "hasher", "keyComparator", "interface"]),
  ("CCDictionary", ["keyType", "valueType", "allocator", "hint", "callbacks"]),
  ("CCQueue", ["elementType", "allocator"])]

/-- The members the arguments of the constructors `CC_REFLECT_CCArray`, ... are put in, in the order of the arguments (ReflectedTypes.h 620, 633, 648,
663, 695, 729, 768). -/
def params : String → List String
  | "CCArray" => ["elementType", "allocator", "chunkSize"]
  | "CCLinkedList" => ["elementType", "allocator"]
  | "CCList" => ["elementType", "allocator", "chunkSize", "pageSize"]
  | "CCCollection" => ["elementType", "allocator", "hint", "elementDestructor"]
  | "CCHashMap" => ["keyType", "valueType", "allocator", "bucketCount", "hasher", "keyComparator", "interface"]
  | "CCDictionary" => ["keyType", "valueType", "allocator", "hint", "callbacks"]
  | "CCQueue" => ["elementType", "allocator"]
  | _ => []

/-- The argument for the member `m`. -/
def argument {V : Type} : List String → List V → String → Option V
  | p :: ps, a :: as, m => if m = p then some a else argument ps as m
  | _, _, _ => none

/-- `CC_REFLECT_CCArray(...)` and so on with `CC_REFLECT_OPAQUE` (Reflect.h 193); members the descriptor does not have are `d`. -/
def construct {V : Type} (w : World V) (d : V) (kind : String) (args : List V) : Mem V := fun m =>
  if m = "id" then w.opaqueID
  else if m = "size" then w.size kind
  else if m = "typeSize" then w.typeSize kind
  else if m = "map" then w.mapper kind
  else if m = "unmap" then w.unmapper kind
  else (argument (params kind) args m).getD d

/-- What the descriptor of an opaque type is mapped to: the number of one without state, or the number of the kind with the members
(`CC_REFLECT_MAP_STATEFUL_VALUE_HANDLER`, ReflectedTypes.h 882-896). -/
inductive MappedOpaque (V : Type) where
  | stateless (n : Nat)
  | stateful (n : Nat) (members : List V)
  deriving DecidableEq, Repr

/-- `CC_REFLECT_MAP_STATEFUL_VALUES_WHEN(CC_REFLECT_VALUE_IS_OPAQUE, ...)` (ReflectedTypes.h 806, 907-921). -/
def mapStateful {V : Type} [DecidableEq V] (w : World V) (t : Mem V) (i : Nat) : List (String × List String) → Option (MappedOpaque V)
  | [] => none
  | (kind, members) :: ks =>
    if t "map" = w.mapper kind ∧ t "unmap" = w.unmapper kind then some (.stateful (i % 2 ^ 8) (members.map t)) else mapStateful w t (i + 1) ks

/-- `CCReflectOpaqueTypeDescriptorMapDefaults` (ReflectedTypes.c 1230-1262), the descriptor at `r` being `t`. -/
def mapOpaque {V : Type} [DecidableEq V] (w : World V) (r : Ref) (t : Mem V) : Option (MappedOpaque V) :=
  match mapNumber 8 0 (opaques.map Ref.known) r with
  | some n => some (.stateless n)
  | none => mapStateful w t 0 kinds

/-- `CCReflectCopy` of a struct with the members `ms` (Reflect.c 896-901): what is not in `ms` is left. -/
def copyMembers {V : Type} (ms : List String) (src dest : Mem V) : Mem V := fun m => if m ∈ ms then src m else dest m

/-- The members of `CC_REFLECT(CCReflectOpaque)` (ReflectedTypes.c 1222-1228). -/
def opaqueMembers : List String := ["id", "size", "typeSize", "map", "unmap"]

/-- The members `CC_REFLECT_VALUE_TO_STRUCT` describes before those of the kind (ReflectedTypes.h 949-953). -/
def structMembers : List String := ["id", "size", "map", "unmap"]

/-- `CCReflectOpaqueTypeDescriptorUnmapDefaults` (ReflectedTypes.c 1264-1270) with `CCReflectDeserializeBinaryHandler` (Reflect.c 2123-2126): what is in
the descriptor read, in whose memory there was `dest`.  `lib` is what is in the descriptors of the library. -/
def unmapOpaque {V : Type} (w : World V) (lib : String → Mem V) (d : V) (dest : Mem V) : MappedOpaque V → Option (Mem V)
  | .stateless n => (unmapFrom 0 0 opaques n).map fun name => copyMembers opaqueMembers (lib name) dest
  | .stateful n members =>
    (unmapFrom 0 0 kinds n).map fun k => copyMembers (structMembers ++ k.2) (construct w d k.1 members) dest

end Verif.KnownVal
