import Verif.Conc
/-!
# Model of the cache of the hashes of tagged strings

`CommonC/CCString.c` 1173-1287 (`CCStringGetHash` of a tagged string, built with `CC_STRING_TAGGED_HASH_CACHE` and
`stdatomic.h`, which is the default).

Threads run the function at the same time; every access to a shared variable is one step, steps of different threads
interleave (sequential consistency), and looking up or setting a value of the dictionary is one step: that no two of them
overlap is what is proved of the lock.  The dictionary is taken as what C40 shows of it, a finite map; in addition its
values are somewhere in memory, and setting a value may move all of them: the dictionary is a hash map whose buckets are
arrays (`HashMapSeparateChainingArray.c` 165-192), `realloc`ed when they are full, and which is made anew when it is
three quarters full (`DictionaryHashMap.c` 170-185).  When it moves them is left open.  The computation of the hash
(1235-1255) is the function `H`, see C54.
-/
namespace Verif.HashCache

/-- A tagged string: the bits of the pointer. -/
abbrev Key := Nat
abbrev Hash := Nat

/-- The dictionary `TaggedHashCache` (1174). -/
structure Cache where
  /-- how many times the values have been moved -/
  place : Nat
  /-- the keys and values, the last set first -/
  vals : List (Key × Hash)
  deriving DecidableEq, Repr

/-- The value the dictionary has for a key. -/
def Cache.get (c : Cache) (k : Key) : Option Hash := (c.vals.find? fun e => e.1 == k).map (·.2)

/-- Where a thread is in a call of `CCStringGetHash` for the string `k`. -/
inductive Pc where
  /-- not in a call -/
  | idle
  /-- before `if (TaggedHashCache)` (1194) -/
  | test (k : Key)
  /-- before the load of the lock (1196) -/
  | look (k : Key)
  /-- before `atomic_fetch_add_explicit` (1200) -/
  | enter (k : Key)
  /-- before `CCDictionaryGetValue` (1206) -/
  | find (k : Key)
  /-- before `atomic_fetch_sub_explicit` (1209) with the pointer in `Hash`: null, or to where the value was -/
  | leave (k : Key) (ptr : Option Nat)
  /-- before `return *Hash` (1214) -/
  | deref (k : Key) (ptr : Nat)
  /-- before `atomic_fetch_sub_explicit` (1222) -/
  | back (k : Key)
  /-- computing the hash (1235-1255); `store` is `StoreCompute` -/
  | compute (k : Key) (store : Bool)
  /-- before the exchange of the lock (1267) -/
  | lock (k : Key)
  /-- before `if (!TaggedHashCache)` (1272) -/
  | create (k : Key)
  /-- before `CCDictionarySetValue` (1274) -/
  | set (k : Key)
  /-- in the loop that gives back the lock (1277) -/
  | unlock (k : Key)
  /-- returned `r` (1214, 1286) -/
  | done (k : Key) (r : Hash)
  /-- the dictionary could not be created (1272), the assertion of `CCDictionarySetValue` (1274) ended the program -/
  | aborted
  /-- `*Hash` read memory the values are no longer in (1214) -/
  | fault
  deriving DecidableEq, Repr

/-- `TaggedHashCache` and `HashCacheLock` (1174-1180). -/
structure Shared where
  cache : Option Cache
  lock : Int
  deriving DecidableEq, Repr

structure Sys where
  sh : Shared
  threads : List Pc
  deriving DecidableEq, Repr

/-- `n` threads, before the first call. -/
def start (n : Nat) : Sys := ⟨⟨none, 0⟩, List.replicate n .idle⟩

/-- Arithmetic on `int32_t` by atomic operations wraps around (C11 7.17.7.5). -/
def wrap (x : Int) : Int := x.bmod (2 ^ 32)

/-- `INT32_MIN` -/
def min32 : Int := -2 ^ 31

/-- One step of a thread (1183-1287). -/
inductive Act (H : Key → Hash) : Shared → Pc → Shared → Pc → Prop
  /-- a call begins -/
  | call (s k) : Act H s .idle s (.test k)
  /-- the next call -/
  | again (s k r) : Act H s (.done k r) s .idle
  /-- 1194, 1231 -/
  | testNull (s k) : s.cache = none → Act H s (.test k) s (.compute k true)
  | test (s k) : s.cache.isSome → Act H s (.test k) s (.look k)
  /-- 1196-1197 -/
  | lookTaken (s k) : s.lock < 0 → Act H s (.look k) s (.compute k false)
  | look (s k) : 0 ≤ s.lock → Act H s (.look k) s (.enter k)
  /-- 1200-1204, 1219 -/
  | enterTaken (s k) : s.lock < 0 → Act H s (.enter k) ⟨s.cache, wrap (s.lock + 1)⟩ (.back k)
  | enter (s k) : 0 ≤ s.lock → Act H s (.enter k) ⟨s.cache, wrap (s.lock + 1)⟩ (.find k)
  /-- 1206 -/
  | find (s k c) : s.cache = some c → Act H s (.find k) s (.leave k (if (c.get k).isSome then some c.place else none))
  /-- 1209, 1214-1216 -/
  | leaveFound (s k p) : Act H s (.leave k (some p)) ⟨s.cache, wrap (s.lock - 1)⟩ (.deref k p)
  | leave (s k) : Act H s (.leave k none) ⟨s.cache, wrap (s.lock - 1)⟩ (.compute k true)
  /-- 1214 -/
  | deref (s k p c h) : s.cache = some c → c.place = p → c.get k = some h → Act H s (.deref k p) s (.done k h)
  | derefMoved (s k p c) : s.cache = some c → c.place ≠ p → Act H s (.deref k p) s .fault
  /-- 1222, 1226 -/
  | back (s k) : Act H s (.back k) ⟨s.cache, wrap (s.lock - 1)⟩ (.compute k false)
  /-- 1235-1255, 1264 -/
  | compute (s k) : Act H s (.compute k true) s (.lock k)
  | computeOnly (s k) : Act H s (.compute k false) s (.done k (H k))
  /-- 1267; the weak exchange may fail although the values are equal -/
  | lock (s k) : s.lock = 0 → Act H s (.lock k) ⟨s.cache, min32⟩ (.create k)
  | lockFails (s k) : Act H s (.lock k) s (.done k (H k))
  /-- 1272 -/
  | created (s k) : s.cache.isSome → Act H s (.create k) s (.set k)
  | create (s k) : s.cache = none → Act H s (.create k) ⟨some ⟨0, []⟩, s.lock⟩ (.set k)
  | createFails (s k) : s.cache = none → Act H s (.create k) s .aborted
  /-- 1274: the values stay or are moved -/
  | set (s k c) : s.cache = some c → Act H s (.set k) ⟨some ⟨c.place, (k, H k) :: c.vals⟩, s.lock⟩ (.unlock k)
  | setMoves (s k c) : s.cache = some c → Act H s (.set k) ⟨some ⟨c.place + 1, (k, H k) :: c.vals⟩, s.lock⟩ (.unlock k)
  /-- 1277: the loop -/
  | unlock (s k) : s.lock = min32 → Act H s (.unlock k) ⟨s.cache, 0⟩ (.done k (H k))
  | unlockFails (s k) : Act H s (.unlock k) s (.unlock k)

/-- Thread `i` takes a step. -/
inductive Step (H : Key → Hash) : Sys → Nat → Sys → Prop
  | mk (s : Sys) (i : Nat) (p q : Pc) (sh : Shared) : s.threads[i]? = some p → Act H s.sh p sh q → Step H s i ⟨sh, s.threads.set i q⟩

/-- The states reached from `n` threads before their first call. -/
inductive Reach (H : Key → Hash) (n : Nat) : Sys → Prop
  | start : Reach H n (start n)
  | step (s i t) : Reach H n s → Step H s i t → Reach H n t

end Verif.HashCache
