/-!
# Model of the concurrent shared resource (`ConcurrentSharedResource.h`, `ConcurrentSharedResourceTemplate.h`)

Any number of threads that set and get; every atomic operation and every access to the data of a node is one step; sequentially consistent.

* `u` is `Tunlimited`, `N` the number of nodes `Tmax`.  `current` and the counts `refs` have 64 bits.
* A value is identified by the number of sets begun before the one that sets it; `none` is the zeroed data of a node that has never been set.
* The test of `refs` and the exchange of it (78) are one step: when the exchange is made if it succeeds, or when one of the two finds a count that is not 0.
* In the loop of an unlimited get (110-119) the load and the failed exchanges change nothing and are not steps of their own.
* `Tshare` and `Tdestructor` are single steps.
-/
namespace Verif.SharedRes

/-- A thread. -/
inductive PC
  | idle
  /-- `Set` of value `v`, at node `i` (77-78) -/
  | s0 (i v : Nat)
  /-- has node `i` (78) -/
  | s1 (i v : Nat)
  /-- has written the data of node `i`, which was `d` (82-85) -/
  | s2 (i : Nat) (d : Option Nat)
  /-- has exchanged `current`, which was `p` (87) -/
  | s3 (p : Nat) (d : Option Nat)
  /-- has returned the count to the previous node (90) -/
  | s4 (d : Option Nat)
  /-- `Get`: counted in `current` (100).  Not part of the program: `v`, the value that was current then -/
  | g1 (i : Nat) (v : Option Nat)
  /-- `Get`: shared the data (102) -/
  | g2 (i : Nat)
  /-- `Get`: counted in `refs` (106), unlimited -/
  | g3 (i : Nat)
  /-- `Get`: no longer counted in `current` (114), unlimited -/
  | g4 (i : Nat)
  /-- a node that does not exist was accessed -/
  | fault
deriving DecidableEq, Repr

/-- The structure (ConcurrentSharedResource.h 48-54) and the threads.  Not part of the program: `sets`, the number of sets begun; `cur`, the value put there by the last exchange of `current`; `since`, the number of gets begun since then;
`destroyed`, the values given to the destructor; `got`, for each get, the data it shared, the value that was current when it began, and whether that value had already been destroyed when it was shared. -/
structure Sys where
  current : Nat
  refs : List Nat
  data : List (Option Nat)
  thrs : List PC
  sets : Nat
  cur : Option Nat
  since : Nat
  destroyed : List (Option Nat)
  got : List (Option Nat × Option Nat × Bool)

/-- 2^64 -/
abbrev W : Nat := 18446744073709551616
/-- 2^16 (88) -/
abbrev K : Nat := 65536

/-- `CC_CONCURRENT_SHARED_RESOURCE_INIT` (47); `n` threads. -/
def init (N n : Nat) : Sys := ⟨0, (List.replicate N 0).set 0 1, List.replicate N none, List.replicate n .idle, 0, none, 0, [], []⟩

/-- One step of a thread. -/
inductive Step (u : Bool) (N : Nat) : Sys → Sys → Prop
  /-- `Set`: load `current` (77) -/
  | setBegin {y : Sys} {i : Nat} : y.thrs[i]? = some .idle →
      Step u N y { y with thrs := y.thrs.set i (.s0 ((y.current / K + 1) % N) y.sets), sets := y.sets + 1 }
  /-- `Set`: the node is in use (78) -/
  | setNext {y : Sys} {i k v r : Nat} : y.thrs[i]? = some (.s0 k v) → y.refs[k]? = some r → r ≠ 0 → Step u N y { y with thrs := y.thrs.set i (.s0 ((k + 1) % N) v) }
  /-- `Set`: take the node (78) -/
  | setClaim {y : Sys} {i k v : Nat} : y.thrs[i]? = some (.s0 k v) → y.refs[k]? = some 0 → Step u N y { y with refs := y.refs.set k 1, thrs := y.thrs.set i (.s1 k v) }
  /-- `Set`: replace the data (82-85) -/
  | setWrite {y : Sys} {i k v : Nat} {d : Option Nat} : y.thrs[i]? = some (.s1 k v) → y.data[k]? = some d →
      Step u N y { y with data := y.data.set k (some v), thrs := y.thrs.set i (.s2 k d) }
  /-- `Set`: exchange `current` (87) -/
  | setSwap {y : Sys} {i k : Nat} {d v : Option Nat} : y.thrs[i]? = some (.s2 k d) → y.data[k]? = some v →
      Step u N y { y with current := (k * K) % W, thrs := y.thrs.set i (.s3 y.current d), cur := v, since := 0 }
  /-- `Set`: return the count (88-90) -/
  | setSub {y : Sys} {i p r : Nat} {d : Option Nat} : y.thrs[i]? = some (.s3 p d) → y.refs[p / K]? = some r →
      Step u N y { y with refs := y.refs.set (p / K) ((r + W - (p % K * 2 + 1)) % W), thrs := y.thrs.set i (.s4 d) }
  /-- `Set`: there is no such node (90) -/
  | setFault {y : Sys} {i p : Nat} {d : Option Nat} : y.thrs[i]? = some (.s3 p d) → y.refs[p / K]? = none → Step u N y { y with thrs := y.thrs.set i .fault }
  /-- `Set`: destroy the data that was replaced (94) -/
  | setDestroy {y : Sys} {i : Nat} {d : Option Nat} : y.thrs[i]? = some (.s4 d) → Step u N y { y with thrs := y.thrs.set i .idle, destroyed := y.destroyed ++ [d] }
  /-- `Get`: count in `current` (100) -/
  | getAdd {y : Sys} {i : Nat} : y.thrs[i]? = some .idle →
      Step u N y { y with current := (y.current + 1) % W, thrs := y.thrs.set i (.g1 (y.current / K) y.cur), since := y.since + 1 }
  /-- `Get`: share the data (102) -/
  | getShare {y : Sys} {i k : Nat} {v d : Option Nat} : y.thrs[i]? = some (.g1 k v) → y.data[k]? = some d →
      Step u N y { y with thrs := y.thrs.set i (.g2 k), got := y.got ++ [(d, v, d != none && y.destroyed.contains d)] }
  /-- `Get`: there is no such node (102) -/
  | getFault {y : Sys} {i k : Nat} {v : Option Nat} : y.thrs[i]? = some (.g1 k v) → y.data[k]? = none → Step u N y { y with thrs := y.thrs.set i .fault }
  /-- `Get`: count in `refs` (106) -/
  | getRef {y : Sys} {i k r : Nat} : y.thrs[i]? = some (.g2 k) → y.refs[k]? = some r →
      Step u N y { y with refs := y.refs.set k ((r + 2) % W), thrs := y.thrs.set i (if u then .g3 k else .idle) }
  /-- `Get`, unlimited: the node is still the current one, take back the count in `current` (112-114) -/
  | getBack {y : Sys} {i k : Nat} : y.thrs[i]? = some (.g3 k) → y.current / K = k → Step u N y { y with current := (y.current + W - 1) % W, thrs := y.thrs.set i (.g4 k) }
  /-- `Get`, unlimited: it is not (112) -/
  | getLeave {y : Sys} {i k : Nat} : y.thrs[i]? = some (.g3 k) → y.current / K ≠ k → Step u N y { y with thrs := y.thrs.set i .idle }
  /-- `Get`, unlimited: take back the count in `refs` (116) -/
  | getUnref {y : Sys} {i k r : Nat} : y.thrs[i]? = some (.g4 k) → y.refs[k]? = some r →
      Step u N y { y with refs := y.refs.set k ((r + W - 2) % W), thrs := y.thrs.set i .idle }

/-- The states reachable by `n` threads. -/
inductive Reach (u : Bool) (N n : Nat) : Sys → Prop
  | init : Reach u N n (init N n)
  | step {y y' : Sys} : Reach u N n y → Step u N y y' → Reach u N n y'

/-- The states reachable by `n` threads with at most `L` gets between two sets. -/
inductive ReachL (u : Bool) (L N n : Nat) : Sys → Prop
  | init : ReachL u L N n (init N n)
  | step {y y' : Sys} : ReachL u L N n y → Step u N y y' → y'.since ≤ L → ReachL u L N n y'

end Verif.SharedRes
