import Verif.SharedRes
/-!
# Model of the concurrent shared resource with its memory orders (`ConcurrentSharedResourceTemplate.h`)

The steps are those of `SharedRes.lean` for a resource that is not unlimited (in which every load sees the last store: these are some of the executions the memory orders allow; the only plain loads are the two relaxed ones that look for a node, 77-78).  Followed is what happens before what: each store
carries what it makes known to whoever reads it with an acquire; only a release adds what its thread knows; every store here is an exchange, an addition or a subtraction, which hands on what the last store carried.

* Each access to the data of a node is an event: one for the reading and replacing of it by a set (82-85), one for the sharing of it by a get (102).
* `atomic_signal_fence` (104) orders nothing between threads.
-/
namespace Verif.SharedWeak
open SharedRes

/-- Is the exchange of `refs` by a set (78) an acquire; the exchange of `current` (87) a release, an acquire; the subtraction from `refs` (90) a release; the addition to `current` (100) an acquire; the addition to `refs` by a get (106) a release. -/
structure Orders where
  claimAcq : Bool
  swapRel : Bool
  swapAcq : Bool
  subRel : Bool
  addAcq : Bool
  refRel : Bool
deriving DecidableEq, Repr

/-- The orders of the file (78, 87, 87, 90, 100, 106). -/
def code : Orders := ⟨true, true, false, false, true, false⟩

/-- A function with one value replaced. -/
def upd {α : Type} (f : Nat → α) (i : Nat) (a : α) : Nat → α := fun j => if j = i then a else f j

/-- The resource; what the last store to `current`, and to the `refs` of each node, carries; what each thread knows; the number of accesses so far.  Not part of the program: for each node the last access that wrote its data and all the accesses to its data; for each access of a get (102), the access
that wrote what it reads and what its thread knows; for each access of a set (82-85), the earlier accesses to the data of the node and what its thread knows. -/
structure W where
  sys : Sys
  curC : List Nat
  refsC : Nat → List Nat
  knows : Nat → List Nat
  events : Nat
  wrote : Nat → Option Nat
  touches : Nat → List Nat
  reads : List (Option Nat × List Nat)
  writes : List (List Nat × List Nat)

/-- The resource is created (ConcurrentSharedResource.h 47), before the threads begin; `n` threads. -/
def init (N n : Nat) : W := ⟨SharedRes.init N n, [], fun _ => [], fun _ => [], 0, fun _ => none, fun _ => [], [], []⟩

/-- The node whose data is accessed by a move from `p` to `q` (82-85, 102). -/
def accessed (p q : PC) : Option Nat := match p, q with
  | .s1 k _, .s2 _ _ => some k
  | .g1 k _, .g2 _ => some k
  | _, _ => none

/-- What a move from `p` to `q` makes known to its thread (78, 87, 100), its own access included. -/
def learn (o : Orders) (z : W) (p q : PC) : List Nat := match p, q with
  | .s0 k _, .s1 _ _ => if o.claimAcq then z.refsC k else []
  | .s2 _ _, .s3 _ _ => if o.swapAcq then z.curC else []
  | .idle, .g1 _ _ => if o.addAcq then z.curC else []
  | .s1 _ _, .s2 _ _ | .g1 _ _, .g2 _ => [z.events]
  | _, _ => []

/-- What a move from `p` to `q` by a thread that knows `k` adds to what `current` carries (87). -/
def publishCur (o : Orders) (k : List Nat) (p q : PC) : List Nat := match p, q with
  | .s2 _ _, .s3 _ _ => if o.swapRel then k else []
  | _, _ => []

/-- What it adds to what the `refs` of node `j` carry (90, 106). -/
def publishRefs (o : Orders) (k : List Nat) (p q : PC) (j : Nat) : List Nat := match p, q with
  | .s3 c _, .s4 _ => if o.subRel ∧ c / K = j then k else []
  | .g2 m, .idle => if o.refRel ∧ m = j then k else []
  | _, _ => []

/-- One step; `N` nodes, at most `L` gets between two sets. -/
inductive Step (o : Orders) (L N : Nat) : W → W → Prop
  | move {z : W} {i : Nat} {p q : PC} {y : Sys} : z.sys.thrs[i]? = some p → SharedRes.Step false N z.sys y → y.thrs = z.sys.thrs.set i q → p ≠ q → y.since ≤ L →
      Step o L N z { z with
        sys := y
        curC := z.curC ++ publishCur o (z.knows i) p q
        refsC := fun j => z.refsC j ++ publishRefs o (z.knows i) p q j
        knows := upd z.knows i (z.knows i ++ learn o z p q)
        events := z.events + (accessed p q).toList.length
        wrote := match p, q with
          | .s1 k _, .s2 _ _ => upd z.wrote k (some z.events)
          | _, _ => z.wrote
        touches := match accessed p q with
          | some k => upd z.touches k (z.touches k ++ [z.events])
          | none => z.touches
        reads := match p, q with
          | .g1 k _, .g2 _ => z.reads ++ [(z.wrote k, z.knows i)]
          | _, _ => z.reads
        writes := match p, q with
          | .s1 k _, .s2 _ _ => z.writes ++ [(z.touches k, z.knows i)]
          | _, _ => z.writes }

/-- The states reachable by `n` threads. -/
inductive Reach (o : Orders) (L N n : Nat) : W → Prop
  | init : Reach o L N n (init N n)
  | step {z z' : W} : Reach o L N n z → Step o L N z z' → Reach o L N n z'

end Verif.SharedWeak
