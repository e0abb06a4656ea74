import Verif.ConcQueue
/-!
# Model of the concurrent queue with its memory orders (`ConcurrentQueue.c`)

The steps are those of `ConcQueue.lean`, in which every load sees the last store (these are some of the executions the memory orders allow).  Followed is what happens before what: each store carries what it makes known to whoever reads it with an acquire; only a release adds what its thread knows;
an exchange hands on what the last store carried, a plain store does not.
-/
namespace Verif.QueueWeak
open ConcQueue

/-- Is the store of `prev` (128) a release, the load of `prev` (156) an acquire, the exchange of `head` (168) a release, the second load of `head` (158) an acquire.  The other loads are relaxed (123, 138-141, 155), so that the release of the exchange of `tail` (126) makes nothing known. -/
structure Orders where
  prevRel : Bool
  prevAcq : Bool
  headRel : Bool
  headAcq : Bool
deriving DecidableEq, Repr

/-- The orders of the file (128, 156, 168, 158). -/
def code : Orders := ⟨true, false, true, true⟩

/-- The queue; what the last store to the `prev` of each node, and to `head`, carries; what each thread knows; the number of things done so far outside the queue.  Not part of the program: for each node pushed what its thread knew when it exchanged `tail`, in the order of these exchanges; for
each node popped what its thread knows when it returns the node, in the order of the exchanges of `head`. -/
structure W where
  sys : Sys
  prevC : Nat → List Nat
  headC : List Nat
  knows : Nat → List Nat
  events : Nat
  pushes : List (List Nat)
  pops : List (List Nat)

/-- The queue is created (81-98); `n` threads. -/
def init (n : Nat) : W := ⟨ConcQueue.init n, fun _ => [], [], fun _ => [], 0, [], []⟩

/-- What a thread that knew `k` knows after a move from `p` to `q` (156, 158). -/
def learn (o : Orders) (z : W) (k : List Nat) (p q : PC) : List Nat := match p, q with
  | .po2 _ h _ _, .po3 _ _ _ _ _ _ => match h.node with
    | some n => if o.prevAcq then k ++ z.prevC n else k
    | none => k
  | .po3 _ _ _ _ _ _, _ => if o.headAcq then k ++ z.headC else k
  | _, _ => k

/-- What the `prev`s carry after a move from `p` to `q` (128, 142). -/
def publishPrev (o : Orders) (c : Nat → List Nat) (k : List Nat) (p q : PC) : Nat → List Nat := match p, q with
  | .pu4 _ _ t, .idle => match t.node with
    | some m => upd c m (if o.prevRel then k else [])
    | none => c
  | .fx3 _ _ _ m, .fx1 _ _ _ => match m.node with
    | some n => upd c n k
    | none => c
  | _, _ => c

/-- One step. -/
inductive Step (o : Orders) (w : Nat) : W → W → Prop
  /-- a thread does something outside the queue, for instance it writes the data of a node it will push -/
  | work {z : W} {i : Nat} : z.sys.thrs[i]? = some .idle → Step o w z { z with knows := upd z.knows i (z.knows i ++ [z.events]), events := z.events + 1 }
  /-- the collector frees a node -/
  | free {z : W} {j : Nat} {l : List Nat} : z.sys.retired[j]? = some l → j ∉ z.sys.freed → (∀ s ∈ l, s ∉ z.sys.active) →
      Step o w z { z with sys := { z.sys with freed := j :: z.sys.freed } }
  /-- any step of a thread in the queue -/
  | move {z : W} {i : Nat} {p q : PC} {y : Sys} : z.sys.thrs[i]? = some p → ConcQueue.Step w z.sys y → y.thrs = z.sys.thrs.set i q → p ≠ q →
      Step o w z { z with
        sys := y
        prevC := publishPrev o z.prevC (z.knows i) p q
        headC := if y.popped.length ≠ z.sys.popped.length ∧ o.headRel = true then z.headC ++ z.knows i else z.headC
        knows := upd z.knows i (learn o z (z.knows i) p q)
        pushes := if y.chain.length ≠ z.sys.chain.length then z.pushes ++ [z.knows i] else z.pushes
        pops := if y.popped.length ≠ z.sys.popped.length then z.pops ++ [z.knows i] else z.pops }

/-- The states reachable by `n` threads. -/
inductive Reach (o : Orders) (w n : Nat) : W → Prop
  | init : Reach o w n (init n)
  | step {z z' : W} : Reach o w n z → Step o w z z' → Reach o w n z'

end Verif.QueueWeak
