import Verif.HeapAlloc
/-!
# What a client of an allocator relies on (C60)
-/
namespace Verif.HeapAlloc.Spec

/-- The client's view of its memory: the bytes it may use. -/
abbrev Mem := List UInt8

/-- A write inside the memory. -/
def put (m : Mem) (o : Nat) (l : List UInt8) : Mem := m.take o ++ l ++ m.drop (o + l.length)

/-- After a reallocation to `n` bytes the common prefix is still there. -/
def Kept (m m' : Mem) (n : Nat) : Prop := m'.length = n ∧ ∀ i, i < min m.length n → m'[i]? = m[i]?

/-- How the client's view may change with a call; a reallocation may also fail and change nothing. -/
inductive Moves : Mem → Op → Mem → Prop
  | write {m : Mem} {o : Nat} {l : List UInt8} : o + l.length ≤ m.length → Moves m (.write o l) (put m o l)
  | realloc {m m' : Mem} {n : Nat} {e : Nat × List UInt8} : Kept m m' n → Moves m (.realloc n (some e)) m'
  | fail {m : Mem} {n : Nat} : Moves m (.realloc n none) m

/-- The bytes at address `p` of the block are `m`. -/
def Sees (B : Blk) (p : Nat) (m : Mem) : Prop :=
  B.addr ≤ p ∧ p + m.length ≤ B.addr + B.bytes.length ∧ ∀ i, i < m.length → B.bytes[p - B.addr + i]? = m[i]?

/-- The changes of a history. -/
inductive MovesAll : Mem → List Op → Mem → Prop
  | nil {m : Mem} : MovesAll m [] m
  | cons {m m' m'' : Mem} {op : Op} {ops : List Op} : Moves m op m' → MovesAll m' ops m'' → MovesAll m (op :: ops) m''

/-- Writes stay inside the memory, sizes include the 16 byte header every allocation has, and sizes and addresses stay inside
the address space; `extra` is what the allocator adds to a size. -/
def Ok (extra : Nat) (size : Nat) : List Op → Prop
  | [] => True
  | .write o l :: ops => o + l.length ≤ size ∧ Ok extra size ops
  | .realloc n none :: ops => n + extra < 2 ^ 64 ∧ Ok extra size ops
  | .realloc n (some e) :: ops => 16 ≤ n ∧ e.1 + n + extra < 2 ^ 64 ∧ Ok extra n ops

end Verif.HeapAlloc.Spec
