import Verif.TempMem

/-!
C147: memory for the time of a scope comes from the stack when it is small or there is no other, never more than allowed, and what came from the heap is freed once.
-/

namespace Verif.TempMem

/-- There is memory of at least `n` bytes at the pointer. -/
def Room (s : Scope) (n : Nat) : Prop :=
  match s.x with
  | .null => False
  | .heap _ m => n ≤ m
  | .stack => n ≤ s.backup

/-- C147, what is said of it (MemoryAllocation.h 157-167), when the greatest size for the stack is no less than the size up to which it is preferred: small sizes are on the stack; greater ones on the heap if there is memory; if not, on the stack up to the greatest size; else there is none. -/
theorem C147_place (size stackSize maxStackSize : Nat) (block : Option Nat) (h : stackSize ≤ maxStackSize) :
    (size ≤ stackSize → (allocate size size stackSize maxStackSize block).x = .stack) ∧
      (stackSize < size → ∀ b, block = some b → (allocate size size stackSize maxStackSize block).x = .heap b size) ∧
      (stackSize < size → block = none → size ≤ maxStackSize → (allocate size size stackSize maxStackSize block).x = .stack) ∧
      (block = none → maxStackSize < size → (allocate size size stackSize maxStackSize block).x = .null) := by
  refine ⟨fun h1 => ?_, fun h1 b hb => ?_, fun h1 hb h2 => ?_, fun hb h2 => ?_⟩
  · simp [allocate, h1, Nat.le_trans h1 h]
  · simp [allocate, Nat.not_le.mpr h1, hb, malloc]
  · simp [allocate, hb, malloc, h2]
  · simp [allocate, hb, malloc, Nat.not_le.mpr h2]

/-- C147: whatever the limits, there is memory of the size asked for unless the error branch is taken, the array on the stack is never longer than the greatest size, and is as long as asked for if it is used and of length zero if not. -/
theorem C147_room (size stackSize maxStackSize : Nat) (block : Option Nat) :
    ((allocate size size stackSize maxStackSize block).x ≠ .null → Room (allocate size size stackSize maxStackSize block) size) ∧
      (allocate size size stackSize maxStackSize block).backup ≤ maxStackSize ∧
      ((allocate size size stackSize maxStackSize block).x = .stack → (allocate size size stackSize maxStackSize block).backup = size) ∧
      ((allocate size size stackSize maxStackSize block).x ≠ .stack → (allocate size size stackSize maxStackSize block).backup = 0) := by
  by_cases h1 : size ≤ stackSize <;> by_cases h2 : size ≤ maxStackSize <;> cases block <;> simp [allocate, malloc, Room, h1, h2]

/-- C147: the error branch is taken exactly if the size is too great for the stack and either was small enough not to be asked for from the heap, or was asked for in vain. -/
theorem C147_none (size stackSize maxStackSize : Nat) (block : Option Nat) :
    (allocate size size stackSize maxStackSize block).x = .null ↔ maxStackSize < size ∧ (size ≤ stackSize ∨ block = none) := by
  by_cases h1 : size ≤ stackSize <;> by_cases h2 : size ≤ maxStackSize <;> cases block <;> simp [allocate, malloc, h1, h2] <;> omega

/-- C147: freeing once or more frees the block of the heap once if there is one, never the array on the stack, and leaves a null pointer. -/
theorem C147_free (size again stackSize maxStackSize : Nat) (block : Option Nat) (k : Nat) :
    ∃ s, releases (k + 1) (allocate size again stackSize maxStackSize block) = some s ∧ s.x = .null ∧
      s.freed = match (allocate size again stackSize maxStackSize block).x with
        | .heap b _ => [b]
        | _ => [] := by
  have idle : ∀ k (s : Scope), s.x = .null → releases k s = some s := by
    intro k
    induction k with
    | zero => intro s _; rfl
    | succ k ih =>
      intro s hs
      have r : release s = some s := by
        obtain ⟨x, a, n, b, c, d⟩ := s
        cases hs
        cases n <;> rfl
      rw [releases, r, Option.bind_some, ih s hs]
  have one : ∀ s t, release s = some t → t.x = .null → releases (k + 1) s = some t := fun s t h1 h2 => by
    rw [releases, h1, Option.bind_some, idle k t h2]
  by_cases h1 : size ≤ stackSize
  · refine ⟨_, one _ { allocate size again stackSize maxStackSize block with x := .null } ?_ rfl, rfl, ?_⟩
    · simp [release, allocate, h1]
    · by_cases h2 : size ≤ maxStackSize <;> simp [allocate, h1, h2]
  · cases block with
    | none =>
      refine ⟨_, one _ { allocate size again stackSize maxStackSize none with x := .null } ?_ rfl, rfl, ?_⟩
      · simp [release, allocate, malloc]
      · by_cases h2 : size ≤ maxStackSize <;> simp [allocate, malloc, h2]
    | some b =>
      refine ⟨_, one _ { allocate size again stackSize maxStackSize (some b) with x := .null, freed := [b] } ?_ rfl, rfl, ?_⟩
      · simp [release, allocate, malloc, h1, free]
      · simp [allocate, malloc, h1]

/-- C147 for `CC_TEMP_Malloc` with the limits of the file: up to 64 bytes on the stack, up to 128 if the heap has none; it fails only for greater sizes when the heap has none. -/
theorem C147_temp (size : Nat) (block : Option Nat) :
    (size ≤ 64 → (temp size size block).x = .stack) ∧ (64 < size → ∀ b, block = some b → (temp size size block).x = .heap b size) ∧
      ((temp size size block).x = .null ↔ 128 < size ∧ block = none) ∧ (temp size size block).backup ≤ 128 := by
  obtain ⟨a, b, _, _⟩ := C147_place size 64 128 block (by decide)
  refine ⟨a, b, (C147_none size 64 128 block).trans ?_, (C147_room size 64 128 block).2.1⟩
  constructor
  · rintro ⟨h, k | k⟩
    · omega
    · exact ⟨h, k⟩
  · exact fun h => ⟨h.1, .inr h.2⟩

/-- C147, refuted in three respects.  If the greatest size for the stack is the lesser of the two, sizes in between get no memory, though the heap has it.  If the expression for the size gives less when it is evaluated again there is less memory than was asked for.  And whenever the memory is on the heap, or the size is zero, an array
of variable length is declared with length zero, which the standard leaves undefined. -/
theorem C147_refuted :
    (∀ size stackSize maxStackSize b, maxStackSize < size → size ≤ stackSize → (allocate size size stackSize maxStackSize (some b)).x = .null) ∧
      (∀ size again b, 64 < size → again < size → ¬ Room (temp size again (some b)) size) ∧
      (∀ size b, 64 < size → (temp size size (some b)).backup = 0) ∧ ∀ block, (temp 0 0 block).x = .stack ∧ (temp 0 0 block).backup = 0 := by
  refine ⟨fun size s m b h1 h2 => (C147_none size s m (some b)).mpr ⟨h1, .inl h2⟩, fun size again b h1 h2 => ?_, fun size b h => ?_, fun block => ?_⟩
  · simp [temp, allocate, should, Nat.not_le.mpr h1, malloc, Room, h2]
  · simp [temp, allocate, should, Nat.not_le.mpr h, malloc]
  · simp [temp, allocate]

/-- A hundred bytes from the heap, freed once though freed twice over; and on the stack when the heap has none. -/
example : (temp 100 100 (some 7)).x = .heap 7 100 ∧ (releases 2 (temp 100 100 (some 7))).map (·.freed) = some [7] ∧ (temp 100 100 none).x = .stack ∧ (releases 2 (temp 100 100 none)).map (·.freed) = some [] := by decide

#print axioms C147_place
#print axioms C147_room
#print axioms C147_none
#print axioms C147_free
#print axioms C147_temp
#print axioms C147_refuted

end Verif.TempMem
