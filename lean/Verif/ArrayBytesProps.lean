import Verif.ArrayBytes
import Mathlib.Tactic.Linarith
/-!
# C152: whether an array has memory for the elements it says it has
-/
namespace Verif.ArrayBytes

/-- The memory has room for all the elements the array counts. -/
def Room (a : Arr) : Prop := a.count * a.size ≤ a.bytes.getD 0

/-- The call does not take the array to so many elements that the bytes of its memory do not fit a `size_t`. -/
def Fits (a : Arr) : Op → Prop
  | .addN n _ => a.count + n < W ∧ ((a.count + n) / a.chunk + 1) * a.chunk * a.size < W
  | .add _ => a.count + 1 < W ∧ (a.count / a.chunk + 1) * a.chunk * a.size < W
  | .remove _ => True

/-- The arrays that come about by calls that fit, from one created with a first block that fits. -/
inductive Reach (size chunk : Nat) : Arr → Prop
  | create {a : Arr} (granted : Bool) : chunk * size < W → create size chunk granted = some a → Reach size chunk a
  | step {a b : Arr} {ok : Bool} (op : Op) : Reach size chunk a → Fits a op → step a op = some (b, ok) → Reach size chunk b

/-- The memory is a number of whole chunks, at least one, enough for the elements; without memory there are no elements. -/
structure Inv (size chunk : Nat) (a : Arr) : Prop where
  esize : a.size = size
  echunk : a.chunk = chunk
  pos : 1 ≤ chunk
  have_ : ∀ b, a.bytes = some b → ∃ k, b = k * chunk * size ∧ 1 ≤ k ∧ a.count ≤ k * chunk
  lack : a.bytes = none → a.count = 0

theorem Inv.room {size chunk : Nat} {a : Arr} (h : Inv size chunk a) : Room a := by
  unfold Room
  rcases hb : a.bytes with _ | b
  · rw [h.lack hb, Nat.zero_mul]; exact Nat.zero_le _
  · obtain ⟨k, e, -, hc⟩ := h.have_ b hb
    rw [Option.getD_some, e, h.esize]
    exact Nat.mul_le_mul_right _ hc

/-- There is room without growing. -/
theorem keeps {chunk count n k : Nat} (hp : 1 ≤ chunk) (hk : 1 ≤ k) (hc : count ≤ k * chunk) (h1 : n ≤ chunk - count % chunk) (h2 : count % chunk ≠ 0 ∨ count = 0) : count + n ≤ k * chunk := by
  have d := Nat.div_add_mod count chunk
  have m := Nat.mod_lt count hp
  rcases h2 with h2 | h2
  · have q : count / chunk + 1 ≤ k := by
      rcases Nat.lt_or_ge (count / chunk) k with h | h
      · exact h
      · have := Nat.mul_le_mul_right chunk h
        rw [Nat.mul_comm (count / chunk)] at this
        omega
    have := Nat.mul_le_mul_right chunk q
    rw [Nat.add_mul, Nat.one_mul, Nat.mul_comm (count / chunk)] at this
    omega
  · subst h2
    have := Nat.mul_le_mul_right chunk hk
    rw [Nat.zero_mod] at h1
    omega

/-- There is room after growing. -/
theorem enough {chunk c : Nat} (hp : 1 ≤ chunk) : c < (c / chunk + 1) * chunk := by
  have d := Nat.div_add_mod c chunk
  have m := Nat.mod_lt c hp
  rw [Nat.add_mul, Nat.one_mul, Nat.mul_comm (c / chunk)]
  omega

theorem Inv.step {size chunk : Nat} {a b : Arr} {ok : Bool} (h : Inv size chunk a) (op : Op) (f : Fits a op) (e : ArrayBytes.step a op = some (b, ok)) : Inv size chunk b := by
  have hp := h.pos
  have hc := h.echunk
  have hs := h.esize
  cases op with
  | addN n granted =>
    simp only [ArrayBytes.step] at e
    split at e
    · cases e
    rename_i hn
    split at e
    · cases e; exact h
    cases e
    obtain ⟨f1, f2⟩ := f
    have m : (a.count + n) % W = a.count + n := Nat.mod_eq_of_lt f1
    refine ⟨hs, hc, hp, fun b hb => ?_, fun hb => ?_⟩
    · by_cases g : grows a n = true
      · simp only [g, if_true, Option.some.injEq] at hb
        subst hb
        refine ⟨(a.count + n) / chunk + 1, ?_, Nat.le_add_left .., ?_⟩
        · unfold request
          rw [m, Nat.mod_eq_of_lt f2, hc, hs]
        · dsimp only
          rw [m]
          exact (enough hp).le
      · simp only [g, Bool.false_eq_true, if_false] at hb
        obtain ⟨k, e1, e2, e3⟩ := h.have_ b hb
        refine ⟨k, e1, e2, ?_⟩
        dsimp only
        rw [m]
        simp only [grows, Bool.or_eq_true, decide_eq_true_eq, Bool.and_eq_true, beq_iff_eq, bne_iff_ne, hb, Option.isNone_some, Bool.false_eq_true, or_false, hc] at g
        exact keeps hp e2 e3 (by omega) (by omega)
    · by_cases g : grows a n = true
      · simp [g] at hb
      · simp only [g, Bool.false_eq_true, if_false] at hb
        have z := h.lack hb
        simp [grows, hb, z] at g
  | add granted =>
    simp only [ArrayBytes.step] at e
    split at e
    · cases e; exact h
    cases e
    obtain ⟨f1, f2⟩ := f
    have m : (a.count + 1) % W = a.count + 1 := Nat.mod_eq_of_lt f1
    refine ⟨hs, hc, hp, fun b hb => ?_, fun hb => ?_⟩
    · by_cases g : growsOne a = true
      · simp only [g, if_true, Option.some.injEq] at hb
        subst hb
        refine ⟨a.count / chunk + 1, ?_, Nat.le_add_left .., ?_⟩
        · unfold request
          rw [show (a.count + 0) % W = a.count from Nat.mod_eq_of_lt (by omega), Nat.mod_eq_of_lt f2, hc, hs]
        · dsimp only
          rw [m]
          exact enough hp
      · simp only [g, Bool.false_eq_true, if_false] at hb
        obtain ⟨k, e1, e2, e3⟩ := h.have_ b hb
        refine ⟨k, e1, e2, ?_⟩
        dsimp only
        rw [m]
        simp only [growsOne, Bool.and_eq_true, beq_iff_eq, bne_iff_ne, hb, Option.isNone_some, Bool.or_false, hc] at g
        have := Nat.mod_lt a.count hp
        exact keeps hp e2 e3 (by omega) (by omega)
    · by_cases g : growsOne a = true
      · simp [g] at hb
      · simp only [g, Bool.false_eq_true, if_false] at hb
        have z := h.lack hb
        simp [growsOne, hb, z] at g
  | remove n =>
    simp only [ArrayBytes.step] at e
    split at e
    · cases e
      refine ⟨hs, hc, hp, fun b hb => ?_, fun hb => ?_⟩
      · obtain ⟨k, e1, e2, e3⟩ := h.have_ b hb
        exact ⟨k, e1, e2, by dsimp only; omega⟩
      · have := h.lack hb
        dsimp only
        omega
    · cases e

theorem reach_inv {size chunk : Nat} {a : Arr} (h : Reach size chunk a) : Inv size chunk a := by
  induction h with
  | create granted hw e =>
    unfold ArrayBytes.create at e
    split at e
    · rename_i hp
      cases e
      refine ⟨rfl, rfl, hp, fun b hb => ?_, fun _ => rfl⟩
      cases granted
      · simp at hb
      · simp only [if_true, Option.some.injEq] at hb
        exact ⟨1, by rw [← hb, Nat.mod_eq_of_lt hw, Nat.one_mul], Nat.le_refl _, Nat.zero_le _⟩
    · cases e
  | step op _ f e ih => exact ih.step op f e

/-- **C152 (partial).** Whatever calls have been made, and whatever allocations were refused, an array has memory for all the elements it counts, as long as the bytes asked for fit a `size_t`.  Missing: the arrays of the
following theorem. -/
theorem C152_room_partial {size chunk : Nat} {a : Arr} (h : Reach size chunk a) : Room a := (reach_inv h).room

/-- **C152, a refused allocation.** It leaves the array as it was, and is reported. -/
theorem C152_refused {a b : Arr} {ok : Bool} {op : Op} (e : step a op = some (b, ok)) (h : ok = false) : b = a := by
  cases op with
  | addN n granted =>
    simp only [ArrayBytes.step] at e
    split at e
    · cases e
    · split at e
      · cases e; rfl
      · cases e; cases h
  | add granted =>
    simp only [ArrayBytes.step] at e
    split at e
    · cases e; rfl
    · cases e; cases h
  | remove n =>
    simp only [ArrayBytes.step] at e
    split at e
    · cases e; cases h
    · cases e

/-- **C152, the counts.** A call that fits and is not refused changes the count by the elements it adds or takes, and none of the sizes; only a call that needs memory can be refused. -/
theorem C152_counts (a : Arr) :
    (∀ n granted, n ≠ 0 → Fits a (.addN n granted) → (granted = true ∨ grows a n = false) →
      ∃ b, step a (.addN n granted) = some (b, true) ∧ b.count = a.count + n ∧ b.size = a.size ∧ b.chunk = a.chunk) ∧
    (∀ granted, Fits a (.add granted) → (granted = true ∨ growsOne a = false) →
      ∃ b, step a (.add granted) = some (b, true) ∧ b.count = a.count + 1 ∧ b.size = a.size ∧ b.chunk = a.chunk) ∧
    (∀ n, n ≤ a.count → ∃ b, step a (.remove n) = some (b, true) ∧ b.count = a.count - n ∧ b.size = a.size ∧ b.chunk = a.chunk ∧ b.bytes = a.bytes) := by
  refine ⟨fun n granted hn f h => ?_, fun granted f h => ?_, fun n h => ?_⟩
  · simp only [ArrayBytes.step]
    rw [if_neg hn, if_neg (by rintro ⟨h1, h2⟩; rcases h with h | h <;> simp_all)]
    exact ⟨_, rfl, Nat.mod_eq_of_lt f.1, rfl, rfl⟩
  · simp only [ArrayBytes.step]
    rw [if_neg (by rintro ⟨h1, h2⟩; rcases h with h | h <;> simp_all)]
    exact ⟨_, rfl, Nat.mod_eq_of_lt f.1, rfl, rfl⟩
  · simp only [ArrayBytes.step]
    rw [if_pos h]
    exact ⟨_, rfl, rfl, rfl, rfl, rfl⟩

/-- **C152, refuted.** Appending elements without giving them (NULL) can ask for so many that the number of bytes wraps to nothing: for every size of elements that is a power of two from 2 on, an array of chunks of one element, whatever it holds, takes
that many elements that it counts `2^64 / size - 1` of them and has no memory at all; the call reports a success if an allocation of nothing is granted. -/
theorem C152_room_refuted (j : Nat) (hj : 1 ≤ j) (hj' : j ≤ 63) (count : Nat) (bytes : Option Nat) (hc : count + 2 < 2 ^ (64 - j)) :
    step ⟨2 ^ j, 1, count, bytes⟩ (.addN (2 ^ (64 - j) - 1 - count) true) = some (⟨2 ^ j, 1, 2 ^ (64 - j) - 1, some 0⟩, true) ∧
      ¬ Room ⟨2 ^ j, 1, 2 ^ (64 - j) - 1, some 0⟩ := by
  have hlt : 2 ^ (64 - j) < W := Nat.pow_lt_pow_right (by omega) (by omega)
  have s : count + (2 ^ (64 - j) - 1 - count) = 2 ^ (64 - j) - 1 := by omega
  have m : (2 ^ (64 - j) - 1) % W = 2 ^ (64 - j) - 1 := Nat.mod_eq_of_lt (by omega)
  have g : grows ⟨2 ^ j, 1, count, bytes⟩ (2 ^ (64 - j) - 1 - count) = true := by
    simp only [grows, Bool.or_eq_true, decide_eq_true_eq, Nat.mod_one]
    left; omega
  have r : request ⟨2 ^ j, 1, count, bytes⟩ (2 ^ (64 - j) - 1 - count) = 0 := by
    unfold request
    dsimp only
    rw [s, m, Nat.div_one, Nat.mul_one, show 2 ^ (64 - j) - 1 + 1 = 2 ^ (64 - j) by omega, ← Nat.pow_add, show 64 - j + j = 64 by omega, Nat.mod_self]
  refine ⟨?_, ?_⟩
  · simp only [ArrayBytes.step]
    rw [if_neg (by omega), if_neg (by simp), g, r, s, m]
    rfl
  · unfold Room
    simp only [Option.getD_some, Nat.le_zero_eq, Nat.mul_eq_zero, not_or]
    exact ⟨by omega, (Nat.two_pow_pos j).ne'⟩

/-- An array of 4-byte elements that reaches the hypotheses of the partial theorem with growth, a refusal and a removal. -/
example : Reach 4 3 ⟨4, 3, 5, some 24⟩ := by
  have r0 : Reach 4 3 ⟨4, 3, 0, some 12⟩ := .create true (by norm_num) rfl
  have r1 : Reach 4 3 ⟨4, 3, 0, some 12⟩ := .step (ok := false) (.addN 5 false) r0 ⟨by norm_num, by norm_num⟩ rfl
  have r2 : Reach 4 3 ⟨4, 3, 5, some 24⟩ := .step (ok := true) (.addN 5 true) r1 ⟨by norm_num, by norm_num⟩ rfl
  have r3 : Reach 4 3 ⟨4, 3, 4, some 24⟩ := .step (ok := true) (.remove 1) r2 trivial rfl
  exact .step (ok := true) (.add false) r3 ⟨by norm_num, by norm_num⟩ rfl
/-- The hypotheses of the refutation: elements of 8 bytes, two of them there. -/
example : (2 : Nat) + 2 < 2 ^ (64 - 3) := by norm_num

#print axioms C152_room_partial
#print axioms C152_counts
#print axioms C152_refused
#print axioms C152_room_refuted

end Verif.ArrayBytes
