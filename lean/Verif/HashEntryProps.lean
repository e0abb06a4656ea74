import Verif.HashEntry
import Verif.BitTricksProps
/-!
# C08: entry handles decode to the place they were made for
-/
namespace Verif.HashEntry
open Verif.BitTricks Verif.BitTricks.Spec

/-- Shape of the mask: `n` low bits, with `bucketCount + 1 < 2^n` and `n < 64`. -/
theorem mask_shape (c : U64) (hc : c.toNat + 1 < 2 ^ 63) :
    ∃ n, n < 64 ∧ 1 ≤ n ∧ (bucketMask c).toNat = 2 ^ n - 1 ∧ itemShift c = n ∧ c.toNat + 1 < 2 ^ n ∧ 2 ^ n ≤ 2 * (c.toNat + 1) := by
  obtain ⟨n, hn, h1, h2, h3⟩ := mask_spec (c + 1)
  have e : (c + 1).toNat = c.toNat + 1 := by
    rw [BitVec.toNat_add, show (1 : U64).toNat = 1 from rfl, Nat.mod_eq_of_lt (by omega)]
  rw [e] at h2 h3
  have hn63 := h3 63 hc
  have hn1 : 1 ≤ n := by
    rcases Nat.eq_zero_or_pos n with rfl | h
    · simp at h2
    · exact h
  refine ⟨n, by omega, hn1, h1, ?_, h2, ?_⟩
  · rw [itemShift, countSet_toNat]; exact ones_below _ n hn h1
  · rcases Nat.lt_or_ge (c.toNat + 1) (2 ^ (n - 1)) with h | h
    · have := h3 _ h; omega
    · have : 2 ^ n = 2 * 2 ^ (n - 1) := by rw [← Nat.pow_succ']; congr 1; omega
      omega

theorem mask_bits {m : U64} {n : Nat} (h : m.toNat = 2 ^ n - 1) (i : Nat) : m.getLsbD i = decide (i < n) := by
  rw [BitVec.getLsbD, h, Nat.testBit_two_pow_sub_one]

theorem repr_iff (m item : U64) (n : Nat) (hn : n < 64) (h : m.toNat = 2 ^ n - 1) :
    item &&& (~~~m >>> n) = item ↔ item.toNat < 2 ^ (64 - n) := by
  have hm := mask_bits h
  constructor
  · intro he
    apply Nat.lt_pow_two_of_testBit
    intro i hi
    have := congrArg (fun y => y.getLsbD i) he
    simp only [BitVec.getLsbD_and, BitVec.getLsbD_ushiftRight, BitVec.getLsbD_not, hm] at this
    have h1 : ¬ (n + i < 64) := by omega
    simp [h1] at this
    simpa [BitVec.getLsbD] using this
  · intro hlt
    apply BitVec.eq_of_getLsbD_eq; intro i hi
    simp only [BitVec.getLsbD_and, BitVec.getLsbD_ushiftRight, BitVec.getLsbD_not, hm]
    by_cases h1 : i < 64 - n
    · have : n + i < 64 := by omega
      have h2 : ¬ (n + i < n) := by omega
      simp [this]
    · have : item.getLsbD i = false := by
        rw [BitVec.getLsbD]; apply Nat.testBit_lt_two_pow
        exact Nat.lt_of_lt_of_le hlt (Nat.pow_le_pow_right (by omega) (by omega))
      simp [this]

theorem decode_bits (m item b : U64) (n : Nat) (hn : n < 64) (h : m.toNat = 2 ^ n - 1) (hi : item.toNat < 2 ^ (64 - n)) (hb : b.toNat < 2 ^ n) :
    (item <<< n ||| b) &&& m = b ∧ ((item <<< n ||| b) &&& ~~~m) >>> n = item := by
  have hm := mask_bits h
  have hb' : ∀ i, n ≤ i → b.getLsbD i = false := fun i hni => by
    rw [BitVec.getLsbD]; exact Nat.testBit_lt_two_pow (Nat.lt_of_lt_of_le hb (Nat.pow_le_pow_right (by omega) hni))
  have hi' : ∀ i, 64 - n ≤ i → item.getLsbD i = false := fun i hni => by
    rw [BitVec.getLsbD]; exact Nat.testBit_lt_two_pow (Nat.lt_of_lt_of_le hi (Nat.pow_le_pow_right (by omega) hni))
  constructor
  · apply BitVec.eq_of_getLsbD_eq; intro i hilt
    simp only [BitVec.getLsbD_and, BitVec.getLsbD_or, BitVec.getLsbD_shiftLeft, hm]
    by_cases h1 : i < n
    · simp [h1]
    · simp [h1, hb' i (by omega)]
  · apply BitVec.eq_of_getLsbD_eq; intro i hilt
    simp only [BitVec.getLsbD_and, BitVec.getLsbD_or, BitVec.getLsbD_shiftLeft, BitVec.getLsbD_ushiftRight, BitVec.getLsbD_not, hm, hb' (n + i) (by omega)]
    by_cases h1 : n + i < 64
    · have h2 : ¬ (n + i < n) := by omega
      simp [h1, h2]
    · simp [h1, hi' i (by omega)]

/-- **C08.** For every bucket count below 2^63 - 1, every bucket index below it and every slot index:
* if the slot is representable (`item < 2^(64 - shift)`, and the limit is at least `2^64 / (2 (bucketCount + 1))`) the handle is not the null entry and decodes to exactly
  that bucket and slot; otherwise making a handle reports failure (the null entry);
* two places with the same non-null handle are the same place. -/
theorem C08_entry_codec (c : U64) (hc : c.toNat + 1 < 2 ^ 63) :
    ∃ limit : Nat, 2 ^ 64 ≤ limit * (2 * (c.toNat + 1)) ∧
    (∀ b i : U64, b.toNat < c.toNat →
      (i.toNat < limit → ∃ e, indexToEntry c b i = some e ∧ e ≠ 0 ∧ entryToIndex c e = some (some (b, i))) ∧
      (limit ≤ i.toNat → indexToEntry c b i = some 0)) ∧
    entryToIndex c 0 = some none ∧
    (∀ b i b' i' e : U64, b.toNat < c.toNat → b'.toNat < c.toNat → e ≠ 0 →
      indexToEntry c b i = some e → indexToEntry c b' i' = some e → b = b' ∧ i = i') := by
  obtain ⟨n, hn, hn1, h1, h2, h3, h4⟩ := mask_shape c hc
  have hb1 : ∀ b : U64, b.toNat < c.toNat → (b + 1).toNat = b.toNat + 1 := fun b hb => by
    rw [BitVec.toNat_add, show (1 : U64).toNat = 1 from rfl, Nat.mod_eq_of_lt (by omega)]
  have good : ∀ b i : U64, b.toNat < c.toNat → i.toNat < 2 ^ (64 - n) →
      ∃ e, indexToEntry c b i = some e ∧ e ≠ 0 ∧ entryToIndex c e = some (some (b, i)) := by
    intro b i hb hi
    have hb' := hb1 b hb
    obtain ⟨d1, d2⟩ := decode_bits _ i (b + 1) n hn h1 hi (by omega)
    have hne : i <<< n ||| (b + 1) ≠ 0 := by
      intro h0; rw [h0] at d1; have d1 : (0#64) &&& bucketMask c = b + 1 := d1; rw [BitVec.zero_and] at d1; rw [← d1] at hb'; simp at hb'
    refine ⟨i <<< n ||| (b + 1), ?_, hne, ?_⟩
    · simp only [indexToEntry, h2]; rw [if_pos hn, if_pos ((repr_iff _ i n hn h1).2 hi)]
    · simp only [entryToIndex, h2]; rw [if_pos hne, if_pos hn, d1, d2, BitVec.add_sub_cancel]
  have bad : ∀ b i : U64, 2 ^ (64 - n) ≤ i.toNat → indexToEntry c b i = some 0 := by
    intro b i hi
    simp only [indexToEntry, h2]
    rw [if_pos hn, if_neg]
    rw [repr_iff _ i n hn h1]; omega
  refine ⟨2 ^ (64 - n), ?_, fun b i hb => ⟨good b i hb, bad b i⟩, by simp [entryToIndex], ?_⟩
  · have : 2 ^ 64 = 2 ^ (64 - n) * 2 ^ n := by rw [← Nat.pow_add]; congr 1; omega
    rw [this]; exact Nat.mul_le_mul_left _ h4
  · intro b i b' i' e hb hb' he e1 e2
    have l1 : i.toNat < 2 ^ (64 - n) := by
      rcases Nat.lt_or_ge i.toNat (2 ^ (64 - n)) with h | h
      · exact h
      · rw [bad b i h] at e1; cases e1; exact absurd rfl he
    have l2 : i'.toNat < 2 ^ (64 - n) := by
      rcases Nat.lt_or_ge i'.toNat (2 ^ (64 - n)) with h | h
      · exact h
      · rw [bad b' i' h] at e2; cases e2; exact absurd rfl he
    obtain ⟨x, x1, -, x2⟩ := good b i hb l1
    obtain ⟨y, y1, -, y2⟩ := good b' i' hb' l2
    rw [e1] at x1; rw [e2] at y1; cases x1; cases y1
    rw [x2] at y2; cases y2; exact ⟨rfl, rfl⟩

/-- Concrete instance: 10 buckets, bucket 9, slot 1000. -/
example : (10 : U64).toNat + 1 < 2 ^ 63 ∧ indexToEntry 10 9 1000 = some 16010 ∧ entryToIndex 10 16010 = some (some (9, 1000)) := by decide

#print axioms C08_entry_codec
end Verif.HashEntry
