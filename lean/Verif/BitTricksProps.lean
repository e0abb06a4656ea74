import Verif.BitTricksLemmas
/-!
# C21: bit manipulation primitives meet their arithmetic meaning
-/
namespace Verif.BitTricks
open Spec

/-- Lowest one bit: for a non-zero word the result is the word with only that bit, for zero it is zero. -/
theorem C21_lowest_set (x : U64) : (∀ k, LowestOne x k → (lowestSet x).toNat = 2 ^ k) ∧ (x ≠ 0 → ∃ k, LowestOne x k) ∧ (x = 0 → lowestSet x = 0) := by
  refine ⟨fun k hk => by rw [lowestSet_eq hk, twoPow_toNat hk.1], exists_lowest, ?_⟩
  rintro rfl; decide

/-- Lowest zero bit: the result has only that bit; for the all-ones word it is zero. -/
theorem C21_lowest_unset (x : U64) :
    (∀ k, k < 64 → ¬ bit x k → (∀ j < k, bit x j) → (lowestUnset x).toNat = 2 ^ k) ∧
    (x ≠ BitVec.allOnes 64 → ∃ k, k < 64 ∧ ¬ bit x k ∧ ∀ j < k, bit x j) ∧
    (x = BitVec.allOnes 64 → lowestUnset x = 0) := by
  have hb : ∀ i, i < 64 → (bit (~~~x) i ↔ ¬ bit x i) := by intro i hi; simp [bit, hi]
  refine ⟨fun k hk h1 h2 => ?_, fun h => ?_, ?_⟩
  · rw [lowestUnset_eq, lowestSet_eq ⟨hk, (hb k hk).2 h1, fun j hj => by rw [hb j (by omega)]; simp [h2 j hj]⟩, twoPow_toNat hk]
  · have : ~~~x ≠ 0 := by
      intro h0; apply h
      have := congrArg (fun y => ~~~y) h0
      rw [BitVec.not_not] at this; rw [this]; decide
    obtain ⟨k, hk, h1, h2⟩ := exists_lowest this
    refine ⟨k, hk, (hb k hk).1 h1, fun j hj => ?_⟩
    have := h2 j hj; rw [hb j (by omega)] at this; exact Classical.not_not.1 this
  · rintro rfl; decide

/-- Highest one bit. -/
theorem C21_highest_set (x : U64) : (∀ k, HighestOne x k → (highestSet x).toNat = 2 ^ k) ∧ (x ≠ 0 → ∃ k, HighestOne x k) ∧ (x = 0 → highestSet x = 0) := by
  refine ⟨fun k hk => by rw [highestSet_eq hk, twoPow_toNat hk.1], exists_highest, ?_⟩
  rintro rfl; decide

/-- Population count. -/
theorem C21_count_set (x : U64) : (countSet x).toNat = ones x := countSet_toNat x

/-- Mask for a value: all ones, covers the value, least. -/
theorem C21_mask_for_value (x : U64) :
    ∃ n, (maskForValue x).toNat = 2 ^ n - 1 ∧ x.toNat ≤ (maskForValue x).toNat ∧ ∀ m, x.toNat ≤ 2 ^ m - 1 → (maskForValue x).toNat ≤ 2 ^ m - 1 := by
  obtain ⟨n, -, h1, h2, h3⟩ := mask_spec x
  refine ⟨n, h1, by omega, fun m hm => ?_⟩
  have hp := Nat.two_pow_pos m
  have := Nat.pow_le_pow_right (n := 2) (by omega) (h3 m (by omega))
  omega

/-- The complement mask: the bits above the highest one bit. -/
theorem C21_mask_for_unset_value (x : U64) (i : Nat) (hi : i < 64) : bit (maskForUnsetValue x) i ↔ ∀ j ≥ i, ¬ bit x j := by
  have : bit (maskForUnsetValue x) i ↔ ¬ bit (maskForValue x) i := by
    simp only [bit, maskForUnsetValue, BitVec.getLsbD_xor, BitVec.getLsbD_allOnes, hi]
    cases (maskForValue x).getLsbD i <;> simp
  rw [this, bit_mask]; simp

/-- Next power of two: the least power of two not below the argument, whenever one fits in 64 bits. -/
theorem C21_next_power_of_2 (x : U64) (h1 : 1 ≤ x.toNat) (h2 : x.toNat ≤ 2 ^ 63) :
    ∃ n, (nextPowerOf2 x).toNat = 2 ^ n ∧ x.toNat ≤ 2 ^ n ∧ ∀ m, x.toNat ≤ 2 ^ m → 2 ^ n ≤ 2 ^ m := by
  obtain ⟨n, hn, e1, e2, e3⟩ := mask_spec (x - 1)
  have hx : (x - 1).toNat = x.toNat - 1 := by
    rw [BitVec.toNat_sub_of_le (by rw [BitVec.le_def]; exact h1)]; rfl
  rw [hx] at e2 e3
  have hn63 : n ≤ 63 := e3 63 (by omega)
  have hp := Nat.two_pow_pos n
  have hle := Nat.pow_le_pow_right (n := 2) (by omega) hn63
  refine ⟨n, ?_, by omega, fun m hm => Nat.pow_le_pow_right (by omega) (e3 m (by have := Nat.two_pow_pos m; omega))⟩
  rw [nextPowerOf2, BitVec.toNat_add, e1, show (1 : U64).toNat = 1 from rfl, Nat.mod_eq_of_lt (by omega)]; omega

/-- Outside that range (zero, or more than 2^63) the function returns 0. -/
theorem C21_next_power_of_2_unrepresentable (x : U64) (h : x = 0 ∨ 2 ^ 63 < x.toNat) : nextPowerOf2 x = 0 := by
  rcases h with rfl | h
  · decide
  · obtain ⟨n, hn, e1, e2, e3⟩ := mask_spec (x - 1)
    have hx : (x - 1).toNat = x.toNat - 1 := by
      rw [BitVec.toNat_sub_of_le (by rw [BitVec.le_def]; exact Nat.le_trans (by decide) (Nat.le_of_lt h))]; rfl
    rw [hx] at e2
    have : n = 64 := by
      rcases Nat.lt_or_ge n 64 with h' | h'
      · have := Nat.pow_le_pow_right (n := 2) (by omega) (show n ≤ 63 by omega); omega
      · omega
    subst this
    apply BitVec.eq_of_toNat_eq
    rw [nextPowerOf2, BitVec.toNat_add, e1]; rfl

/-- Power-of-two test. -/
theorem C21_is_power_of_2 (x : U64) : isPowerOf2 x = true ↔ ∃ k, x.toNat = 2 ^ k := isPow2_iff x

/-- Mask of the bits below a power of two. -/
theorem C21_mask_for_lower_power_of_2 (x : U64) (k : Nat) (h : x.toNat = 2 ^ k) : (maskForLowerPowerOf2 x).toNat = 2 ^ k - 1 := by
  have hp := Nat.two_pow_pos k
  have hne : x ≠ 0 := by rintro rfl; simp at h; omega
  have : ~~~(-x) = x - 1 := by
    rw [BitVec.neg_eq_not_add]
    apply BitVec.eq_of_toNat_eq
    have := x.isLt
    rw [BitVec.toNat_not, BitVec.toNat_add, BitVec.toNat_not, BitVec.toNat_sub_of_le (by rw [BitVec.le_def, h]; exact hp)]
    simp only [BitVec.toNat_ofNat, BitVec.ofNat_eq_ofNat]; omega
  rw [maskForLowerPowerOf2, if_pos hne, this, BitVec.toNat_sub_of_le (by rw [BitVec.le_def, h]; exact hp), h]; rfl

theorem ones_below (y : U64) (n : Nat) (hn : n ≤ 64) (h : y.toNat = 2 ^ n - 1) : ones y = n := by
  have hb : ∀ i, y.getLsbD i = decide (i < n) := by
    intro i; rw [BitVec.getLsbD, h, Nat.testBit_two_pow_sub_one]
  simp only [ones, hb]
  have : ∀ k, (List.range k).countP (fun i => decide (i < n)) = min k n := by
    intro k; induction k with
    | zero => simp
    | succ k ih => rw [List.range_succ, List.countP_append, ih]; simp [List.countP_cons]; split <;> omega
  rw [this]; omega

/-- Number of trailing zeros; 64 for the zero word. -/
theorem C21_count_lowest_unset (x : U64) : (∀ k, LowestOne x k → (countLowestUnset x).toNat = k) ∧ (x = 0 → (countLowestUnset x).toNat = 64) := by
  refine ⟨fun k hk => ?_, ?_⟩
  · have hne : x ≠ 0 := ne_zero_iff.2 ⟨k, hk.2.1⟩
    have h1 : (lowestSet x).toNat = 2 ^ k := by rw [lowestSet_eq hk, twoPow_toNat hk.1]
    rw [countLowestUnset, if_neg hne, countSet_toNat]
    exact ones_below _ k (by have := hk.1; omega) (C21_mask_for_lower_power_of_2 _ k h1)
  · rintro rfl; decide

/-- Setting the low `n` bits: defined exactly for `n ≤ 64`. -/
theorem C21_set_low (n : U64) : (n.toNat ≤ 64 → ∃ y, setLow n = some y ∧ y.toNat = 2 ^ n.toNat - 1) ∧ (64 < n.toNat → setLow n = none) := by
  have h64 : n = 64 ↔ n.toNat = 64 := by
    constructor
    · rintro rfl; rfl
    · intro h; apply BitVec.eq_of_toNat_eq; rw [h]; rfl
  refine ⟨fun h => ?_, fun h => ?_⟩
  · by_cases he : n.toNat = 64
    · exact ⟨BitVec.allOnes 64, by rw [setLow, if_pos (h64.2 he)], by rw [he]; decide⟩
    · have hlt : n.toNat < 64 := by omega
      refine ⟨((1#64) <<< n.toNat) - 1#64, by rw [setLow, if_neg (fun h => he (h64.1 h)), if_pos hlt], ?_⟩
      have h1 : ((1#64) <<< n.toNat).toNat = 2 ^ n.toNat := by
        rw [BitVec.toNat_shiftLeft, show (1#64).toNat = 1 from rfl, Nat.shiftLeft_eq, Nat.one_mul, Nat.mod_eq_of_lt (Nat.pow_lt_pow_right (by omega) hlt)]
      rw [BitVec.toNat_sub_of_le (by rw [BitVec.le_def, h1]; exact Nat.two_pow_pos _), h1]; rfl
  · rw [setLow, if_neg (fun h' => by rw [h64.1 h'] at h; omega), if_neg (by omega)]

/-- Instances of the hypotheses. -/
example : LowestOne 0x58 3 ∧ HighestOne 0x58 6 := by
  refine ⟨⟨by decide, by unfold bit; decide, by unfold bit; decide⟩, by decide, by unfold bit; decide, fun j hj => ?_⟩
  have : ∀ j < 64, j > 6 → (0x58#64).getLsbD j = false := by decide
  rcases Nat.lt_or_ge j 64 with h | h
  · simp only [bit]; rw [show (0x58 : U64).getLsbD j = false from this j h hj]; simp
  · simp [bit, BitVec.getLsbD_of_ge _ _ h]
example : 1 ≤ (0x16 : U64).toNat ∧ (0x16 : U64).toNat ≤ 2 ^ 63 ∧ (nextPowerOf2 0x16).toNat = 2 ^ 5 := by decide

#print axioms C21_lowest_set
#print axioms C21_lowest_unset
#print axioms C21_highest_set
#print axioms C21_count_set
#print axioms C21_mask_for_value
#print axioms C21_mask_for_unset_value
#print axioms C21_next_power_of_2
#print axioms C21_next_power_of_2_unrepresentable
#print axioms C21_is_power_of_2
#print axioms C21_mask_for_lower_power_of_2
#print axioms C21_count_lowest_unset
#print axioms C21_set_low
end Verif.BitTricks
