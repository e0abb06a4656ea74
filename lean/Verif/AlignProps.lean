import Verif.Align
/-!
# C50: aligning gives the least multiple that is not smaller
-/
namespace Verif.Align

theorem ones_bit (k : Nat) (hk : k < 64) (i : Nat) : ((1#64 <<< k) - 1#64).getLsbD i = decide (i < k) := by
  have h1 : ((1#64 <<< k) - 1#64).toNat = 2 ^ k - 1 := by
    have hp : 2 ^ k < 2 ^ 64 := Nat.pow_lt_pow_right (by omega) hk
    have hp0 : 0 < 2 ^ k := Nat.pow_pos (by omega)
    rw [BitVec.toNat_sub, BitVec.toNat_shiftLeft]
    simp only [BitVec.toNat_ofNat, Nat.shiftLeft_eq]
    rw [show (1 % 2 ^ 64) = 1 from rfl, Nat.one_mul, Nat.mod_eq_of_lt hp]
    omega
  unfold BitVec.getLsbD
  rw [h1, Nat.testBit_two_pow_sub_one]

theorem mask_toNat (y : BitVec 64) (k : Nat) (hk : k < 64) : (y &&& ~~~((1#64 <<< k) - 1#64)).toNat = y.toNat / 2 ^ k * 2 ^ k := by
  have : y &&& ~~~((1#64 <<< k) - 1#64) = (y >>> k) <<< k := by
    apply BitVec.eq_of_getLsbD_eq
    intro i hi
    rw [BitVec.getLsbD_and, BitVec.getLsbD_not, ones_bit k hk, BitVec.getLsbD_shiftLeft, BitVec.getLsbD_ushiftRight]
    by_cases h : i < k
    · simp [h]
    · simp [h, hi, show k + (i - k) = i by omega]
  rw [this, BitVec.toNat_shiftLeft, BitVec.toNat_ushiftRight, Nat.shiftRight_eq_div_pow, Nat.shiftLeft_eq]
  apply Nat.mod_eq_of_lt
  exact Nat.lt_of_le_of_lt (Nat.div_mul_le_self _ _) y.isLt

/-- The value of `CC_ALIGN` for a power of two, when the sum does not wrap. -/
theorem align_toNat (x a : BitVec 64) (k : Nat) (hk : k < 64) (ha : a = 1#64 <<< k) (hx : x.toNat + (2 ^ k - 1) < 2 ^ 64) :
    (align x a).toNat = (x.toNat + (2 ^ k - 1)) / 2 ^ k * 2 ^ k := by
  unfold align
  have hp : 2 ^ k < 2 ^ 64 := Nat.pow_lt_pow_right (by omega) hk
  have hp0 : 0 < 2 ^ k := Nat.pow_pos (by omega)
  have ha' : a.toNat = 2 ^ k := by
    rw [ha, BitVec.toNat_shiftLeft, Nat.shiftLeft_eq, show (1#64).toNat = 1 from rfl, Nat.one_mul, Nat.mod_eq_of_lt hp]
  rw [show a - 1 = (1#64 <<< k) - 1#64 by rw [ha]; rfl, mask_toNat _ k hk]
  congr 2
  rw [BitVec.toNat_sub, BitVec.toNat_add, ha']
  rw [show (1 : BitVec 64).toNat = 1 from rfl]
  omega

/-- **C50**: for a power of two, aligning gives the least multiple that is not below the value. -/
theorem C50_align (x a : BitVec 64) (k : Nat) (hk : k < 64) (ha : a.toNat = 2 ^ k) (hx : x.toNat + (2 ^ k - 1) < 2 ^ 64) :
    x.toNat ≤ (align x a).toNat ∧ 2 ^ k ∣ (align x a).toNat ∧ ∀ m, x.toNat ≤ m → 2 ^ k ∣ m → (align x a).toNat ≤ m := by
  have hp : 2 ^ k < 2 ^ 64 := Nat.pow_lt_pow_right (by omega) hk
  have hp0 : 0 < 2 ^ k := Nat.pow_pos (by omega)
  have hae : a = 1#64 <<< k := by
    apply BitVec.eq_of_toNat_eq
    rw [ha, BitVec.toNat_shiftLeft, Nat.shiftLeft_eq, show (1#64).toNat = 1 from rfl, Nat.one_mul, Nat.mod_eq_of_lt hp]
  rw [align_toNat x a k hk hae hx]
  refine ⟨?_, ⟨_, Nat.mul_comm _ _⟩, ?_⟩
  · have := Nat.div_add_mod (x.toNat + (2 ^ k - 1)) (2 ^ k)
    have := Nat.mod_lt (x.toNat + (2 ^ k - 1)) hp0
    rw [Nat.mul_comm (_ / _)]
    omega
  · rintro m hm ⟨q, rfl⟩
    rw [Nat.mul_comm]
    apply Nat.mul_le_mul_left
    have : (x.toNat + (2 ^ k - 1)) / 2 ^ k < q + 1 := by
      rw [Nat.div_lt_iff_lt_mul hp0, Nat.add_mul, Nat.one_mul, Nat.mul_comm q]
      omega
    omega

/-- Near the top of the address range the sum wraps: aligning the last address gives zero. -/
theorem C50_refuted : align (BitVec.allOnes 64) 16#64 = 0 := by decide

example : align 17#64 16#64 = 32#64 ∧ (16#64).toNat = 2 ^ 4 := by decide

#print axioms C50_align
#print axioms C50_refuted

end Verif.Align
