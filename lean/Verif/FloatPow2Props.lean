import Verif.BitTricks
/-!
# C46: the floating point power-of-two tests

The specification decodes IEEE 754 bit patterns.  Every finite `float` is an integer multiple of 2^-149 (`double`: 2^-1074), so the
magnitude is described by that integer, and a positive float is a power of two exactly when the integer is one.
-/
namespace Verif.BitTricks
namespace FloatSpec

/-- Fields of an IEEE 754 binary format with `m` fraction bits and `e` exponent bits. -/
def frac (m : Nat) (x : Nat) : Nat := x % 2 ^ m
def expo (m e : Nat) (x : Nat) : Nat := x / 2 ^ m % 2 ^ e
def negative (m e : Nat) (x : Nat) : Prop := x / 2 ^ (m + e) % 2 = 1
/-- Neither an infinity nor a NaN. -/
def finite (m e : Nat) (x : Nat) : Prop := expo m e x ≠ 2 ^ e - 1
/-- Magnitude of a finite pattern in units of the smallest positive number. -/
def units (m e : Nat) (x : Nat) : Nat :=
  if expo m e x = 0 then frac m x else (2 ^ m + frac m x) * 2 ^ (expo m e x - 1)
/-- The pattern denotes a power of two. -/
def isPow2 (m e : Nat) (x : Nat) : Prop := ¬ negative m e x ∧ finite m e x ∧ ∃ k, units m e x = 2 ^ k
/-- The pattern denotes a positive normal number. -/
def positiveNormal (m e : Nat) (x : Nat) : Prop := ¬ negative m e x ∧ finite m e x ∧ expo m e x ≠ 0

instance (m e x : Nat) : Decidable (negative m e x) := inferInstanceAs (Decidable (_ = _))
instance (m e x : Nat) : Decidable (finite m e x) := inferInstanceAs (Decidable (_ ≠ _))
end FloatSpec
open FloatSpec

theorem pow2_units {m f j : Nat} (hf : f < 2 ^ m) : (∃ k, (2 ^ m + f) * 2 ^ j = 2 ^ k) ↔ f = 0 := by
  constructor
  · rintro ⟨k, hk⟩
    have h1 : 2 ^ (m + j) ≤ 2 ^ k := by
      rw [← hk, Nat.pow_add]; exact Nat.mul_le_mul_right _ (by omega)
    have h2 : 2 ^ k < 2 ^ (m + 1 + j) := by
      rw [← hk, Nat.pow_add]
      exact Nat.mul_lt_mul_of_pos_right (by rw [Nat.pow_succ]; omega) (Nat.two_pow_pos j)
    have h3 := (Nat.pow_le_pow_iff_right (by decide : 1 < 2)).1 h1
    have h4 := (Nat.pow_lt_pow_iff_right (by decide : 1 < 2)).1 h2
    have h5 : k = m + j := by omega
    rw [h5, Nat.pow_add] at hk
    have := Nat.eq_of_mul_eq_mul_right (Nat.two_pow_pos j) hk
    omega
  · rintro rfl
    exact ⟨m + j, by rw [Nat.pow_add]; simp⟩

theorem and_low (w m : Nat) (x : BitVec w) (h : m < w) : (x &&& BitVec.ofNat w (2 ^ m - 1)) = 0#w ↔ x.toNat % 2 ^ m = 0 := by
  have hp := Nat.pow_lt_pow_right (by decide : 1 < 2) h
  have hp2 := Nat.two_pow_pos m
  rw [← BitVec.toNat_inj, BitVec.toNat_and, BitVec.toNat_ofNat, Nat.mod_eq_of_lt (by omega), Nat.and_two_pow_sub_one_eq_mod]
  simp

theorem nonzero_of_expo {w m e : Nat} {x : BitVec w} (h : expo m e x.toNat ≠ 0) : x ≠ 0#w := by
  rintro rfl; simp [expo] at h

/-- **C46 (partial)**, `float`: for every positive normal number the test answers whether the number is a power of two.
Missing: infinities, negative numbers and subnormal numbers, for which the answer is wrong (`C46_float32_refuted`). -/
theorem C46_float32_partial (x : BitVec 32) (h : positiveNormal 23 8 x.toNat) : float32IsPowerOf2 x = true ↔ isPow2 23 8 x.toNat := by
  obtain ⟨h1, h2, h3⟩ := h
  have e1 : x ≠ 0#32 := nonzero_of_expo h3
  have e2 : x ≠ 0x80000000#32 := by
    rintro rfl; exact h3 (by decide)
  simp only [float32IsPowerOf2, Bool.and_eq_true, bne_iff_ne, ne_eq, e1, e2, not_false_eq_true, and_self, true_and, beq_iff_eq, isPow2, h1, h2,
    units, if_neg h3, frac]
  rw [pow2_units (Nat.mod_lt _ (Nat.two_pow_pos _))]
  exact and_low 32 23 x (by decide)

/-- **C46 (partial)**, `double`. -/
theorem C46_float64_partial (x : BitVec 64) (h : positiveNormal 52 11 x.toNat) : float64IsPowerOf2 x = true ↔ isPow2 52 11 x.toNat := by
  obtain ⟨h1, h2, h3⟩ := h
  have e1 : x ≠ 0#64 := nonzero_of_expo h3
  have e2 : x ≠ 0x8000000000000000#64 := by
    rintro rfl; exact h3 (by decide)
  simp only [float64IsPowerOf2, Bool.and_eq_true, bne_iff_ne, ne_eq, e1, e2, not_false_eq_true, and_self, true_and, beq_iff_eq, isPow2, h1, h2,
    units, if_neg h3, frac]
  rw [pow2_units (Nat.mod_lt _ (Nat.two_pow_pos _))]
  exact and_low 64 52 x (by decide)

/-- The test accepts infinity and -1, and rejects the smallest positive float 2^-149. -/
theorem C46_float32_refuted :
    (float32IsPowerOf2 0x7f800000#32 = true ∧ ¬ finite 23 8 0x7f800000) ∧
    (float32IsPowerOf2 0xbf800000#32 = true ∧ negative 23 8 0xbf800000) ∧
    (float32IsPowerOf2 0x00000001#32 = false ∧ isPow2 23 8 0x00000001) :=
  ⟨⟨by decide, by decide⟩, ⟨by decide, by decide⟩, by decide, by decide, by decide, 0, by decide⟩

/-- Non-vacuity: 1.0f is positive and normal. -/
example : positiveNormal 23 8 (0x3f800000#32).toNat := ⟨by decide, by decide, by decide⟩
example : positiveNormal 52 11 (0x3ff8000000000000#64).toNat := ⟨by decide, by decide, by decide⟩

#print axioms C46_float32_partial
#print axioms C46_float64_partial
#print axioms C46_float32_refuted
end Verif.BitTricks
