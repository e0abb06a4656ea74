import Verif.Decimal
/-!
# C31: multiplication of an integer by a decimal
-/
namespace Verif.Decimal
namespace Spec

/-- The product `value * coef * 10^exp`, rounded down. -/
def exact (value coef : Nat) (exp : Int) : Nat :=
  if exp ≥ 0 then value * coef * 10 ^ exp.toNat else value * coef / 10 ^ (-exp).toNat

/-- The result the property asks for. -/
def saturated (x : Nat) : Nat := if x < 2 ^ 64 then x else 2 ^ 64 - 1

end Spec
open Spec

theorem value_split (v c : Nat) : v * c = v / 2 ^ 32 * c * 2 ^ 32 + v % 2 ^ 32 * c := by
  have h : v = v / 2 ^ 32 * 2 ^ 32 + v % 2 ^ 32 := by omega
  conv => lhs; rw [h]
  rw [Nat.add_mul, Nat.mul_right_comm]

theorem mul_lt_pow {a b m n : Nat} (ha : a < 2 ^ m) (hb : b < 2 ^ n) : a * b < 2 ^ (m + n) := by
  rw [Nat.pow_add]
  rcases Nat.eq_zero_or_pos b with h | h
  · subst h; exact Nat.mul_pos (Nat.pow_pos (by omega)) (Nat.pow_pos (by omega))
  · exact Nat.lt_of_lt_of_le (Nat.mul_lt_mul_of_pos_right ha h) (Nat.mul_le_mul_left _ (Nat.le_of_lt hb))

/-! ## Negative exponents -/

/-- The number a state of the loop stands for. -/
def Down.total (s : Down) : Nat := s.hi * 2 ^ 32 + s.lo + s.rem + s.carry

theorem Down.step_total (s : Down) (h : s.rem < 2 ^ 32) (hc : s.carry ≤ 1) :
    s.step.total = s.total / 10 ∧ s.step.rem < 2 ^ 32 ∧ s.step.carry ≤ 1 := by
  unfold Down.step Down.total
  obtain ⟨hi, lo, rem, carry⟩ := s
  simp only at *
  rw [Nat.mod_eq_of_lt (show rem + hi % 10 * 2 ^ 32 < 2 ^ 64 by omega)]
  split <;> omega

theorem down_total (n : Nat) (s : Down) (h : s.rem < 2 ^ 32) (hc : s.carry ≤ 1) :
    (down n s).total = s.total / 10 ^ n ∧ (down n s).rem < 2 ^ 32 ∧ (down n s).carry ≤ 1 ∧
      (down n s).hi = s.hi / 10 ^ n ∧ (down n s).lo = s.lo / 10 ^ n := by
  induction n generalizing s with
  | zero => simp [down, h, hc]
  | succ n ih =>
    obtain ⟨h1, h2, h3⟩ := s.step_total h hc
    obtain ⟨i1, i2, i3, i4, i5⟩ := ih s.step h2 h3
    unfold down
    refine ⟨?_, i2, i3, ?_, ?_⟩
    · rw [i1, h1, Nat.div_div_eq_div_mul, Nat.pow_succ, Nat.mul_comm (10 ^ n)]
    · rw [i4, Nat.pow_succ, Nat.mul_comm (10 ^ n), ← Nat.div_div_eq_div_mul]; rfl
    · rw [i5, Nat.pow_succ, Nat.mul_comm (10 ^ n), ← Nat.div_div_eq_div_mul]; rfl

/-- **C31, 32-bit decimals, negative exponents**: the result is the exact quotient rounded down, reduced
modulo `2^64`, unless the upper half of the value times the coefficient still exceeds 32 bits. -/
theorem C31_negative32 (v c n : Nat) (hv : v < 2 ^ 64) (hc : c < 2 ^ 32) (hn : 0 < n) :
    mul32 v c (-(n : Int)) =
      if v / 2 ^ 32 * c / 10 ^ n < 2 ^ 32 then v * c / 10 ^ n % 2 ^ 64 else 2 ^ 64 - 1 := by
  have hlo : v % 2 ^ 32 * c < 2 ^ 64 := mul_lt_pow (m := 32) (n := 32) (by omega) hc
  have hhi : v / 2 ^ 32 * c < 2 ^ 64 := mul_lt_pow (m := 32) (n := 32) (by omega) hc
  have hprod : v * c < 2 ^ 96 := mul_lt_pow (m := 64) (n := 32) hv hc
  unfold mul32
  simp only
  rw [Nat.mod_eq_of_lt hlo, Nat.mod_eq_of_lt hhi]
  have c1 : ¬ (-(n : Int) ≥ 20 ∧ c ≠ 0) := by omega
  have c2 : ¬ (-(n : Int) ≥ 0) := by omega
  rw [if_neg c1, if_neg c2]
  have e : (- -(n : Int)).toNat = n := by omega
  rw [e]
  by_cases h : -(n : Int) ≤ -29 ∧ c ≠ 0
  · rw [if_pos h]
    have hp : 2 ^ 96 ≤ 10 ^ n := Nat.le_trans (by decide : 2 ^ 96 ≤ 10 ^ 29) (Nat.pow_le_pow_right (by omega) (by omega))
    rw [Nat.div_eq_of_lt (Nat.lt_of_lt_of_le hprod hp)]
    rw [Nat.div_eq_of_lt (show v / 2 ^ 32 * c < 10 ^ n by omega)]
    simp
  · rw [if_neg h]
    obtain ⟨t, h2, h3, h4, h5⟩ := down_total n { hi := v / 2 ^ 32 * c, lo := v % 2 ^ 32 * c, rem := 0, carry := 0 } (by simp) (by simp)
    generalize down n _ = s at *
    unfold Down.total at t
    simp only [Nat.add_zero] at t
    rw [← value_split] at t
    simp only at h4
    rw [← h4, ← t]
    by_cases h6 : s.hi < 2 ^ 32
    · rw [if_pos h6, if_neg (by omega)]
      congr 1; omega
    · rw [if_neg h6, if_pos (by omega)]; rfl

/-- **C31, 64-bit decimals, negative exponents.** -/
theorem C31_negative64 (v c n : Nat) (hv : v < 2 ^ 64) (hc : c < 2 ^ 64) (hn : 0 < n) :
    mul64 v c (-(n : Int)) =
      if v / 2 ^ 32 * c / 10 ^ n < 2 ^ 32 ∧ v % 2 ^ 32 * c / 10 ^ n < 2 ^ 64 then v * c / 10 ^ n % 2 ^ 64
      else 2 ^ 64 - 1 := by
  have hlo : v % 2 ^ 32 * c < 2 ^ 96 := mul_lt_pow (m := 32) (n := 64) (by omega) hc
  have hhi : v / 2 ^ 32 * c < 2 ^ 96 := mul_lt_pow (m := 32) (n := 64) (by omega) hc
  have hprod : v * c < 2 ^ 128 := mul_lt_pow (m := 64) (n := 64) hv hc
  unfold mul64
  simp only
  rw [Nat.mod_eq_of_lt (show v % 2 ^ 32 * c < 2 ^ 128 by omega), Nat.mod_eq_of_lt (show v / 2 ^ 32 * c < 2 ^ 128 by omega)]
  have c1 : ¬ (-(n : Int) ≥ 20 ∧ c ≠ 0) := by omega
  have c2 : ¬ (-(n : Int) ≥ 0) := by omega
  rw [if_neg c1, if_neg c2]
  have e : (- -(n : Int)).toNat = n := by omega
  rw [e]
  by_cases h : -(n : Int) ≤ -39 ∧ c ≠ 0
  · rw [if_pos h]
    have hp : 2 ^ 128 ≤ 10 ^ n := Nat.le_trans (by decide : 2 ^ 128 ≤ 10 ^ 39) (Nat.pow_le_pow_right (by omega) (by omega))
    rw [Nat.div_eq_of_lt (Nat.lt_of_lt_of_le hprod hp)]
    rw [Nat.div_eq_of_lt (show v / 2 ^ 32 * c < 10 ^ n by omega)]
    rw [Nat.div_eq_of_lt (show v % 2 ^ 32 * c < 10 ^ n by omega)]
    simp
  · rw [if_neg h]
    obtain ⟨t, h2, h3, h4, h5⟩ := down_total n { hi := v / 2 ^ 32 * c, lo := v % 2 ^ 32 * c, rem := 0, carry := 0 } (by simp) (by simp)
    generalize down n _ = s at *
    unfold Down.total at t
    simp only [Nat.add_zero] at t
    rw [← value_split] at t
    simp only at h4 h5
    rw [← h4, ← h5, ← t]
    unfold max64
    by_cases h6 : s.hi < 2 ^ 32 ∧ s.lo < 2 ^ 64
    · rw [if_pos h6, if_neg (by omega)]
      congr 1; omega
    · rw [if_neg h6, if_pos (by omega)]

/-! ## Exponents from zero -/

theorem up32_spec (n hi lo : Nat) (h : (hi * 2 ^ 32 + lo) * 10 ^ n < 2 ^ 96) (hl : lo * 10 < 2 ^ 64) (hn : 0 < n) :
    (up32 n (hi, lo)).1 * 2 ^ 32 + (up32 n (hi, lo)).2 = (hi * 2 ^ 32 + lo) * 10 ^ n ∧ (up32 n (hi, lo)).2 < 2 ^ 32 := by
  induction n generalizing hi lo with
  | zero => omega
  | succ n ih =>
    have hp : 0 < 10 ^ n := Nat.pow_pos (by omega)
    have e : (hi * 2 ^ 32 + lo) * 10 ^ (n + 1) = (hi * 2 ^ 32 + lo) * 10 * 10 ^ n := by
      rw [Nat.pow_succ 10 n, Nat.mul_comm (10 ^ n), Nat.mul_assoc]
    have h1 : (hi * 2 ^ 32 + lo) * 10 < 2 ^ 96 := by
      have := Nat.le_mul_of_pos_right ((hi * 2 ^ 32 + lo) * 10) hp
      omega
    unfold up32
    simp only
    rw [Nat.mod_eq_of_lt hl, Nat.mod_eq_of_lt (show hi * 10 < 2 ^ 64 by omega)]
    rw [Nat.mod_eq_of_lt (show hi * 10 + lo * 10 / 2 ^ 32 < 2 ^ 64 by omega)]
    have e2 : (hi * 10 + lo * 10 / 2 ^ 32) * 2 ^ 32 + lo * 10 % 2 ^ 32 = (hi * 2 ^ 32 + lo) * 10 := by omega
    rw [e, ← e2]
    rcases Nat.eq_zero_or_pos n with h0 | h0
    · subst h0
      simp only [up32, Nat.pow_zero, Nat.mul_one, true_and]
      omega
    · exact ih _ _ (by rw [e2, ← e]; exact h) (by omega) h0

/-- **C31 (partial), 32-bit decimals, exponents from 1 to 19**: exact if representable and saturated
otherwise, as long as the product has at most 96 bits and the lower partial product can be multiplied
by ten. Missing: larger products, where the intermediate products overflow. -/
theorem C31_positive32_partial (v c n : Nat) (hv : v < 2 ^ 64) (hc : c < 2 ^ 32) (hn : 0 < n) (h20 : n < 20)
    (h : v * c * 10 ^ n < 2 ^ 96) (hl : v % 2 ^ 32 * c * 10 < 2 ^ 64) :
    mul32 v c n = saturated (exact v c n) := by
  have hlo : v % 2 ^ 32 * c < 2 ^ 64 := by omega
  have hhi : v / 2 ^ 32 * c < 2 ^ 64 := mul_lt_pow (m := 32) (n := 32) (by omega) hc
  have c1 : ¬ ((n : Int) ≥ 20 ∧ c ≠ 0) := by omega
  have c2 : (n : Int) ≥ 0 := by omega
  unfold mul32 exact saturated max64
  simp only
  rw [Nat.mod_eq_of_lt hlo, Nat.mod_eq_of_lt hhi, if_neg c1, if_pos c2, if_pos c2]
  have e : (n : Int).toNat = n := by omega
  rw [e]
  rw [value_split v c] at h ⊢
  obtain ⟨h1, h2⟩ := up32_spec n _ _ h hl hn
  generalize up32 n _ = s at *
  rw [← h1]
  split <;> split <;> omega

theorem up64_spec (n hi lo : Nat) (h1 : hi < 2 ^ 128) (h2 : lo < 2 ^ 128) :
    up64 n (hi, lo) = (hi * 10 ^ n % 2 ^ 128, lo * 10 ^ n % 2 ^ 128) := by
  induction n generalizing hi lo with
  | zero => simp [up64, Nat.mod_eq_of_lt h1, Nat.mod_eq_of_lt h2]
  | succ n ih =>
    unfold up64
    rw [ih _ _ (Nat.mod_lt _ (by decide)) (Nat.mod_lt _ (by decide))]
    have e (x : Nat) : x * 10 % 2 ^ 128 * 10 ^ n % 2 ^ 128 = x * 10 ^ (n + 1) % 2 ^ 128 := by
      rw [Nat.mod_mul_mod, Nat.pow_succ 10 n, Nat.mul_comm (10 ^ n), Nat.mul_assoc]
    rw [e, e]

/-- **C31, 64-bit decimals, exponents from 0 to 19**: what the code computes. The result is the product
modulo `2^64` unless one of the partial products, modulo `2^128`, is seen to be too large. -/
theorem C31_positive64 (v c n : Nat) (hv : v < 2 ^ 64) (hc : c < 2 ^ 64) (h20 : n < 20) :
    mul64 v c n =
      if v / 2 ^ 32 * c * 10 ^ n % 2 ^ 128 < 2 ^ 32 ∧ v % 2 ^ 32 * c * 10 ^ n % 2 ^ 128 < 2 ^ 64 then v * c * 10 ^ n % 2 ^ 64
      else 2 ^ 64 - 1 := by
  have hlo : v % 2 ^ 32 * c < 2 ^ 96 := mul_lt_pow (m := 32) (n := 64) (by omega) hc
  have hhi : v / 2 ^ 32 * c < 2 ^ 96 := mul_lt_pow (m := 32) (n := 64) (by omega) hc
  have c1 : ¬ ((n : Int) ≥ 20 ∧ c ≠ 0) := by omega
  have c2 : (n : Int) ≥ 0 := by omega
  unfold mul64 max64
  simp only
  rw [Nat.mod_eq_of_lt (show v % 2 ^ 32 * c < 2 ^ 128 by omega), Nat.mod_eq_of_lt (show v / 2 ^ 32 * c < 2 ^ 128 by omega)]
  rw [if_neg c1, if_pos c2]
  have e : (n : Int).toNat = n := by omega
  rw [e, up64_spec n _ _ (by omega) (by omega)]
  have e2 : v * c * 10 ^ n = v / 2 ^ 32 * c * 10 ^ n * 2 ^ 32 + v % 2 ^ 32 * c * 10 ^ n := by
    rw [value_split v c, Nat.add_mul, Nat.mul_right_comm]
  rw [e2]
  generalize v / 2 ^ 32 * c * 10 ^ n = a at *
  generalize v % 2 ^ 32 * c * 10 ^ n = b at *
  by_cases h : a % 2 ^ 128 < 2 ^ 32 ∧ b % 2 ^ 128 < 2 ^ 64
  · rw [if_pos h, if_neg (by omega)]; omega
  · rw [if_neg h, if_pos (by omega)]

/-! ## Representable results -/

/-- **C31 (partial), 32-bit decimals**: a representable result is exact, for every value,
coefficient and exponent but the product of zero with a non-zero coefficient and an exponent from 20. -/
theorem C31_fits32_partial (v c : Nat) (x : Int) (hv : v < 2 ^ 64) (hc : c < 2 ^ 32)
    (h0 : v = 0 → c ≠ 0 → x < 20) (h : exact v c x < 2 ^ 64) : mul32 v c x = exact v c x := by
  by_cases hx : x ≥ 0
  · obtain ⟨n, rfl⟩ := Int.eq_ofNat_of_zero_le hx
    rcases Nat.eq_zero_or_pos c with hcz | hcz
    · subst hcz
      unfold mul32 exact
      have hu : ∀ m, up32 m (0, 0) = (0, 0) := by
        intro m; induction m with
        | zero => rfl
        | succ m ih => unfold up32; simpa using ih
      simp [hu]
    · unfold exact at *
      rw [if_pos hx] at h ⊢
      have e : ((n : Int)).toNat = n := by omega
      rw [e] at h ⊢
      have hn : n < 20 := by
        rcases Nat.eq_zero_or_pos v with hz | hz
        · have := h0 hz (by omega); omega
        · rcases Nat.lt_or_ge n 20 with h' | h'
          · exact h'
          · exfalso
            have h1 : 10 ^ 20 ≤ 10 ^ n := Nat.pow_le_pow_right (by omega) h'
            have h2 := Nat.le_mul_of_pos_left (10 ^ n) (Nat.mul_pos hz hcz)
            omega
      rcases Nat.eq_zero_or_pos n with hz | hz
      · subst hz
        rw [Nat.pow_zero, Nat.mul_one] at h ⊢
        have hs := value_split v c
        have hlo : v % 2 ^ 32 * c < 2 ^ 64 := mul_lt_pow (m := 32) (n := 32) (by omega) hc
        have hhi : v / 2 ^ 32 * c < 2 ^ 64 := mul_lt_pow (m := 32) (n := 32) (by omega) hc
        unfold mul32 max64
        simp only
        rw [Nat.mod_eq_of_lt hlo, Nat.mod_eq_of_lt hhi]
        have c1 : ¬ (((0 : Nat) : Int) ≥ 20 ∧ c ≠ 0) := by omega
        have c2 : ((0 : Nat) : Int) ≥ 0 := by omega
        rw [if_neg c1, if_pos c2]
        have e : (((0 : Nat) : Int)).toNat = 0 := by omega
        rw [e]
        show (if v / 2 ^ 32 * c > 0xffffffff then 2 ^ 64 - 1 else (v % 2 ^ 32 * c + v / 2 ^ 32 * c * 2 ^ 32 % 2 ^ 64) % 2 ^ 64) = v * c
        rw [if_neg (by omega), hs]
        omega
      · have hb : v % 2 ^ 32 * c * 10 < 2 ^ 64 := by
          have h1 : v % 2 ^ 32 * c ≤ v * c := Nat.mul_le_mul_right _ (Nat.mod_le _ _)
          have h2 : v * c * 10 ^ 1 ≤ v * c * 10 ^ n := Nat.mul_le_mul_left _ (Nat.pow_le_pow_right (by omega) hz)
          omega
        rw [C31_positive32_partial v c n hv hc hz hn (by omega) hb]
        unfold saturated exact
        rw [if_pos hx, e, if_pos h]
  · obtain ⟨n, rfl⟩ : ∃ n : Nat, x = -(n : Int) := ⟨(-x).toNat, by omega⟩
    unfold exact at *
    rw [if_neg hx] at h ⊢
    have e : (- -(n : Int)).toNat = n := by omega
    rw [e] at h ⊢
    rw [C31_negative32 v c n hv hc (by omega), if_pos, Nat.mod_eq_of_lt h]
    have h1 : v / 2 ^ 32 * c * 2 ^ 32 ≤ v * c := by rw [value_split v c]; omega
    have h2 : v / 2 ^ 32 * c / 10 ^ n * 2 ^ 32 ≤ v * c / 10 ^ n := by
      rw [Nat.le_div_iff_mul_le (Nat.pow_pos (by omega)), Nat.mul_right_comm]
      exact Nat.le_trans (Nat.mul_le_mul_right _ (Nat.div_mul_le_self _ _)) h1
    omega

/-- **C31 (partial), 64-bit decimals**: a representable result is exact, with the same exception. -/
theorem C31_fits64_partial (v c : Nat) (x : Int) (hv : v < 2 ^ 64) (hc : c < 2 ^ 64)
    (h0 : v = 0 → c ≠ 0 → x < 20) (h : exact v c x < 2 ^ 64) : mul64 v c x = exact v c x := by
  by_cases hx : x ≥ 0
  · obtain ⟨n, rfl⟩ := Int.eq_ofNat_of_zero_le hx
    rcases Nat.eq_zero_or_pos c with hcz | hcz
    · subst hcz
      unfold mul64 exact
      have hu : ∀ m, up64 m (0, 0) = (0, 0) := by
        intro m; rw [up64_spec _ _ _ (by decide) (by decide)]; simp
      simp [hu, max64]
    · unfold exact at *
      rw [if_pos hx] at h ⊢
      have e : ((n : Int)).toNat = n := by omega
      rw [e] at h ⊢
      have hn : n < 20 := by
        rcases Nat.eq_zero_or_pos v with hz | hz
        · have := h0 hz (by omega); omega
        · rcases Nat.lt_or_ge n 20 with h' | h'
          · exact h'
          · exfalso
            have h1 : 10 ^ 20 ≤ 10 ^ n := Nat.pow_le_pow_right (by omega) h'
            have h2 := Nat.le_mul_of_pos_left (10 ^ n) (Nat.mul_pos hz hcz)
            omega
      rw [C31_positive64 v c n hv hc hn, if_pos, Nat.mod_eq_of_lt h]
      have e2 : v * c * 10 ^ n = v / 2 ^ 32 * c * 10 ^ n * 2 ^ 32 + v % 2 ^ 32 * c * 10 ^ n := by
        rw [value_split v c, Nat.add_mul, Nat.mul_right_comm]
      rw [e2] at h
      generalize v / 2 ^ 32 * c * 10 ^ n = a at *
      generalize v % 2 ^ 32 * c * 10 ^ n = b at *
      omega
  · obtain ⟨n, rfl⟩ : ∃ n : Nat, x = -(n : Int) := ⟨(-x).toNat, by omega⟩
    unfold exact at *
    rw [if_neg hx] at h ⊢
    have e : (- -(n : Int)).toNat = n := by omega
    rw [e] at h ⊢
    rw [C31_negative64 v c n hv hc (by omega), if_pos, Nat.mod_eq_of_lt h]
    have h1 : v / 2 ^ 32 * c * 2 ^ 32 ≤ v * c := by rw [value_split v c]; omega
    have h2 : v / 2 ^ 32 * c / 10 ^ n * 2 ^ 32 ≤ v * c / 10 ^ n := by
      rw [Nat.le_div_iff_mul_le (Nat.pow_pos (by omega)), Nat.mul_right_comm]
      exact Nat.le_trans (Nat.mul_le_mul_right _ (Nat.div_mul_le_self _ _)) h1
    have h3 : v % 2 ^ 32 * c / 10 ^ n ≤ v * c / 10 ^ n :=
      Nat.div_le_div_right (Nat.mul_le_mul_right _ (Nat.mod_le _ _))
    omega

/-! ## Results that are not representable -/

/-- **C31 is false as stated**: the sum of the two partial products wraps (`exp = 0`), an intermediate
product wraps (`exp = 1`), and zero times `10^20` is not zero. -/
theorem C31_refuted32 : mul32 0x55555555FFFFFFFF 3 0 = 0x1FFFFFFFD ∧ exact 0x55555555FFFFFFFF 3 0 ≥ 2 ^ 64 ∧
    mul32 0xFFFFFFFF 0xFFFFFFFF 1 < 2 ^ 64 - 1 ∧ exact 0xFFFFFFFF 0xFFFFFFFF 1 ≥ 2 ^ 64 ∧
    mul32 0 1 20 = 2 ^ 64 - 1 ∧ exact 0 1 20 = 0 := by decide

theorem C31_refuted64 : mul64 0x55555555FFFFFFFF 3 0 = 0x1FFFFFFFD ∧ exact 0x55555555FFFFFFFF 3 0 ≥ 2 ^ 64 ∧
    mul64 0 1 20 = 2 ^ 64 - 1 ∧ exact 0 1 20 = 0 := by decide

theorem C31_refuted : ¬ ∀ v c x, v < 2 ^ 64 → c < 2 ^ 32 → mul32 v c x = saturated (exact v c x) := by
  intro h
  exact absurd (h 0 1 20 (by decide) (by decide)) (by decide)

/-- **C31 (partial), exponents from 20**: the maximum, which is right for every product but zero. -/
theorem C31_large_partial (v c : Nat) (x : Int) (hx : x ≥ 20) (hv : 0 < v) (hc : 0 < c) :
    mul32 v c x = saturated (exact v c x) ∧ mul64 v c x = saturated (exact v c x) := by
  have hb : 2 ^ 64 ≤ exact v c x := by
    unfold exact
    rw [if_pos (by omega)]
    have h1 : 10 ^ 20 ≤ 10 ^ x.toNat := Nat.pow_le_pow_right (by omega) (by omega)
    have h2 := Nat.le_mul_of_pos_left (10 ^ x.toNat) (Nat.mul_pos hv hc)
    omega
  have c1 : x ≥ 20 ∧ c ≠ 0 := ⟨hx, by omega⟩
  unfold saturated mul32 mul64
  simp only
  rw [if_pos c1, if_pos c1, if_neg (by omega)]
  exact ⟨rfl, rfl⟩

/-- **C31 (partial), 64-bit decimals, exponents from 0 to 19**: saturation happens exactly when a partial
product is seen to be too large; otherwise a product that is not representable is replaced by its
remainder modulo `2^64`, which differs from the required result unless it is the maximum. -/
theorem C31_saturates64_iff (v c n : Nat) (hv : v < 2 ^ 64) (hc : c < 2 ^ 64) (h20 : n < 20)
    (hbig : 2 ^ 64 ≤ exact v c n) : mul64 v c n = saturated (exact v c n) ↔
      2 ^ 32 ≤ v / 2 ^ 32 * c * 10 ^ n % 2 ^ 128 ∨ 2 ^ 64 ≤ v % 2 ^ 32 * c * 10 ^ n % 2 ^ 128 ∨
        v * c * 10 ^ n % 2 ^ 64 = 2 ^ 64 - 1 := by
  rw [C31_positive64 v c n hv hc h20]
  have hb : ¬ exact v c n < 2 ^ 64 := by omega
  unfold saturated
  rw [if_neg hb]
  split <;> omega

/-- The same for negative exponents. -/
theorem C31_saturates64_negative_iff (v c n : Nat) (hv : v < 2 ^ 64) (hc : c < 2 ^ 64) (hn : 0 < n)
    (hbig : 2 ^ 64 ≤ exact v c (-(n : Int))) : mul64 v c (-(n : Int)) = saturated (exact v c (-(n : Int))) ↔
      2 ^ 32 ≤ v / 2 ^ 32 * c / 10 ^ n ∨ 2 ^ 64 ≤ v % 2 ^ 32 * c / 10 ^ n ∨ v * c / 10 ^ n % 2 ^ 64 = 2 ^ 64 - 1 := by
  rw [C31_negative64 v c n hv hc hn]
  have hb : ¬ exact v c (-(n : Int)) < 2 ^ 64 := by omega
  unfold saturated
  rw [if_neg hb]
  split <;> omega

theorem C31_saturates32_negative_iff (v c n : Nat) (hv : v < 2 ^ 64) (hc : c < 2 ^ 32) (hn : 0 < n)
    (hbig : 2 ^ 64 ≤ exact v c (-(n : Int))) : mul32 v c (-(n : Int)) = saturated (exact v c (-(n : Int))) ↔
      2 ^ 32 ≤ v / 2 ^ 32 * c / 10 ^ n ∨ v * c / 10 ^ n % 2 ^ 64 = 2 ^ 64 - 1 := by
  rw [C31_negative32 v c n hv hc hn]
  have hb : ¬ exact v c (-(n : Int)) < 2 ^ 64 := by omega
  unfold saturated
  rw [if_neg hb]
  split <;> omega

/-! ## Examples -/

example : exact 123456789012 314 (-2) = 387654317497 ∧ exact 123456789012 314 (-2) < 2 ^ 64 ∧ mul32 123456789012 314 (-2) = 387654317497 := by decide
example : exact (2 ^ 64 - 1) 25 (-2) < 2 ^ 64 := by decide
example : 123456789012 * 5 * 10 ^ 3 < 2 ^ 96 ∧ 123456789012 % 2 ^ 32 * 5 * 10 < 2 ^ 64 := by decide
example : 2 ^ 64 ≤ exact (2 ^ 63) 3 0 ∧ mul64 (2 ^ 63) 3 0 = 2 ^ 64 - 1 := by decide
example : 2 ^ 64 ≤ exact (2 ^ 63) 33 (-1) ∧ mul32 (2 ^ 63) 33 (-1) = 2 ^ 64 - 1 := by decide

#print axioms C31_negative32
#print axioms C31_negative64
#print axioms C31_positive32_partial
#print axioms C31_positive64
#print axioms C31_fits32_partial
#print axioms C31_fits64_partial
#print axioms C31_large_partial
#print axioms C31_refuted
#print axioms C31_saturates64_iff
#print axioms C31_saturates64_negative_iff
#print axioms C31_saturates32_negative_iff

end Verif.Decimal
