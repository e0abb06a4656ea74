import Verif.TrigLemmas

/-!
# C123: the approximations of the trigonometric functions are close to them for every argument

The specification is Mathlib's sine, cosine, tangent and arc tangent, and, for the arc tangent of two
arguments, the polar angle of the point.
-/

namespace Verif.Trig

open Real

/-! ## Sine -/

/-- **C123** `CCSimdSin` is within 0.0017 of the sine, for every argument. -/
theorem C123_sin (a : ℝ) : |sin a - Real.sin a| ≤ 0.0017 := by
  obtain ⟨s, r, hs, r0, r1, f1, _, m, e, _⟩ := turn |a|
  have h := abs_le.1 (posPiRadSin_error r0 r1.le)
  have key : |posPiRadSin r * turnSign s - Real.sin (|a|)| ≤ 0.0017 := by
    rw [e, turnSign, abs_le]
    rcases hs with rfl | rfl <;> constructor <;> linarith
  unfold sin
  simp only [f1, m]
  unfold xorSign signBit
  rcases lt_or_ge a 0 with ha | ha
  · rw [abs_of_neg ha, Real.sin_neg] at key
    simp only [ha, decide_true, if_true]
    rw [abs_le] at key ⊢
    constructor <;> linarith
  · rw [abs_of_nonneg ha] at key
    simpa [not_lt.2 ha] using key

/-- **C123** `CCSimdPosSin` is within 0.0017 of the sine; its argument need not be positive. -/
theorem C123_pos_sin (a : ℝ) : |posSin a - Real.sin a| ≤ 0.0017 := by
  obtain ⟨s, r, hs, r0, r1, f1, _, m, e, _⟩ := turn a
  have h := abs_le.1 (posPiRadSin_error r0 r1.le)
  unfold posSin
  simp only [f1, m]
  rw [e, turnSign, abs_le]
  rcases hs with rfl | rfl <;> constructor <;> linarith

/-- **C123** `CCSimdPosPiRadSin` is within 0.0017 of the sine of 0 to π. -/
theorem C123_pos_pi_rad_sin (a : ℝ) (h0 : 0 ≤ a) (h1 : a ≤ π) :
    |posPiRadSin a - Real.sin a| ≤ 0.0017 := posPiRadSin_error h0 h1

example : (0 : ℝ) ≤ 1 ∧ (1 : ℝ) ≤ π := ⟨zero_le_one, by linarith [Real.pi_gt_three]⟩

/-- **C123** `CCSimdPiRadSin` is within 0.0017 of the sine of -π to π. -/
theorem C123_pi_rad_sin (a : ℝ) (h : |a| ≤ π) : |piRadSin a - Real.sin a| ≤ 0.0017 := by
  have key := posPiRadSin_error (abs_nonneg a) h
  unfold piRadSin xorSign signBit
  rcases lt_or_ge a 0 with ha | ha
  · rw [abs_of_neg ha, Real.sin_neg] at key
    simp only [ha, abs_of_neg ha, decide_true, if_true]
    rw [abs_le] at key ⊢
    constructor <;> linarith
  · rw [abs_of_nonneg ha] at key
    simpa [not_lt.2 ha, abs_of_nonneg ha] using key

example : |(-2 : ℝ)| ≤ π := by rw [abs_of_neg (by norm_num)]; linarith [Real.pi_gt_three]

/-- Outside of that range `CCSimdPiRadSin` is no sine: at 3π/2 it is -3/2. -/
theorem C123_range_refuted : piRadSin (3 * π / 2) = -(3 / 2) := by
  have p := Real.pi_pos
  have h : ¬ 3 * π / 2 < 0 := by linarith
  unfold piRadSin xorSign signBit posPiRadSin
  simp only [h, decide_false, Bool.false_eq_true, if_false, abs_of_nonneg (not_lt.1 h)]
  rw [div_eq_iff (by nlinarith)]
  ring

theorem sin_reduced (k : ℤ) {t : ℝ} (h : |t| ≤ π / 2) :
    posSin (π / 2 + t + k * π) = (-1) ^ k * bhaskara t := by
  obtain ⟨s, r, hs, r0, r1, f1, _, m, _, q, e⟩ := turn (π / 2 + t + k * π)
  have p := Real.pi_pos
  have hb := abs_le.1 h
  unfold posSin
  simp only [f1, m, posPiRadSin_eq, turnSign]
  -- `r` is `π / 2 + t`, or 0 where that is π
  have par : ∀ j : ℤ, ((-1 : ℝ)) ^ (2 * j) = 1 := fun j => by rw [zpow_mul]; norm_num
  rcases hs with rfl | rfl
  · have hk : r = π / 2 + t + (k - 2 * q) * π := by linarith
    have c : k - 2 * q = 0 ∨ k - 2 * q = -1 := by
      have a1 : ((k - 2 * q : ℤ) : ℝ) < 1 := by
        push_cast; by_contra hh; rw [not_lt] at hh; nlinarith
      have a2 : (-2 : ℝ) < ((k - 2 * q : ℤ) : ℝ) := by
        push_cast; by_contra hh; rw [not_lt] at hh; nlinarith
      have a1' : k - 2 * q < 1 := by exact_mod_cast a1
      have a2' : -2 < k - 2 * q := by exact_mod_cast a2
      omega
    rcases c with c | c
    · have hk' : k = 2 * q := by omega
      have cr : (k : ℝ) - 2 * q = 0 := by exact_mod_cast c
      rw [hk, cr, hk', par]
      ring_nf
    · have hk' : k = 2 * (q - 1) + 1 := by omega
      have cr : (k : ℝ) - 2 * q = -1 := by exact_mod_cast c
      have t1 : t = π / 2 := by rw [hk, cr] at r0; linarith
      have z : bhaskara t = 0 := by rw [t1, bhaskara]; ring_nf
      have z' : bhaskara (r - π / 2) = 0 := by rw [hk, cr, t1, bhaskara]; ring_nf
      rw [z, z']; ring
  · have hk : r = π / 2 + t + (k - 2 * q - 1) * π := by linarith
    have c : k - 2 * q - 1 = 0 ∨ k - 2 * q - 1 = -1 := by
      have a1 : ((k - 2 * q - 1 : ℤ) : ℝ) < 1 := by
        push_cast; by_contra hh; rw [not_lt] at hh; nlinarith
      have a2 : (-2 : ℝ) < ((k - 2 * q - 1 : ℤ) : ℝ) := by
        push_cast; by_contra hh; rw [not_lt] at hh; nlinarith
      have a1' : k - 2 * q - 1 < 1 := by exact_mod_cast a1
      have a2' : -2 < k - 2 * q - 1 := by exact_mod_cast a2
      omega
    rcases c with c | c
    · have hk' : k = 2 * q + 1 := by omega
      have cr : (k : ℝ) - 2 * q - 1 = 0 := by exact_mod_cast c
      rw [hk, cr, hk', zpow_add₀ (by norm_num), par]
      ring_nf
    · have cr : (k : ℝ) - 2 * q - 1 = -1 := by exact_mod_cast c
      have t1 : t = π / 2 := by rw [hk, cr] at r0; linarith
      have z : bhaskara t = 0 := by rw [t1, bhaskara]; ring_nf
      have z' : bhaskara (r - π / 2) = 0 := by rw [hk, cr, t1, bhaskara]; ring_nf
      rw [z, z']; ring

/-- every argument is a whole number of half turns away from one of at most a quarter turn -/
theorem reduced (a : ℝ) : ∃ (k : ℤ) (t : ℝ), |t| ≤ π / 2 ∧ a = π / 2 + t + k * π := by
  obtain ⟨s, r, hs, r0, r1, _, _, _, _, q, e⟩ := turn a
  rcases hs with rfl | rfl
  · exact ⟨2 * q, r - π / 2, abs_le.2 ⟨by linarith, by linarith⟩, by push_cast; linarith⟩
  · exact ⟨2 * q + 1, r - π / 2, abs_le.2 ⟨by linarith, by linarith⟩, by push_cast; linarith⟩

theorem bhaskara_neg (t : ℝ) : bhaskara (-t) = bhaskara t := by unfold bhaskara; rw [neg_mul_neg]

theorem posSin_neg (a : ℝ) : posSin (-a) = -posSin a := by
  obtain ⟨k, t, h, rfl⟩ := reduced a
  have e : -(π / 2 + t + k * π) = π / 2 + -t + ((-k - 1 : ℤ) : ℝ) * π := by push_cast; ring
  rw [e, sin_reduced _ (by rwa [abs_neg]), sin_reduced _ h, bhaskara_neg, zpow_sub₀ (by norm_num),
    zpow_neg, ← inv_zpow]
  norm_num
  ring

theorem sin_eq_posSin (a : ℝ) : sin a = posSin a := by
  have e : ∀ b, 0 ≤ b → sin b = posSin b := by
    intro b hb
    unfold sin posSin xorSign signBit
    simp [not_lt.2 hb, abs_of_nonneg hb]
  rcases lt_or_ge a 0 with ha | ha
  · have : sin a = -sin (-a) := by
      have hn : ¬ -a < 0 := by linarith
      unfold sin xorSign signBit
      simp only [ha, hn, abs_neg, decide_true, decide_false, if_true, Bool.false_eq_true, if_false]
      ring
    rw [this, e _ (by linarith), posSin_neg, neg_neg]
  · exact e a ha

/-- **C123** The approximate sine is odd, changes its sign after a half turn, repeats after a turn,
and stays between -1 and 1; `CCSimdPosSin` is the same function. -/
theorem C123_sin_shape (a : ℝ) : sin (-a) = -sin a ∧ sin (a + π) = -sin a ∧
    sin (a + 2 * π) = sin a ∧ |sin a| ≤ 1 ∧ posSin a = sin a := by
  have half : ∀ b, posSin (b + π) = -posSin b := by
    intro b
    obtain ⟨k, t, h, rfl⟩ := reduced b
    have e : π / 2 + t + k * π + π = π / 2 + t + ((k + 1 : ℤ) : ℝ) * π := by push_cast; ring
    rw [e, sin_reduced _ h, sin_reduced _ h, zpow_add₀ (by norm_num)]
    norm_num
  simp only [sin_eq_posSin]
  refine ⟨posSin_neg a, half a, ?_, ?_, trivial⟩
  · rw [show a + 2 * π = a + π + π by ring, half, half, neg_neg]
  · obtain ⟨k, t, h, rfl⟩ := reduced a
    obtain ⟨b0, b1⟩ := bhaskara_bound h
    rw [sin_reduced _ h, abs_mul, abs_zpow, abs_neg, abs_one, one_zpow, one_mul, abs_of_nonneg b0]
    exact b1

/-- **C123** The approximate sine is exact at 0, a twelfth, a quarter and five twelfths of a turn, any
number of half turns away. -/
theorem C123_sin_exact (k : ℤ) : sin (k * π) = 0 ∧ sin (π / 6 + k * π) = (-1) ^ k / 2 ∧
    sin (π / 2 + k * π) = (-1) ^ k ∧ sin (5 * π / 6 + k * π) = (-1) ^ k / 2 := by
  have p := Real.pi_pos
  have p0 : π ≠ 0 := p.ne'
  simp only [sin_eq_posSin]
  have ab : ∀ t : ℝ, -(π / 2) ≤ t → t ≤ π / 2 → |t| ≤ π / 2 := fun t h1 h2 => abs_le.2 ⟨h1, h2⟩
  have b1 : bhaskara (-(π / 2)) = 0 := by unfold bhaskara; ring_nf
  have b2 : bhaskara (-(π / 3)) = 1 / 2 := by
    unfold bhaskara
    rw [div_eq_iff (by nlinarith [mul_self_nonneg (-(π / 3))])]; ring
  have b3 : bhaskara 0 = 1 := by unfold bhaskara; simp [p0]
  have b4 : bhaskara (π / 3) = 1 / 2 := by rw [← b2, bhaskara_neg]
  refine ⟨?_, ?_, ?_, ?_⟩
  · rw [show (k : ℝ) * π = π / 2 + -(π / 2) + k * π by ring, sin_reduced k (ab _ (by linarith) (by linarith)), b1,
      mul_zero]
  · rw [show π / 6 + (k : ℝ) * π = π / 2 + -(π / 3) + k * π by ring,
      sin_reduced k (ab _ (by linarith) (by linarith)), b2]; ring
  · rw [show π / 2 + (k : ℝ) * π = π / 2 + 0 + k * π by ring,
      sin_reduced k (ab _ (by linarith) (by linarith)), b3, mul_one]
  · rw [show 5 * π / 6 + (k : ℝ) * π = π / 2 + π / 3 + k * π by ring,
      sin_reduced k (ab _ (by linarith) (by linarith)), b4]; ring

/-- The approximate sine is not within 0.001 of the sine: at an eighth of a turn it is 12/17. -/
theorem C123_sin_accuracy_refuted : sin (π / 4) = 12 / 17 ∧
    0.001 < |sin (π / 4) - Real.sin (π / 4)| := by
  have p := Real.pi_pos
  have h : sin (π / 4) = 12 / 17 := by
    rw [sin_eq_posSin, show π / 4 = π / 2 + -(π / 4) + ((0 : ℤ) : ℝ) * π by push_cast; ring,
      sin_reduced 0 (abs_le.2 ⟨by linarith, by linarith⟩)]
    unfold bhaskara
    rw [zpow_zero, one_mul, div_eq_iff (by nlinarith [mul_self_nonneg (-(π / 4))])]; ring
  refine ⟨h, ?_⟩
  rw [h, Real.sin_pi_div_four, abs_sub_comm]
  have : (1.414 : ℝ) ≤ √2 := Real.le_sqrt_of_sq_le (by norm_num)
  refine lt_of_lt_of_le ?_ (le_abs_self _)
  norm_num at this ⊢
  linarith

/-! ## Cosine -/

/-- **C123** `CCSimdHalfPiRadCos` is within 0.0017 of the cosine of -π/2 to π/2, and within 0.0006 when
more accuracy is asked for. -/
theorem C123_half_pi_rad_cos (acc : Nat) (a : ℝ) (h : |a| ≤ π / 2) :
    |halfPiRadCos acc a - Real.cos a| ≤ if acc = 0 then 0.0017 else 0.0006 :=
  halfPiRadCos_error acc h

example : |(-1 : ℝ)| ≤ π / 2 := by rw [abs_of_neg (by norm_num)]; linarith [Real.pi_gt_three]

/-- **C123** `CCSimdCos` is within 0.0017 of the cosine, for every argument, and within 0.0006 when
more accuracy is asked for. -/
theorem C123_cos (acc : Nat) (a : ℝ) :
    |cos acc a - Real.cos a| ≤ if acc = 0 then 0.0017 else 0.0006 := by
  obtain ⟨s, r, hs, r0, r1, _, f2, m, e, _⟩ := turn (a + π / 2)
  have h := halfPiRadCos_error acc (a := r - π / 2) (abs_le.2 ⟨by linarith, by linarith⟩)
  rw [Real.cos_sub_pi_div_two] at h
  rw [Real.sin_add_pi_div_two] at e
  unfold cos
  simp only [f2, m]
  rw [e, turnSign]
  generalize (if acc = 0 then (0.0017 : ℝ) else 0.0006) = ε at *
  rw [abs_le] at h ⊢
  rcases hs with rfl | rfl <;> constructor <;> linarith

/-- **C123** The approximate cosine repeats after a turn, changes its sign after a half turn, and, in
its default form, is the approximate sine a quarter turn on, hence even. -/
theorem C123_cos_shape (acc : Nat) (a : ℝ) : cos acc (a + π) = -cos acc a ∧
    cos acc (a + 2 * π) = cos acc a ∧ cos 0 a = sin (a + π / 2) ∧ cos 0 (-a) = cos 0 a := by
  have p := Real.pi_pos
  have half : ∀ b, cos acc (b + π) = -cos acc b := by
    intro b
    unfold cos
    have e1 : mod (b + π + π / 2) π = mod (b + π / 2) π := by
      unfold mod floor
      rw [show (b + π + π / 2) / π = (b + π / 2) / π + ((1 : ℤ) : ℝ) by
        push_cast; field_simp; ring, Int.floor_add_intCast]
      push_cast; ring
    obtain ⟨s, r, hs, r0, r1, _, f2, m, e, q, hq⟩ := turn (b + π / 2)
    obtain ⟨s', r', hs', r0', r1', _, f2', m', e', q', hq'⟩ := turn (b + π + π / 2)
    simp only [f2, f2', e1, m]
    have hr : r' = r := by rw [← m', e1, m]
    have hh : s' - s = 1 - 2 * (q' - q) := by
      have : (s' - s - 1 + 2 * (q' - q)) * π = 0 := by rw [hr] at hq'; linarith
      rcases mul_eq_zero.1 this with h | h
      · linarith
      · exact absurd h p.ne'
    have ne : s' ≠ s := by
      intro h
      rw [h, sub_self] at hh
      have : ((2 * (q' - q) : ℤ) : ℝ) = ((1 : ℤ) : ℝ) := by push_cast; linarith
      have : 2 * (q' - q) = 1 := by exact_mod_cast this
      omega
    unfold turnSign
    rcases hs with rfl | rfl <;> rcases hs' with rfl | rfl
    · exact absurd rfl ne
    · ring
    · ring
    · exact absurd rfl ne
  have co : ∀ b, cos 0 b = sin (b + π / 2) := by
    intro b
    rw [sin_eq_posSin]
    obtain ⟨s, r, hs, r0, r1, f1, f2, m, e, q, hq⟩ := turn (b + π / 2)
    unfold cos posSin
    simp only [f1, f2, m, halfPiRadCos_zero, posPiRadSin_eq]
  refine ⟨half a, ?_, co a, ?_⟩
  · rw [show a + 2 * π = a + π + π by ring, half, half, neg_neg]
  · rw [co, co, show -a + π / 2 = -(a + π / 2) + π by ring]
    rw [(C123_sin_shape (-(a + π / 2))).2.1, (C123_sin_shape (a + π / 2)).1, neg_neg]

/-- The more accurate cosine is not even: at a quarter turn on either side it has opposite signs. -/
theorem C123_cos_even_refuted (acc : Nat) (h : acc ≠ 0) :
    cos acc (-(π / 2)) ≠ cos acc (π / 2) := by
  have p := Real.pi_pos
  have e := (C123_cos_shape acc (-(π / 2))).1
  rw [show -(π / 2) + π = π / 2 by ring] at e
  rw [e]
  intro c
  have z : cos acc (-(π / 2)) = 0 := by linarith
  unfold cos mod floor at z
  simp only [neg_add_cancel, zero_div, Int.floor_zero] at z
  unfold halfPiRadCos madd turnSign at z
  simp only [if_neg h] at z
  norm_num at z
  have p1 := Real.pi_gt_d6
  have p2 := Real.pi_lt_d6
  nlinarith [mul_self_nonneg (π - 3.141592)]

example : (1 : Nat) ≠ 0 := by decide

/-! ## Tangent, secant, cosecant, cotangent -/

/-- the error of a quotient of two approximations -/
theorem quotient_error {S C s c e : ℝ} (hS : |S - s| ≤ e) (hC : |C - c| ≤ e) (hs : |s| ≤ 1)
    (hc : |c| ≤ 1) (h : e < |c|) : |S / C - s / c| ≤ 2 * e / (|c| * (|c| - e)) := by
  have e0 : 0 ≤ e := (abs_nonneg _).trans hS
  have c0 : 0 < |c| := e0.trans_lt h
  have cn : c ≠ 0 := abs_pos.1 c0
  have hCa : |c| - e ≤ |C| := by
    have := abs_sub_abs_le_abs_sub c C
    rw [abs_sub_comm] at this
    linarith
  have C0 : 0 < |C| := by linarith
  have Cn : C ≠ 0 := abs_pos.1 C0
  have eq : S / C - s / c = ((S - s) * c - s * (C - c)) / (c * C) := by
    field_simp
    ring
  rw [eq, abs_div, abs_mul c C]
  have num : |(S - s) * c - s * (C - c)| ≤ 2 * e := by
    refine (abs_sub _ _).trans ?_
    rw [abs_mul, abs_mul]
    nlinarith [abs_nonneg (S - s), abs_nonneg (C - c), abs_nonneg s, abs_nonneg c]
  have d0 : 0 < |c| * (|c| - e) := by
    apply mul_pos c0; linarith
  exact div_le_div₀ (by linarith) num d0 (mul_le_mul_of_nonneg_left hCa c0.le)

theorem cos_error (acc : Nat) (a : ℝ) : |cos acc a - Real.cos a| ≤ 0.0017 := by
  refine (C123_cos acc a).trans ?_
  split <;> norm_num

/-- **C123** Away from the poles the approximate tangent, cosecant, secant and cotangent are close to
the functions they stand for; `d` is the distance kept of the divisor from zero. -/
theorem C123_quotients (acc : Nat) (a : ℝ) :
    (0.0017 < |Real.cos a| → |tan acc a - Real.tan a| ≤
      2 * 0.0017 / (|Real.cos a| * (|Real.cos a| - 0.0017))) ∧
    (0.0017 < |Real.cos a| → |sec acc a - 1 / Real.cos a| ≤
      2 * 0.0017 / (|Real.cos a| * (|Real.cos a| - 0.0017))) ∧
    (0.0017 < |Real.sin a| → |csc a - 1 / Real.sin a| ≤
      2 * 0.0017 / (|Real.sin a| * (|Real.sin a| - 0.0017))) ∧
    (0.0017 < |Real.sin a| → |cot acc a - Real.cos a / Real.sin a| ≤
      2 * 0.0017 / (|Real.sin a| * (|Real.sin a| - 0.0017))) := by
  have hs := Real.abs_sin_le_one a
  have hc := Real.abs_cos_le_one a
  have one : |(1 : ℝ) - 1| ≤ 0.0017 := by norm_num
  refine ⟨fun h => ?_, fun h => ?_, fun h => ?_, fun h => ?_⟩
  · rw [tan, Real.tan_eq_sin_div_cos]
    exact quotient_error (C123_sin a) (cos_error acc a) hs hc h
  · exact quotient_error one (cos_error acc a) (by simp) hc h
  · exact quotient_error one (C123_sin a) (by simp) hs h
  · rw [cot, tan, one_div_div]
    exact quotient_error (cos_error acc a) (C123_sin a) hc hs h

example : (0.0017 : ℝ) < |Real.cos 0| ∧ (0.0017 : ℝ) < |Real.sin (π / 2)| := by norm_num

/-! ## Arc tangent -/

/-- the arc tangent of a number of more than 1 in magnitude, through its reciprocal -/
theorem arcTan_cases (acc : Nat) (a : ℝ) :
    (|a| ≤ 1 → arcTan acc a = qtrPiArcTan acc a) ∧
    (1 < a → arcTan acc a = π / 2 - qtrPiArcTan acc a⁻¹) ∧
    (a < -1 → arcTan acc a = -(π / 2) - qtrPiArcTan acc a⁻¹) := by
  refine ⟨fun h => ?_, fun h => ?_, fun h => ?_⟩
  · have h' := abs_le.1 h
    have n1 : ¬ a < -1 := by linarith
    unfold arcTan xorSign
    simp [n1, h'.2]
  · have n1 : ¬ a < -1 := by linarith
    have n2 : ¬ a ≤ 1 := by linarith
    unfold arcTan xorSign
    simp [n1, n2]
  · have n2 : ¬ -a ≤ 1 := by linarith
    unfold arcTan xorSign
    simp [h, n2]

/-- **C123** `CCSimdQtrPiArcTan` is within 0.005 of the arc tangent of -1 to 1, and within 0.000012
when more accuracy is asked for. -/
theorem C123_qtr_pi_arctan (acc : Nat) (a : ℝ) (h : |a| ≤ 1) :
    |qtrPiArcTan acc a - Real.arctan a| ≤ if acc < 2 then 0.005 else 0.000012 := qtr_error acc h

example : |(-1 / 2 : ℝ)| ≤ 1 := by rw [abs_of_neg (by norm_num)]; norm_num

/-- **C123** `CCSimdArcTan` is within 0.005 of the arc tangent, for every argument, and within 0.000012
when more accuracy is asked for. -/
theorem C123_arctan (acc : Nat) (a : ℝ) :
    |arcTan acc a - Real.arctan a| ≤ if acc < 2 then 0.005 else 0.000012 := by
  obtain ⟨c1, c2, c3⟩ := arcTan_cases acc a
  rcases le_or_gt |a| 1 with h | h
  · rw [c1 h]; exact qtr_error acc h
  · have inv : |a⁻¹| ≤ 1 := by rw [abs_inv]; exact inv_le_one_of_one_le₀ h.le
    have key := qtr_error acc inv
    generalize (if acc < 2 then (0.005 : ℝ) else 0.000012) = ε at *
    rcases lt_abs.1 h with h | h
    · rw [Real.arctan_inv_of_pos (by linarith)] at key
      rw [c2 h]
      rw [abs_le] at key ⊢
      constructor <;> linarith
    · rw [Real.arctan_inv_of_neg (by linarith)] at key
      rw [c3 (by linarith)]
      rw [abs_le] at key ⊢
      constructor <;> linarith

/-- **C123** `CCSimdArcTan2` of a point is within 0.005 of its polar angle (taken from -π, left out, to
π), at any distance from the origin and in every direction, and within 0.000012 when more accuracy is
asked for. -/
theorem C123_arctan2 (acc : Nat) (r θ : ℝ) (hr : 0 < r) (h0 : -π < θ) (h1 : θ ≤ π) :
    |arcTan2 acc (r * Real.sin θ) (r * Real.cos θ) - θ| ≤ if acc < 2 then 0.005 else 0.000012 := by
  have p := Real.pi_pos
  have key := C123_arctan acc (Real.tan θ)
  have quot : r * Real.sin θ / (r * Real.cos θ) = Real.tan θ := by
    rw [mul_div_mul_left _ _ hr.ne', Real.tan_eq_sin_div_cos]
  have epos : (0 : ℝ) ≤ if acc < 2 then 0.005 else 0.000012 := by split <;> norm_num
  generalize (if acc < 2 then (0.005 : ℝ) else 0.000012) = ε at *
  unfold arcTan2 xorSign signBit
  simp only [quot]
  -- to the right of the vertical axis
  rcases lt_or_ge θ (-(π / 2)) with a | a
  · have c : Real.cos θ < 0 := by
      rw [← Real.cos_neg]
      exact Real.cos_neg_of_pi_div_two_lt_of_lt (by linarith) (by linarith)
    have s : Real.sin θ < 0 := Real.sin_neg_of_neg_of_neg_pi_lt (by linarith) h0
    have x : r * Real.cos θ < 0 := mul_neg_of_pos_of_neg hr c
    have y : r * Real.sin θ < 0 := mul_neg_of_pos_of_neg hr s
    have t : Real.arctan (Real.tan θ) = θ + π := by
      rw [← Real.tan_add_pi]
      exact Real.arctan_tan (by linarith) (by linarith)
    rw [t] at key
    simp only [x.ne, x.le, y, ne_eq, not_false_eq_true, decide_true, if_true]
    rw [abs_le] at key ⊢
    constructor <;> linarith
  rcases eq_or_lt_of_le a with a | a
  · have x : Real.cos θ = 0 := by rw [← a, Real.cos_neg, Real.cos_pi_div_two]
    have y : r * Real.sin θ < 0 := by
      rw [← a, Real.sin_neg, Real.sin_pi_div_two]; linarith
    simp only [x, y, mul_zero, ne_eq, not_true_eq_false, decide_false, decide_true,
      Bool.false_eq_true, if_false, if_true]
    rw [← a]
    simpa using epos
  rcases lt_trichotomy θ (π / 2) with b | b | b
  · have c : 0 < Real.cos θ := Real.cos_pos_of_mem_Ioo ⟨a, b⟩
    have x : 0 < r * Real.cos θ := mul_pos hr c
    rw [Real.arctan_tan a b] at key
    simp only [x.ne', not_le.2 x, ne_eq, not_false_eq_true, decide_true, if_true, decide_false,
      Bool.false_eq_true, if_false, neg_zero, ite_self, add_zero]
    exact key
  · have x : Real.cos θ = 0 := by rw [b, Real.cos_pi_div_two]
    have y : ¬ r * Real.sin θ < 0 := by
      rw [b, Real.sin_pi_div_two]; linarith
    simp only [x, y, mul_zero, ne_eq, not_true_eq_false, decide_false,
      Bool.false_eq_true, if_false]
    rw [b]
    simpa using epos
  · have c : Real.cos θ < 0 := Real.cos_neg_of_pi_div_two_lt_of_lt b (by linarith)
    have s : 0 ≤ Real.sin θ := Real.sin_nonneg_of_nonneg_of_le_pi (by linarith) h1
    have x : r * Real.cos θ < 0 := mul_neg_of_pos_of_neg hr c
    have y : ¬ r * Real.sin θ < 0 := not_lt.2 (mul_nonneg hr.le s)
    have t : Real.arctan (Real.tan θ) = θ - π := by
      rw [← Real.tan_sub_pi]
      exact Real.arctan_tan (by linarith) (by linarith)
    rw [t] at key
    simp only [x.ne, x.le, y, ne_eq, not_false_eq_true, decide_true, if_true, decide_false,
      Bool.false_eq_true, if_false]
    rw [abs_le] at key ⊢
    constructor <;> linarith

example : (0 : ℝ) < 2 ∧ -π < 3 ∧ 3 ≤ π :=
  ⟨by norm_num, by linarith [Real.pi_pos], Real.pi_gt_three.le⟩

/-- At the origin, which has no angle, `CCSimdArcTan2` answers a quarter turn. -/
theorem C123_arctan2_origin (acc : Nat) : arcTan2 acc 0 0 = π / 2 := by
  unfold arcTan2 xorSign signBit
  simp

#print axioms C123_sin
#print axioms C123_pos_sin
#print axioms C123_pos_pi_rad_sin
#print axioms C123_pi_rad_sin
#print axioms C123_range_refuted
#print axioms C123_sin_shape
#print axioms C123_sin_exact
#print axioms C123_sin_accuracy_refuted
#print axioms C123_half_pi_rad_cos
#print axioms C123_cos
#print axioms C123_cos_shape
#print axioms C123_cos_even_refuted
#print axioms C123_quotients
#print axioms C123_qtr_pi_arctan
#print axioms C123_arctan
#print axioms C123_arctan2
#print axioms C123_arctan2_origin

end Verif.Trig
