import Verif.ExpoLemmas

/-!
# C124: exponentials, logarithms, powers and the inverse sine and cosine

The specification is Mathlib's exponential, logarithm, power of reals, arc sine and arc cosine.
-/

namespace Verif.Expo

open Real Verif.Trig

/-! ## Powers of two -/

/-- **C124** `CCSimdPow2` gives the power of two with the part of the exponent after the point dropped,
exactly, for every exponent from -127 to 128 (both left out). -/
theorem C124_pow2 (a : ℝ) (h0 : -127 < a) (h1 : a < 128) :
    ∃ n : ℤ, pow2 a = some ((2 : ℝ) ^ n) ∧ |(n : ℝ)| ≤ |a| ∧ |a| < |(n : ℝ)| + 1 ∧ 0 ≤ n * a := by
  have r : -126 ≤ trunc a ∧ trunc a ≤ 127 ∧ |(trunc a : ℝ)| ≤ |a| ∧ |a| < |(trunc a : ℝ)| + 1 ∧
      0 ≤ trunc a * a := by
    rcases le_or_gt 0 a with h | h
    · obtain ⟨t0, t1⟩ := trunc_nonneg h
      have n0 : 0 ≤ trunc a := by
        have : (-1 : ℝ) < trunc a := by linarith
        have : -1 < trunc a := by exact_mod_cast this
        omega
      have n1 : trunc a < 128 := by
        have : (trunc a : ℝ) < 128 := by linarith
        exact_mod_cast this
      have n0' : (0 : ℝ) ≤ trunc a := by exact_mod_cast n0
      rw [abs_of_nonneg h, abs_of_nonneg n0']
      exact ⟨by omega, by omega, t0, t1, mul_nonneg n0' h⟩
    · obtain ⟨t0, t1⟩ := trunc_neg h
      have n0 : trunc a ≤ 0 := by
        have : (trunc a : ℝ) < 1 := by linarith
        have : trunc a < 1 := by exact_mod_cast this
        omega
      have n1 : -127 < trunc a := by
        have : (-127 : ℝ) < trunc a := by linarith
        exact_mod_cast this
      have n0' : (trunc a : ℝ) ≤ 0 := by exact_mod_cast n0
      rw [abs_of_neg h, abs_of_nonpos n0']
      exact ⟨by omega, by omega, by linarith, by linarith, mul_nonneg_of_nonpos_of_nonpos n0' h.le⟩
  exact ⟨trunc a, decode_pow2 _ r.1 r.2.1, r.2.2⟩

example : (-127 : ℝ) < -3.5 ∧ (-3.5 : ℝ) < 128 := by norm_num

/-- Beyond, the exponent runs into the sign bit: an exponent of -128 gives an infinity (minus infinity)
where the power is next to nothing, one of 130 a small negative number where the power is too large. -/
theorem C124_pow2_refuted : pow2 (-128) = none ∧ pow2 129 = some 0 ∧
    pow2 130 = some (-((2 : ℝ) ^ (-126 : ℤ))) := by
  have t1 : trunc (-128) = -128 := by have := trunc_int (-128); push_cast at this; exact this
  have t2 : trunc 129 = 129 := by have := trunc_int 129; push_cast at this; exact this
  have t3 : trunc 130 = 130 := by have := trunc_int 130; push_cast at this; exact this
  have b1 : pow2Bits (-128) = 0xff800000#32 := by decide
  have b2 : pow2Bits 129 = 0x80000000#32 := by decide
  have b3 : pow2Bits 130 = 0x80800000#32 := by decide
  refine ⟨?_, ?_, ?_⟩
  · rw [pow2, t1, b1]; simp [decode]
  · rw [pow2, t2, b2]; simp [decode]
  · rw [pow2, t3, b3]
    have g : (0x80800000#32).getLsbD 31 = true := by decide
    unfold decode
    simp only [g, if_true]
    norm_num

/-! ## Logarithms -/

/-- **C124** `CCSimdLog2` is within 0.00015 of the logarithm to base 2, for every positive normal float. -/
theorem C124_log2 (a : ℝ) (h : (2 : ℝ) ^ (-126 : ℤ) ≤ a) : |log2 a - Real.logb 2 a| ≤ 0.00015 := by
  obtain ⟨e, a0, m0, m1⟩ := fields_pos h
  have key := log2Frac_error m0 m1.le
  have q : (2 : ℝ) ^ Int.log 2 a ≠ 0 := by positivity
  rw [Real.logb_div a0.ne' q, ← Real.rpow_intCast, Real.logb_rpow (by norm_num) (by norm_num)] at key
  rw [Real.rpow_intCast] at key
  rw [log2_eq, e]
  simp only
  rwa [show (Int.log 2 a : ℝ) + log2Frac (a / 2 ^ Int.log 2 a) - Real.logb 2 a
    = log2Frac (a / 2 ^ Int.log 2 a) - (Real.logb 2 a - Int.log 2 a) by ring]

example : (2 : ℝ) ^ (-126 : ℤ) ≤ 10 := by norm_num

/-- **C124** `CCSimdLog` is within 0.00011 of the natural logarithm, for every positive normal float. -/
theorem C124_log (a : ℝ) (h0 : (2 : ℝ) ^ (-126 : ℤ) ≤ a) (h1 : a ≤ (2 : ℝ) ^ (128 : ℤ)) :
    |log a - Real.log a| ≤ 0.00011 := by
  have key := abs_le.1 (C124_log2 a h0)
  obtain ⟨l0, l1⟩ := log_two
  have lpos : 0 < Real.log 2 := by norm_num at l0 ⊢; linarith
  have a0 : 0 < a := (by positivity : (0 : ℝ) < 2 ^ (-126 : ℤ)).trans_le h0
  have e : Real.log a = Real.log 2 * Real.logb 2 a := by rw [Real.logb]; field_simp
  have b0 : -126 ≤ Real.logb 2 a := by
    rw [Real.le_logb_iff_rpow_le (by norm_num) a0]
    exact_mod_cast h0
  have b1 : Real.logb 2 a ≤ 128 := by
    rw [Real.logb_le_iff_le_rpow (by norm_num) a0]
    exact_mod_cast h1
  rw [log, e]
  generalize Real.logb 2 a = x at *
  generalize log2 a = y at *
  generalize Real.log 2 = l at *
  norm_num at *
  rw [abs_le]
  constructor <;> nlinarith

example : (2 : ℝ) ^ (-126 : ℤ) ≤ 10 ∧ (10 : ℝ) ≤ 2 ^ (128 : ℤ) := by norm_num

/-- The logarithm of a negative number is not refused: it is that of the number without its sign, and
256 more (177.4 for the natural logarithm). -/
theorem C124_log_negative (a : ℝ) (h : a < 0) : log2 a = log2 (-a) + 256 := by
  have n : ¬ -a < 0 := by linarith
  rw [log2_eq, log2_eq]
  unfold fields
  simp only [h, n, if_true, if_false, abs_neg]
  split <;> (push_cast; ring)

example : (-1 : ℝ) < 0 := by norm_num

/-! ## Exponentials -/

theorem expTaylor_eq (acc : Nat) (h : acc < 4) (a : ℝ) : expTaylor acc a = max (expT (4 + 2 * acc) a) 0 := by
  have : acc = 0 ∨ acc = 1 ∨ acc = 2 ∨ acc = 3 := by omega
  unfold expTaylor madd
  rcases this with rfl | rfl | rfl | rfl <;> simp only [expT, Nat.factorial] <;> norm_num <;> congr 1 <;> ring

/-- **C124** `CCSimdExp` of accuracy 0, 1, 2 and 3 is the Taylor polynomial with 4, 6, 8 and 10 terms,
and 0 where that is negative; its error is at most the next term, times the exponential where that is
more than 1. -/
theorem C124_exp (acc : Nat) (h : acc < 4) (a : ℝ) : ∃ r, exp acc a = some r ∧ 0 ≤ r ∧
    |r - Real.exp a| ≤ |a| ^ (4 + 2 * acc) / (4 + 2 * acc).factorial * max 1 (Real.exp a) := by
  refine ⟨expTaylor acc a, by rw [exp, if_pos h], ?_, ?_⟩
  · unfold expTaylor; exact le_max_right _ _
  · have e := expT_error (4 + 2 * acc) a
    rw [expTaylor_eq acc h]
    refine le_trans ?_ e
    rcases le_total 0 (expT (4 + 2 * acc) a) with p | p
    · rw [max_eq_left p]
    · have q := Real.exp_pos a
      rw [max_eq_right p, abs_sub_comm, abs_sub_comm (expT _ _), abs_of_pos (by linarith), abs_of_pos (by linarith)]
      linarith

example : (1 : Nat) < 4 := by decide

/-- In its default form `CCSimdExp` is 0 for every argument of -1.6 or less, where the exponential can be
as much as 0.2. -/
theorem C124_exp_refuted (a : ℝ) (h : a ≤ -1.6) : exp 0 a = some 0 := by
  rw [exp, if_pos (by decide), expTaylor_eq 0 (by decide)]
  simp only [expT, Nat.factorial]
  congr 1
  apply max_eq_right
  norm_num at h ⊢
  nlinarith [mul_self_nonneg (a + 1.6), mul_nonneg (mul_self_nonneg a) (by linarith : (0 : ℝ) ≤ -1.6 - a)]

/-- the argument of `CCSimdExp` split into a power of two and a rest -/
theorem expCephes_eq {a : ℝ} (h0 : -87 ≤ a) (h1 : a ≤ 88) : ∃ n : ℤ, -126 ≤ n ∧ n ≤ 127 ∧
    |a - n * 0.69314718056| ≤ 0.3467 ∧
    expCephes a = some (cephesPoly (a - n * 0.69314718056) * (2 : ℝ) ^ n) := by
  have c : clamp a (-88.3762626647949) (-(-88.3762626647949)) = a := by
    unfold clamp
    rw [max_eq_left (by norm_num; linarith), min_eq_left (by norm_num; linarith)]
  have f0 := Int.floor_le (a * 1.44269504088896341 + 0.5)
  have f1 := Int.lt_floor_add_one (a * 1.44269504088896341 + 0.5)
  have px : expPx a = (⌊a * 1.44269504088896341 + 0.5⌋ : ℤ) := by
    unfold expPx madd floor; rw [c]
  generalize ⌊a * 1.44269504088896341 + 0.5⌋ = n at *
  have n0 : -126 ≤ n := by
    have : (-127 : ℝ) < n := by norm_num at f1 ⊢; linarith
    have : -127 < n := by exact_mod_cast this
    omega
  have n1 : n ≤ 127 := by
    have : (n : ℝ) < 128 := by norm_num at f0 ⊢; linarith
    have : n < 128 := by exact_mod_cast this
    omega
  refine ⟨n, n0, n1, ?_, ?_⟩
  · rw [abs_le]
    norm_num at f0 f1 ⊢
    constructor <;> linarith
  · unfold expCephes
    simp only [c, px]
    rw [pow2, trunc_int, decode_pow2 n n0 n1, Option.map_some]
    congr 1
    have x : negMadd (n : ℝ) (-2.12194440e-4) (negMadd (n : ℝ) 0.693359375 a) = a - n * 0.69314718056 := by
      unfold negMadd; norm_num; ring
    rw [x]
    unfold cephesPoly madd
    rfl

/-- **C124** `CCSimdExp` of accuracy 4 or more is right to one part in ten million, from -87 to 88. -/
theorem C124_exp_accurate (acc : Nat) (h : 4 ≤ acc) (a : ℝ) (h0 : -87 ≤ a) (h1 : a ≤ 88) :
    ∃ r, exp acc a = some r ∧ |r - Real.exp a| ≤ 0.0000001 * Real.exp a := by
  obtain ⟨n, n0, n1, hx, e⟩ := expCephes_eq h0 h1
  refine ⟨_, by rw [exp, if_neg (by omega), e], ?_⟩
  have p := cephesPoly_error hx
  obtain ⟨l0, l1⟩ := log_two
  have n0' : (-126 : ℝ) ≤ n := by exact_mod_cast n0
  have n1' : (n : ℝ) ≤ 127 := by exact_mod_cast n1
  -- what the two constants of the code differ from the logarithm of 2, times `n`
  have d : |(n : ℝ) * (0.69314718056 - Real.log 2)| ≤ 0.00000004 := by
    rw [abs_le]
    norm_num at l0 l1 ⊢
    constructor <;> nlinarith
  have two : (2 : ℝ) ^ n = Real.exp (n * Real.log 2) := by
    rw [mul_comm, ← Real.rpow_intCast, Real.rpow_def_of_pos (by norm_num)]
  have split : Real.exp (a - n * 0.69314718056) * (2 : ℝ) ^ n
      = Real.exp a * Real.exp (-(n * (0.69314718056 - Real.log 2))) := by
    rw [two, ← Real.exp_add, ← Real.exp_add]; congr 1; ring
  have q := Real.abs_exp_sub_one_le (x := -(n * (0.69314718056 - Real.log 2)))
    (by rw [abs_neg]; norm_num at d ⊢; linarith)
  rw [abs_neg] at q
  have two0 : (0 : ℝ) < 2 ^ n := by positivity
  have ea := Real.exp_pos a
  generalize Real.exp (-(n * (0.69314718056 - Real.log 2))) = k at *
  generalize cephesPoly (a - n * 0.69314718056) = c at *
  generalize Real.exp (a - n * 0.69314718056) = x at *
  have p1 : |c * (2 : ℝ) ^ n - x * 2 ^ n| ≤ 0.00000001 * (x * 2 ^ n) := by
    rw [← sub_mul, abs_mul, abs_of_pos two0, ← mul_assoc]
    exact mul_le_mul_of_nonneg_right p two0.le
  rw [split] at p1
  generalize c * (2 : ℝ) ^ n = r at *
  generalize Real.exp a = E at *
  have kk : |k - 1| ≤ 0.00000008 := q.trans (by norm_num at d ⊢; linarith)
  rw [abs_le] at p1 kk ⊢
  norm_num at p1 kk ⊢
  constructor <;> nlinarith

example : (4 : Nat) ≤ 4 ∧ (-87 : ℝ) ≤ -10 ∧ (-10 : ℝ) ≤ 88 := by norm_num

/-- **C124** `CCSimdExp2` in its default form is right to 13 parts in ten thousand for arguments from 0
to 128, and to 43 for negative ones down to -127. -/
theorem C124_exp2 (a : ℝ) (h0 : -127 < a) (h1 : a < 128) :
    ∃ r, exp2 a = some r ∧ |r - (2 : ℝ) ^ a| ≤ (if 0 ≤ a then 0.0013 else 0.0043) * (2 : ℝ) ^ a := by
  have eq : exp2 a = (pow2 a).map (exp2Poly (a - trunc a) * ·) := by
    unfold exp2 exp2Poly madd; rfl
  have fin : ∀ (n : ℤ) (c ε : ℝ), |c - (2 : ℝ) ^ (a - n)| ≤ ε * (2 : ℝ) ^ (a - n) →
      |c * (2 : ℝ) ^ n - (2 : ℝ) ^ a| ≤ ε * (2 : ℝ) ^ a := by
    intro n c ε h
    have p : (0 : ℝ) < 2 ^ n := by positivity
    have e : (2 : ℝ) ^ a = (2 : ℝ) ^ (a - n) * (2 : ℝ) ^ n := by
      rw [Real.rpow_sub (by norm_num), Real.rpow_intCast]
      field_simp
    rw [e, ← sub_mul, abs_mul, abs_of_pos p, ← mul_assoc]
    exact mul_le_mul_of_nonneg_right h p.le
  rcases le_or_gt 0 a with h | h
  · obtain ⟨t0, t1⟩ := trunc_nonneg h
    have n0 : 0 ≤ trunc a := by
      have : (-1 : ℝ) < trunc a := by linarith
      have : -1 < trunc a := by exact_mod_cast this
      omega
    have n1 : trunc a < 128 := by
      have : (trunc a : ℝ) < 128 := by linarith
      exact_mod_cast this
    refine ⟨_, by rw [eq, pow2, decode_pow2 _ (by omega) (by omega), Option.map_some], ?_⟩
    rw [if_pos h]
    exact fin _ _ _ (exp2Poly_pos (by linarith) (by linarith))
  · obtain ⟨t0, t1⟩ := trunc_neg h
    have n0 : trunc a ≤ 0 := by
      have : (trunc a : ℝ) < 1 := by linarith
      have : trunc a < 1 := by exact_mod_cast this
      omega
    have n1 : -127 < trunc a := by
      have : (-127 : ℝ) < trunc a := by linarith
      exact_mod_cast this
    refine ⟨_, by rw [eq, pow2, decode_pow2 _ (by omega) (by omega), Option.map_some], ?_⟩
    rw [if_neg (not_le.2 h)]
    have := exp2Poly_neg (g := trunc a - a) (by linarith) (by linarith)
    rw [neg_sub] at this
    exact fin _ _ _ this

example : (-127 : ℝ) < -2.5 ∧ (-2.5 : ℝ) < 128 := by norm_num

/-! ## Powers -/

/-- **C124** With an accurate exponential `CCSimdPow` has a relative error of about 0.00011 for each unit
of the exponent. -/
theorem C124_pow (acc : Nat) (h : 4 ≤ acc) (b e : ℝ) (b0 : (2 : ℝ) ^ (-126 : ℤ) ≤ b)
    (b1 : b ≤ (2 : ℝ) ^ (128 : ℤ)) (h0 : -87 ≤ e * log b) (h1 : e * log b ≤ 88) :
    ∃ r, pow acc b e = some r ∧
      |r - b ^ e| ≤ (Real.exp (0.00011 * |e|) * 1.0000001 - 1) * b ^ e := by
  obtain ⟨r, hr, hd⟩ := C124_exp_accurate acc h (e * log b) h0 h1
  refine ⟨r, hr, ?_⟩
  have bp : 0 < b := (by positivity : (0 : ℝ) < 2 ^ (-126 : ℤ)).trans_le b0
  have l := C124_log b b0 b1
  have t : |e * log b - Real.log b * e| ≤ 0.00011 * |e| := by
    rw [show e * log b - Real.log b * e = (log b - Real.log b) * e by ring, abs_mul]
    exact mul_le_mul_of_nonneg_right l (abs_nonneg e)
  rw [abs_le] at t
  rw [Real.rpow_def_of_pos bp]
  have hi : Real.exp (e * log b) ≤ Real.exp (Real.log b * e) * Real.exp (0.00011 * |e|) := by
    rw [← Real.exp_add]; apply Real.exp_le_exp.2; linarith
  have lo : Real.exp (Real.log b * e) ≤ Real.exp (e * log b) * Real.exp (0.00011 * |e|) := by
    rw [← Real.exp_add]; apply Real.exp_le_exp.2; linarith
  have s1 : 1 ≤ Real.exp (0.00011 * |e|) := by
    rw [← Real.exp_zero]; apply Real.exp_le_exp.2; positivity
  have x0 := Real.exp_pos (e * log b)
  have y0 := Real.exp_pos (Real.log b * e)
  generalize Real.exp (0.00011 * |e|) = s at *
  generalize Real.exp (e * log b) = x at *
  generalize Real.exp (Real.log b * e) = y at *
  rw [abs_le] at hd ⊢
  norm_num at hd ⊢
  constructor
  · -- `2 ≤ s + 1 / s`
    have : y * (2 - s) ≤ x := by
      have : y * (2 - s) * s ≤ x * s := by nlinarith [mul_nonneg y0.le (mul_self_nonneg (s - 1))]
      exact le_of_mul_le_mul_right this (by linarith)
    nlinarith [mul_nonneg y0.le (sub_nonneg.2 s1)]
  · nlinarith

theorem int_log_eq {r : ℝ} {n : ℤ} (h0 : (2 : ℝ) ^ n ≤ r) (h1 : r < (2 : ℝ) ^ (n + 1)) : Int.log 2 r = n := by
  have p : 0 < r := (by positivity : (0 : ℝ) < 2 ^ n).trans_le h0
  have a := (Int.zpow_le_iff_le_log (R := ℝ) (b := 2) (by norm_num) p (x := n)).1 (by exact_mod_cast h0)
  have b := (Int.lt_zpow_iff_log_lt (R := ℝ) (b := 2) (by norm_num) p (x := n + 1)).1 (by exact_mod_cast h1)
  omega

/-- the logarithm the code has for 4 -/
theorem log2_four : fields 4 = (2, 1) := by
  have l : Int.log 2 (4 : ℝ) = 2 := by
    apply int_log_eq <;> norm_num
  have h : ¬ (4 : ℝ) < 2 ^ (-126 : ℤ) := by norm_num
  unfold fields
  rw [abs_of_pos (by norm_num : (0 : ℝ) < 4)]
  simp only [h, l, if_false]
  norm_num

/-- In its default form `CCSimdPow` of 4 and 2 is less than 12. -/
theorem C124_pow_refuted : ∃ r, pow 0 4 2 = some r ∧ r < 12 := by
  refine ⟨_, rfl, ?_⟩
  rw [expTaylor_eq 0 (by decide), log, log2_eq, log2_four]
  unfold log2Frac
  simp only [expT, Nat.factorial]
  norm_num

/-- **C124** With an accurate exponential `CCSimdCbrt` is right to 4 parts in a hundred thousand. -/
theorem C124_cbrt (acc : Nat) (h : 4 ≤ acc) (b : ℝ) (b0 : (2 : ℝ) ^ (-126 : ℤ) ≤ b) (b1 : b ≤ (2 : ℝ) ^ (128 : ℤ)) :
    ∃ r, cbrt acc b = some r ∧ |r - b ^ ((1 : ℝ) / 3)| ≤ 0.00004 * b ^ ((1 : ℝ) / 3) := by
  have l := abs_le.1 (C124_log b b0 b1)
  have bp : 0 < b := (by positivity : (0 : ℝ) < 2 ^ (-126 : ℤ)).trans_le b0
  have l2 := log_two.2
  have lo := Real.log_le_log (by positivity) b0
  have hi := Real.log_le_log bp b1
  rw [Real.log_zpow] at lo hi
  norm_num at l l2 lo hi
  obtain ⟨r, hr, hd⟩ := C124_pow acc h b (1 / 3) b0 b1 (by linarith) (by linarith)
  refine ⟨r, hr, hd.trans ?_⟩
  apply mul_le_mul_of_nonneg_right _ (by positivity)
  have q := Real.abs_exp_sub_one_sub_id_le (x := 0.00011 * |1 / 3|) (by norm_num)
  have := (abs_le.1 q).2
  norm_num at this ⊢
  linarith

example : (4 : Nat) ≤ 4 ∧ (2 : ℝ) ^ (-126 : ℤ) ≤ 10 ∧ (10 : ℝ) ≤ 2 ^ (128 : ℤ) := by norm_num

/-- `CCSimdCbrt` of -8 is more than 50. -/
theorem C124_cbrt_refuted (acc : Nat) (h : 4 ≤ acc) : ∃ r, cbrt acc (-8) = some r ∧ 50 < r := by
  have l := abs_le.1 (C124_log2 8 (by norm_num))
  have b : Real.logb 2 8 = 3 := by
    rw [show (8 : ℝ) = 2 ^ (3 : ℝ) by norm_num, Real.logb_rpow (by norm_num) (by norm_num)]
  rw [b] at l
  have n := C124_log_negative (-8) (by norm_num)
  rw [neg_neg] at n
  have m : 177 ≤ log (-8) ∧ log (-8) ≤ 180 := by
    rw [log, n]; norm_num at l ⊢; constructor <;> linarith
  obtain ⟨r, hr, hd⟩ := C124_exp_accurate acc h (1 / 3 * log (-8)) (by linarith) (by linarith)
  refine ⟨r, hr, ?_⟩
  have e := Real.add_one_le_exp (1 / 3 * log (-8))
  have := (abs_le.1 hd).1
  norm_num at this e
  linarith

/-! ## Arc sine and arc cosine -/

/-- the root taken by `CCSimdArcSin` -/
theorem root_error (acc : Nat) (h : 4 ≤ acc) (b : ℝ) (b0 : (2 : ℝ) ^ (-126 : ℤ) ≤ b) (b1 : b ≤ 2) :
    ∃ r, pow acc b 0.5 = some r ∧ |r - √b| ≤ 0.00006 * √b := by
  have l := abs_le.1 (C124_log b b0 (b1.trans (by norm_num)))
  have bp : 0 < b := (by positivity : (0 : ℝ) < 2 ^ (-126 : ℤ)).trans_le b0
  have u : Real.log b ≤ 0.6931471808 := (Real.log_le_log bp b1).trans log_two.2
  have lo : -88 ≤ Real.log b := by
    have := Real.log_le_log (by positivity) b0
    rw [Real.log_zpow] at this
    have l2 := log_two.2
    norm_num at l2 this
    linarith
  norm_num at l u
  obtain ⟨r, hr, hd⟩ := C124_pow acc h b 0.5 b0 (b1.trans (by norm_num)) (by norm_num; linarith) (by norm_num; linarith)
  have half : b ^ (0.5 : ℝ) = √b := by rw [show (0.5 : ℝ) = 1 / 2 by norm_num, ← Real.sqrt_eq_rpow]
  rw [half] at hd
  refine ⟨r, hr, hd.trans ?_⟩
  apply mul_le_mul_of_nonneg_right _ (Real.sqrt_nonneg b)
  have q := Real.abs_exp_sub_one_sub_id_le (x := 0.00011 * |0.5|) (by norm_num)
  have := (abs_le.1 q).2
  norm_num at this ⊢
  linarith

/-- **C124** With an accurate exponential `CCSimdArcSin` is within 0.0002 of the arc sine, and
`CCSimdArcCos` of the arc cosine, of the numbers from 0 to 1 (left out). -/
theorem C124_arcsin (acc accE : Nat) (h : 4 ≤ accE) (a : ℝ) (h0 : 0 ≤ a) (h1 : a ≤ 1 - (2 : ℝ) ^ (-126 : ℤ)) :
    ∃ r, arcSin acc accE a = some r ∧ |r - Real.arcsin a| ≤ 0.0002 ∧
      ∃ c, arcCos acc accE a = some c ∧ |c - Real.arccos a| ≤ 0.0002 := by
  obtain ⟨s, hs, hd⟩ := root_error accE h (1 - a) (by linarith) (by linarith)
  have p126 : (0 : ℝ) < 2 ^ (-126 : ℤ) := by positivity
  have a1 : a ≤ 1 := by linarith
  have e := arcSinPoly_error acc h0 a1
  have e' : |π / 2 - √(1 - a) * arcSinPoly acc a - Real.arcsin a| ≤ 0.00008 :=
    e.trans (by split <;> norm_num)
  have pb : |arcSinPoly acc a| ≤ 1.9 := by
    unfold arcSinPoly madd
    have q2 : 0 ≤ a * a ∧ a * a ≤ 1 := ⟨by positivity, by nlinarith⟩
    have q3 : 0 ≤ a * (a * a) ∧ a * (a * a) ≤ 1 := ⟨by positivity, by nlinarith⟩
    split
    · rw [abs_le]; norm_num; constructor <;> nlinarith
    · have q4 : 0 ≤ a * a * (a * a) ∧ a * a * (a * a) ≤ 1 := ⟨by positivity, by nlinarith⟩
      have q5 : 0 ≤ a * a * (a * (a * a)) ∧ a * a * (a * (a * a)) ≤ 1 := ⟨by positivity, by nlinarith⟩
      have q6 : 0 ≤ a * (a * a) * (a * (a * a)) ∧ a * (a * a) * (a * (a * a)) ≤ 1 := ⟨by positivity, by nlinarith⟩
      have q7 : 0 ≤ a * (a * a) * (a * a * (a * a)) ∧ a * (a * a) * (a * a * (a * a)) ≤ 1 := ⟨by positivity, by nlinarith⟩
      rw [abs_le]; norm_num; constructor <;> linarith
  have s1 : √(1 - a) ≤ 1 := Real.sqrt_le_one.2 (by linarith)
  have s0 := Real.sqrt_nonneg (1 - a)
  have key : |π / 2 - s * arcSinPoly acc a - Real.arcsin a| ≤ 0.0002 := by
    have m : |(s - √(1 - a)) * arcSinPoly acc a| ≤ 0.00006 * 1.9 := by
      rw [abs_mul]
      exact mul_le_mul (hd.trans (by norm_num; linarith)) pb (abs_nonneg _) (by norm_num)
    rw [abs_le] at m e' ⊢
    norm_num at m e' ⊢
    constructor <;> nlinarith
  have es : arcSin acc accE a = some (π / 2 - s * arcSinPoly acc a) := by rw [arcSin, hs]; rfl
  refine ⟨_, es, key, _, by rw [arcCos, es]; rfl, ?_⟩
  rw [Real.arccos, show π / 2 - (π / 2 - s * arcSinPoly acc a) - (π / 2 - Real.arcsin a)
    = -(π / 2 - s * arcSinPoly acc a - Real.arcsin a) by ring, abs_neg]
  exact key

example : (4 : Nat) ≤ 4 ∧ (0 : ℝ) ≤ 0.5 ∧ (0.5 : ℝ) ≤ 1 - (2 : ℝ) ^ (-126 : ℤ) := by norm_num

/-- `CCSimdArcSin` is wrong for negative numbers, however accurate: at -1 it is more than -1.25, where the
arc sine is -π/2. -/
theorem C124_arcsin_negative_refuted (acc accE : Nat) (h : 4 ≤ accE) :
    ∃ r, arcSin acc accE (-1) = some r ∧ -1.25 < r ∧ Real.arcsin (-1) < -1.57 := by
  obtain ⟨s, hs, hd⟩ := root_error accE h 2 (by norm_num) le_rfl
  have es : arcSin acc accE (-1) = some (π / 2 - s * arcSinPoly acc (-1)) := by
    rw [arcSin, show (1 : ℝ) - -1 = 2 by norm_num, hs]; rfl
  refine ⟨_, es, ?_, ?_⟩
  · obtain ⟨s0, s1⟩ := sqrt_two
    have p := Real.pi_gt_d6
    rw [abs_le] at hd
    norm_num at hd s0 s1 p
    unfold arcSinPoly madd
    split
    · norm_num; linarith
    · norm_num; linarith
  · rw [Real.arcsin_neg_one]
    have p := Real.pi_gt_d6
    norm_num at p ⊢
    linarith

/-- In its default form `CCSimdArcSin` is π/2 at 0.96 already, where the arc sine is less than 1.3. -/
theorem C124_arcsin_default_refuted : arcSin 0 0 0.96 = some (π / 2) ∧ Real.arcsin 0.96 < 1.3 := by
  have f : fields (1 - 0.96) = (-5, 1.28) := by
    have l : Int.log 2 (1 - 0.96 : ℝ) = -5 := by
      apply int_log_eq <;> norm_num
    have h : ¬ (1 - 0.96 : ℝ) < 2 ^ (-126 : ℤ) := by norm_num
    unfold fields
    rw [abs_of_pos (by norm_num : (0 : ℝ) < 1 - 0.96)]
    simp only [h, l, if_false]
    norm_num
  refine ⟨?_, ?_⟩
  · have : pow 0 (1 - 0.96) 0.5 = some 0 := by
      rw [pow]
      apply C124_exp_refuted
      rw [log, log2_eq, f]
      unfold log2Frac
      norm_num
    rw [arcSin, this]
    simp
  · rw [Real.arcsin_lt_iff_lt_sin' (by constructor <;> have := Real.pi_gt_d6 <;> norm_num at this ⊢ <;> linarith)]
    have c := Real.one_sub_sq_div_two_le_cos (x := π / 2 - 1.3)
    rw [Real.cos_pi_div_two_sub] at c
    refine lt_of_lt_of_le ?_ c
    have p0 := Real.pi_gt_d6
    have p1 := Real.pi_lt_d6
    norm_num at p0 p1 ⊢
    nlinarith

#print axioms C124_pow2
#print axioms C124_pow2_refuted
#print axioms C124_log2
#print axioms C124_log
#print axioms C124_log_negative
#print axioms C124_exp
#print axioms C124_exp_refuted
#print axioms C124_exp_accurate
#print axioms C124_exp2
#print axioms C124_pow
#print axioms C124_pow_refuted
#print axioms C124_cbrt
#print axioms C124_cbrt_refuted
#print axioms C124_arcsin
#print axioms C124_arcsin_negative_refuted
#print axioms C124_arcsin_default_refuted

end Verif.Expo
