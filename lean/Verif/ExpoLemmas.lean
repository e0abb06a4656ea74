import Verif.Expo
import Verif.ExpoCert
import Verif.TrigLemmas
import Mathlib.Analysis.SpecialFunctions.Log.Deriv
import Mathlib.Analysis.SpecialFunctions.Pow.Real
import Mathlib.Analysis.SpecialFunctions.Trigonometric.InverseDeriv
import Mathlib.Analysis.SpecialFunctions.Exponential
import Mathlib.Analysis.Complex.ExponentialBounds

/-! # Lemmas for `ExpoProps.lean` -/

namespace Verif.Expo

open Real Verif.Trig

section taylor

/-- the Taylor polynomial of the exponential with `n` terms -/
noncomputable def expT (n : Nat) (x : ℝ) : ℝ :=
  match n with
  | 0 => 0
  | n + 1 => expT n x + x ^ n / n.factorial

theorem expT_deriv (n : Nat) (x : ℝ) : HasDerivAt (expT (n + 1)) (expT n x) x := by
  induction n with
  | zero =>
    have : expT 1 = fun _ => (1 : ℝ) := by funext x; simp [expT]
    rw [this]
    exact hasDerivAt_const x (1 : ℝ)
  | succ n ih =>
    have h : HasDerivAt (fun x : ℝ => x ^ (n + 1) / (n + 1).factorial) (x ^ n / n.factorial) x := by
      refine ((hasDerivAt_pow (n + 1) x).div_const ((n + 1).factorial : ℝ)).congr_deriv ?_
      have e : ((n + 1).factorial : ℝ) = (n + 1) * n.factorial := by
        rw [Nat.factorial_succ]; push_cast; ring
      have p : (n.factorial : ℝ) ≠ 0 := by positivity
      have q : ((n : ℝ) + 1) ≠ 0 := by positivity
      rw [e]
      push_cast
      field_simp
    exact ih.add h

theorem expT_zero (n : Nat) : expT (n + 1) 0 = 1 := by
  induction n with
  | zero => simp [expT]
  | succ n ih => rw [expT, ih]; simp

/-- The Taylor polynomials of the exponential are below it for positive arguments. -/
theorem exp_pos_lower (n : Nat) (x : ℝ) (hx : 0 ≤ x) : expT n x ≤ Real.exp x := by
  induction n generalizing x with
  | zero => exact (Real.exp_pos x).le
  | succ n ih =>
    have := nonneg_of_deriv (f := fun y => Real.exp y - expT (n + 1) y)
      (f' := fun y => Real.exp y - expT n y) (b := x)
      (fun y => (Real.hasDerivAt_exp y).sub (expT_deriv n y)) (by simp [expT_zero])
      (fun y hy _ => sub_nonneg.2 (ih y hy)) x hx le_rfl
    exact sub_nonneg.1 this

/-- the remainder for positive arguments -/
theorem exp_pos_upper (n : Nat) (x : ℝ) (hx : 0 ≤ x) :
    Real.exp x ≤ expT n x + x ^ n / n.factorial * Real.exp x := by
  induction n generalizing x with
  | zero => simp [expT]
  | succ n ih =>
    have d : ∀ y : ℝ, HasDerivAt (fun y : ℝ => y ^ (n + 1) / (n + 1).factorial) (y ^ n / n.factorial) y := by
      intro y
      refine ((hasDerivAt_pow (n + 1) y).div_const ((n + 1).factorial : ℝ)).congr_deriv ?_
      have e : ((n + 1).factorial : ℝ) = (n + 1) * n.factorial := by
        rw [Nat.factorial_succ]; push_cast; ring
      have p : (n.factorial : ℝ) ≠ 0 := by positivity
      have q : ((n : ℝ) + 1) ≠ 0 := by positivity
      rw [e]
      push_cast
      field_simp
    have := nonneg_of_deriv
      (f := fun y => expT (n + 1) y + y ^ (n + 1) / (n + 1).factorial * Real.exp y - Real.exp y)
      (f' := fun y => expT n y + (y ^ n / n.factorial * Real.exp y
        + y ^ (n + 1) / (n + 1).factorial * Real.exp y) - Real.exp y) (b := x)
      (fun y => ((expT_deriv n y).add ((d y).mul (Real.hasDerivAt_exp y))).sub (Real.hasDerivAt_exp y))
      (by simp [expT_zero])
      (fun y hy _ => by
        have a := ih y hy
        have b : 0 ≤ y ^ (n + 1) / (n + 1).factorial * Real.exp y := by positivity
        linarith) x hx le_rfl
    linarith

/-- The Taylor polynomials are above and below the exponential in turn for negative arguments. -/
theorem exp_neg_turn (n : Nat) (x : ℝ) (hx : 0 ≤ x) :
    0 ≤ (-1) ^ n * (Real.exp (-x) - expT n (-x)) := by
  induction n generalizing x with
  | zero => simp [expT, (Real.exp_pos _).le]
  | succ n ih =>
    have d1 : ∀ y : ℝ, HasDerivAt (fun y : ℝ => Real.exp (-y)) (-Real.exp (-y)) y := fun y =>
      ((Real.hasDerivAt_exp (-y)).comp y (hasDerivAt_neg y)).congr_deriv (by ring)
    have d2 : ∀ y : ℝ, HasDerivAt (fun y : ℝ => expT (n + 1) (-y)) (-expT n (-y)) y := fun y =>
      ((expT_deriv n (-y)).comp y (hasDerivAt_neg y)).congr_deriv (by ring)
    refine nonneg_of_deriv (f := fun y => (-1) ^ (n + 1) * (Real.exp (-y) - expT (n + 1) (-y)))
      (f' := fun y => (-1) ^ n * (Real.exp (-y) - expT n (-y))) (b := x)
      (fun y => (((d1 y).sub (d2 y)).const_mul _).congr_deriv (by rw [pow_succ]; ring)) ?_
      (fun y hy _ => ih y hy) x hx le_rfl
    simp [expT_zero]

/-- the remainder for negative arguments -/
theorem exp_neg_error (n : Nat) (x : ℝ) (hx : 0 ≤ x) :
    |Real.exp (-x) - expT n (-x)| ≤ x ^ n / n.factorial := by
  have a := exp_neg_turn n x hx
  have b := exp_neg_turn (n + 1) x hx
  have e : (-1) ^ n * (Real.exp (-x) - expT n (-x)) + (-1) ^ (n + 1) * (Real.exp (-x) - expT (n + 1) (-x))
      = x ^ n / n.factorial := by
    rw [expT, pow_succ]
    have : ((-1 : ℝ)) ^ n * ((-x) ^ n) = x ^ n := by rw [← mul_pow]; ring_nf
    rw [← this]
    ring
  have m : |Real.exp (-x) - expT n (-x)| = (-1) ^ n * (Real.exp (-x) - expT n (-x)) := by
    rw [← abs_of_nonneg a, abs_mul, abs_pow, abs_neg, abs_one, one_pow, one_mul]
  rw [m]
  linarith

/-- The error of a Taylor polynomial of the exponential, for every argument. -/
theorem expT_error (n : Nat) (x : ℝ) :
    |expT n x - Real.exp x| ≤ |x| ^ n / n.factorial * max 1 (Real.exp x) := by
  rcases le_total 0 x with h | h
  · rw [abs_of_nonneg h, abs_sub_comm, abs_of_nonneg (sub_nonneg.2 (exp_pos_lower n x h))]
    have a := exp_pos_upper n x h
    have : x ^ n / n.factorial * Real.exp x ≤ x ^ n / n.factorial * max 1 (Real.exp x) :=
      mul_le_mul_of_nonneg_left (le_max_right _ _) (by positivity)
    linarith
  · have a := exp_neg_error n (-x) (by linarith)
    rw [neg_neg] at a
    rw [abs_of_nonpos h, abs_sub_comm]
    refine a.trans (le_mul_of_one_le_right (div_nonneg (pow_nonneg (by linarith) n) (by positivity))
      (le_max_left _ _))

end taylor

theorem log_two : (0.6931471803 : ℝ) ≤ Real.log 2 ∧ Real.log 2 ≤ (0.6931471808 : ℝ) :=
  ⟨Real.log_two_gt_d9.le, Real.log_two_lt_d9.le⟩

theorem lnP_deriv (x : ℝ) : HasDerivAt ExpoCert.lnP (ExpoCert.lnP' x) x := by
  unfold ExpoCert.lnP ExpoCert.lnP'
  refine HasDerivAt.congr_deriv (HasDerivAt.fun_add
    (HasDerivAt.fun_add
    (HasDerivAt.fun_add
    (HasDerivAt.fun_add
    (HasDerivAt.fun_add
    (HasDerivAt.fun_add
    (HasDerivAt.fun_add
    (HasDerivAt.fun_add
    ((hasDerivAt_id' x).const_mul _)
    ((hasDerivAt_pow 2 x).const_mul _))
    ((hasDerivAt_pow 3 x).const_mul _))
    ((hasDerivAt_pow 4 x).const_mul _))
    ((hasDerivAt_pow 5 x).const_mul _))
    ((hasDerivAt_pow 6 x).const_mul _))
    ((hasDerivAt_pow 7 x).const_mul _))
    ((hasDerivAt_pow 8 x).const_mul _))
    ((hasDerivAt_pow 9 x).const_mul _)) ?_
  norm_num
  ring

theorem asP_deriv (x : ℝ) : HasDerivAt ExpoCert.asP (ExpoCert.asP' x) x := by
  unfold ExpoCert.asP ExpoCert.asP'
  refine HasDerivAt.congr_deriv (HasDerivAt.fun_add
    (HasDerivAt.fun_add
    (HasDerivAt.fun_add
    (HasDerivAt.fun_add
    (HasDerivAt.fun_add
    (HasDerivAt.fun_add
    (HasDerivAt.fun_add
    (HasDerivAt.fun_add
    (HasDerivAt.fun_add
    (HasDerivAt.fun_add
    ((hasDerivAt_id' x).const_mul _)
    ((hasDerivAt_pow 2 x).const_mul _))
    ((hasDerivAt_pow 3 x).const_mul _))
    ((hasDerivAt_pow 4 x).const_mul _))
    ((hasDerivAt_pow 5 x).const_mul _))
    ((hasDerivAt_pow 6 x).const_mul _))
    ((hasDerivAt_pow 7 x).const_mul _))
    ((hasDerivAt_pow 8 x).const_mul _))
    ((hasDerivAt_pow 9 x).const_mul _))
    ((hasDerivAt_pow 10 x).const_mul _))
    ((hasDerivAt_pow 11 x).const_mul _)) ?_
  norm_num
  ring

/-- like `nonneg_of_deriv`, with a derivative on the interval only -/
theorem nonneg_of_deriv_on {f f' : ℝ → ℝ} {b : ℝ} (hd : ∀ x, 0 ≤ x → x ≤ b → HasDerivAt f (f' x) x)
    (h0 : 0 ≤ f 0) (hn : ∀ x, 0 ≤ x → x ≤ b → 0 ≤ f' x) : ∀ x, 0 ≤ x → x ≤ b → 0 ≤ f x := by
  intro x hx hb
  have hm : MonotoneOn f (Set.Icc 0 b) := by
    apply monotoneOn_of_deriv_nonneg (convex_Icc 0 b)
    · exact fun y hy => (hd y hy.1 hy.2).continuousAt.continuousWithinAt
    · intro y hy
      rw [interior_Icc] at hy
      exact (hd y hy.1.le hy.2.le).differentiableAt.differentiableWithinAt
    · intro y hy
      rw [interior_Icc] at hy
      rw [(hd y hy.1.le hy.2.le).deriv]
      exact hn y hy.1.le hy.2.le
  exact h0.trans (hm ⟨le_refl _, hx.trans hb⟩ ⟨hx, hb⟩ hx)

theorem log_lnP {u : ℝ} (h0 : 0 ≤ u) (h1 : u ≤ 1) :
    |ExpoCert.lnP u - Real.log (1 + u)| ≤ 0.000002 := by
  have d : ∀ x : ℝ, 0 ≤ x → x ≤ 1 → HasDerivAt (fun x => Real.log (1 + x)) (1 / (1 + x)) x := by
    intro x hx _
    exact ((Real.hasDerivAt_log (by linarith)).comp x ((hasDerivAt_id' x).const_add 1)).congr_deriv
      (by rw [mul_one, one_div])
  have a := nonneg_of_deriv_on (f := fun z => 0.000002 * z + (Real.log (1 + z) - ExpoCert.lnP z))
    (f' := fun z => 0.000002 * 1 + (1 / (1 + z) - ExpoCert.lnP' z)) (b := 1)
    (fun z z0 z1 => ((hasDerivAt_id z).const_mul _).add ((d z z0 z1).sub (lnP_deriv z)))
    (by simp [ExpoCert.lnP]) (fun z z0 z1 => by
      have h := ExpoCert.lnD_up z z0 z1
      have q : 0 < 1 + z := by linarith
      have e : 0.000002 * 1 + (1 / (1 + z) - ExpoCert.lnP' z)
          = (0.000002 * (1 + z) + 1 - ExpoCert.lnP' z * (1 + z)) / (1 + z) := by
        field_simp
        ring
      rw [e]
      refine div_nonneg ?_ q.le
      rw [ExpoCert.lnP']
      norm_num
      linarith) u h0 h1
  have b := nonneg_of_deriv_on (f := fun z => 0.000002 * z + (ExpoCert.lnP z - Real.log (1 + z)))
    (f' := fun z => 0.000002 * 1 + (ExpoCert.lnP' z - 1 / (1 + z))) (b := 1)
    (fun z z0 z1 => ((hasDerivAt_id z).const_mul _).add ((lnP_deriv z).sub (d z z0 z1)))
    (by simp [ExpoCert.lnP]) (fun z z0 z1 => by
      have h := ExpoCert.lnD_lo z z0 z1
      have q : 0 < 1 + z := by linarith
      have e : 0.000002 * 1 + (ExpoCert.lnP' z - 1 / (1 + z))
          = (0.000002 * (1 + z) - 1 + ExpoCert.lnP' z * (1 + z)) / (1 + z) := by
        field_simp
        ring
      rw [e]
      refine div_nonneg ?_ q.le
      rw [ExpoCert.lnP']
      norm_num
      linarith) u h0 h1
  rw [abs_le]
  constructor <;> nlinarith

theorem arcsin_asP {y : ℝ} (h0 : 0 ≤ y) (h1 : y ≤ 0.7072) :
    |ExpoCert.asP y - Real.arcsin y| ≤ 0.000003 := by
  have d : ∀ x : ℝ, 0 ≤ x → x ≤ 0.7072 → HasDerivAt Real.arcsin (1 / √(1 - x ^ 2)) x := by
    intro x hx hb
    exact Real.hasDerivAt_arcsin (by linarith) (by norm_num at hb; linarith)
  have root : ∀ z : ℝ, 0 ≤ z → z ≤ 0.7072 → 0 < 1 - z ^ 2 := by
    intro z z0 z1; norm_num at z1; nlinarith
  have a := nonneg_of_deriv_on (f := fun z => 0.000003 * z + (Real.arcsin z - ExpoCert.asP z))
    (f' := fun z => 0.000003 * 1 + (1 / √(1 - z ^ 2) - ExpoCert.asP' z)) (b := 0.7072)
    (fun z z0 z1 => ((hasDerivAt_id z).const_mul _).add ((d z z0 z1).sub (asP_deriv z)))
    (by simp [ExpoCert.asP]) (fun z z0 z1 => by
      have h := ExpoCert.asD_lo z z0 (by norm_num at z1 ⊢; linarith)
      have r := root z z0 z1
      have q : 0 < √(1 - z ^ 2) := Real.sqrt_pos.2 r
      have key : (ExpoCert.asP' z - 0.000003) * √(1 - z ^ 2) ≤ 1 := by
        refine (abs_le_of_sq_le_sq' ?_ zero_le_one).2
        rw [mul_pow, Real.sq_sqrt r.le, ExpoCert.asP']
        norm_num
        linarith
      have : ExpoCert.asP' z - 0.000003 ≤ 1 / √(1 - z ^ 2) := (le_div_iff₀ q).2 key
      linarith) y h0 h1
  have b := nonneg_of_deriv_on (f := fun z => 0.000003 * z + (ExpoCert.asP z - Real.arcsin z))
    (f' := fun z => 0.000003 * 1 + (ExpoCert.asP' z - 1 / √(1 - z ^ 2))) (b := 0.7072)
    (fun z z0 z1 => ((hasDerivAt_id z).const_mul _).add ((asP_deriv z).sub (d z z0 z1)))
    (by simp [ExpoCert.asP]) (fun z z0 z1 => by
      have h := ExpoCert.asD_up z z0 (by norm_num at z1 ⊢; linarith)
      have r := root z z0 z1
      have q : 0 < √(1 - z ^ 2) := Real.sqrt_pos.2 r
      have pos : 0 ≤ ExpoCert.asP' z := (ExpoCert.asPos z z0 (by norm_num at z1 ⊢; linarith)).trans_eq rfl
      have key : 1 ≤ (ExpoCert.asP' z + 0.000003) * √(1 - z ^ 2) := by
        refine (abs_le_of_sq_le_sq' ?_ (mul_nonneg (by linarith) q.le)).2
        rw [mul_pow, Real.sq_sqrt r.le, ExpoCert.asP']
        norm_num
        linarith
      have : 1 / √(1 - z ^ 2) ≤ ExpoCert.asP' z + 0.000003 := (div_le_iff₀ q).2 key
      linarith) y h0 h1
  rw [abs_le]
  norm_num at h1 a b ⊢
  constructor <;> nlinarith

/-! ## Logarithm -/

/-- what `CCSimdLog2` adds to the exponent, for a significand of `1 + u` -/
noncomputable def log2Frac (m : ℝ) : ℝ :=
  126 + m - 124.22551499 - 1.498030302 * (m / 2) - 1.72587999 / (0.3520887068 + m / 2)

theorem log2Frac_error {m : ℝ} (h0 : 1 ≤ m) (h1 : m ≤ 2) :
    |log2Frac m - Real.logb 2 m| ≤ 0.00015 := by
  obtain ⟨u, rfl⟩ : ∃ u, m = 1 + u := ⟨m - 1, by ring⟩
  have u0 : 0 ≤ u := by linarith
  have u1 : u ≤ 1 := by linarith
  have ln := abs_le.1 (log_lnP u0 u1)
  obtain ⟨l0, l1⟩ := log_two
  have lpos : 0 < Real.log 2 := by norm_num at l0 ⊢; linarith
  have D : 0 < 0.3520887068 + (1 + u) / 2 := by norm_num; linarith
  have up : 0 ≤ (-(0.000002 * (0.3520887068 + (1 + u) / 2)) + ExpoCert.lnP u * (0.3520887068 + (1 + u) / 2)) +
      (0.00015 * (0.3520887068 + (1 + u) / 2) - ((126 + (1 + u) - 124.22551499 - 1.498030302 * ((1 + u) / 2))
        * (0.3520887068 + (1 + u) / 2) - 1.72587999)) * Real.log 2 := by
    refine lin_between (lo := 0.6931471803) (hi := 0.6931471808) ?_ ?_ l0 l1
    · exact (ExpoCert.lnUp_lo u u0 u1).trans_eq (by rw [ExpoCert.lnP]; norm_num; ring)
    · exact (ExpoCert.lnUp_hi u u0 u1).trans_eq (by rw [ExpoCert.lnP]; norm_num; ring)
  have lo : 0 ≤ (-(0.000002 * (0.3520887068 + (1 + u) / 2)) - ExpoCert.lnP u * (0.3520887068 + (1 + u) / 2)) +
      (0.00015 * (0.3520887068 + (1 + u) / 2) + ((126 + (1 + u) - 124.22551499 - 1.498030302 * ((1 + u) / 2))
        * (0.3520887068 + (1 + u) / 2) - 1.72587999)) * Real.log 2 := by
    refine lin_between (lo := 0.6931471803) (hi := 0.6931471808) ?_ ?_ l0 l1
    · exact (ExpoCert.lnLo_lo u u0 u1).trans_eq (by rw [ExpoCert.lnP]; norm_num; ring)
    · exact (ExpoCert.lnLo_hi u u0 u1).trans_eq (by rw [ExpoCert.lnP]; norm_num; ring)
  have e : log2Frac (1 + u) = ((126 + (1 + u) - 124.22551499 - 1.498030302 * ((1 + u) / 2))
        * (0.3520887068 + (1 + u) / 2) - 1.72587999) / (0.3520887068 + (1 + u) / 2) := by
    unfold log2Frac
    rw [sub_div, mul_div_cancel_right₀ _ D.ne']
  rw [e, Real.logb]
  generalize ((126 + (1 + u) - 124.22551499 - 1.498030302 * ((1 + u) / 2))
        * (0.3520887068 + (1 + u) / 2) - 1.72587999) = N at *
  generalize 0.3520887068 + (1 + u) / 2 = d at *
  generalize ExpoCert.lnP u = P at *
  generalize Real.log (1 + u) = L at *
  generalize Real.log 2 = l at *
  have k1 := mul_le_mul_of_nonneg_right ln.1 D.le
  have k2 := mul_le_mul_of_nonneg_right ln.2 D.le
  rw [div_sub_div _ _ D.ne' lpos.ne', abs_div, abs_of_pos (mul_pos D lpos), div_le_iff₀ (mul_pos D lpos), abs_le]
  constructor <;> nlinarith

theorem fields_pos {a : ℝ} (h : (2 : ℝ) ^ (-126 : ℤ) ≤ a) :
    fields a = (Int.log 2 a, a / 2 ^ Int.log 2 a) ∧ 0 < a ∧ 1 ≤ a / 2 ^ Int.log 2 a ∧
      a / 2 ^ Int.log 2 a < 2 := by
  have p : (0 : ℝ) < 2 ^ (-126 : ℤ) := by positivity
  have a0 : 0 < a := p.trans_le h
  have q : (0 : ℝ) < 2 ^ Int.log 2 a := by positivity
  refine ⟨?_, a0, ?_, ?_⟩
  · unfold fields
    simp only [abs_of_pos a0, not_lt.2 a0.le, not_lt.2 h, if_false, zero_add]
  · rw [le_div_iff₀ q, one_mul]
    exact_mod_cast Int.zpow_log_le_self (b := 2) (by norm_num) a0
  · rw [div_lt_iff₀ q, mul_comm, ← zpow_add_one₀ (by norm_num)]
    exact_mod_cast Int.lt_zpow_succ_log_self (b := 2) (by norm_num) a

theorem log2_eq (a : ℝ) : log2 a = (fields a).1 + log2Frac (fields a).2 := by
  unfold log2 log2Frac
  ring

/-! ## Powers of two -/

theorem decode_pow2 (n : ℤ) (h0 : -126 ≤ n) (h1 : n ≤ 127) : decode (pow2Bits n) = some ((2 : ℝ) ^ n) := by
  have key : ∀ k : Nat, k < 254 → decode (pow2Bits ((k : ℤ) - 126)) = some ((2 : ℝ) ^ ((k : ℤ) - 126)) := by
    intro k hk
    have e : pow2Bits ((k : ℤ) - 126) = BitVec.ofNat 32 ((k + 1) * 2 ^ 23) := by
      revert k
      decide +kernel
    have n : (pow2Bits ((k : ℤ) - 126)).toNat = (k + 1) * 2 ^ 23 := by
      rw [e, BitVec.toNat_ofNat]
      omega
    have b : (pow2Bits ((k : ℤ) - 126)).getLsbD 31 = false := by
      rw [BitVec.getLsbD, n, Nat.testBit_eq_decide_div_mod_eq]
      simp only [decide_eq_false_iff_not]
      omega
    unfold decode
    simp only [n, b]
    have n1 : (k + 1) * 2 ^ 23 / 2 ^ 23 % 256 = k + 1 := by omega
    have n2 : (k + 1) * 2 ^ 23 % 2 ^ 23 = 0 := by omega
    have n3 : ¬ k + 1 = 255 := by omega
    simp only [n1, n2, n3]
    simp
    ring_nf
  have := key (n + 126).toNat (by omega)
  rwa [show (((n + 126).toNat : Nat) : ℤ) - 126 = n by omega] at this

theorem trunc_nonneg {a : ℝ} (h : 0 ≤ a) : (trunc a : ℝ) ≤ a ∧ a < trunc a + 1 := by
  unfold trunc
  rw [if_pos h]
  exact ⟨Int.floor_le a, Int.lt_floor_add_one a⟩

theorem trunc_neg {a : ℝ} (h : a < 0) : a ≤ trunc a ∧ (trunc a : ℝ) < a + 1 := by
  unfold trunc
  rw [if_neg (not_le.2 h)]
  exact ⟨Int.le_ceil a, Int.ceil_lt_add_one a⟩

theorem trunc_int (n : ℤ) : trunc (n : ℝ) = n := by
  unfold trunc
  split <;> simp

/-- the polynomial of `CCSimdExp2` -/
noncomputable def exp2Poly (f : ℝ) : ℝ := ((f * 0.05700169 + 0.24858144) * f + 0.69282515) * f + 0.99916080

theorem two_rpow_bounds {f : ℝ} (h0 : 0 ≤ f) :
    Real.exp (0.6931471803 * f) ≤ (2 : ℝ) ^ f ∧ (2 : ℝ) ^ f ≤ Real.exp (0.6931471808 * f) := by
  obtain ⟨l0, l1⟩ := log_two
  rw [Real.rpow_def_of_pos (by norm_num)]
  exact ⟨Real.exp_le_exp.2 (mul_le_mul_of_nonneg_right l0 h0), Real.exp_le_exp.2 (mul_le_mul_of_nonneg_right l1 h0)⟩

/-- The Taylor polynomial of nine terms and the exponential between 0 and 1. -/
theorem exp_nine {x : ℝ} (h0 : 0 ≤ x) (h1 : x ≤ 1) :
    expT 9 x ≤ Real.exp x ∧ Real.exp x ≤ expT 9 x + 3 * (x ^ 9 / 362880) := by
  have t1 := exp_pos_upper 9 x h0
  have e3 : Real.exp x ≤ 3 := (Real.exp_le_exp.2 h1).trans (by have := Real.exp_one_lt_d9; norm_num at this ⊢; linarith)
  refine ⟨exp_pos_lower 9 x h0, t1.trans ?_⟩
  have : (Nat.factorial 9 : ℝ) = 362880 := by norm_num [Nat.factorial]
  rw [this]
  have q : 0 ≤ x ^ 9 / 362880 := by positivity
  nlinarith

/-- The Taylor polynomials of ten and nine terms and the exponential of negative numbers. -/
theorem exp_neg_nine {x : ℝ} (h0 : 0 ≤ x) :
    expT 10 (-x) ≤ Real.exp (-x) ∧ Real.exp (-x) ≤ expT 9 (-x) := by
  have a := exp_neg_turn 10 x h0
  have b := exp_neg_turn 9 x h0
  norm_num at a b
  exact ⟨a, b⟩

theorem exp2Poly_pos {f : ℝ} (h0 : 0 ≤ f) (h1 : f ≤ 1) :
    |exp2Poly f - (2 : ℝ) ^ f| ≤ 0.0013 * (2 : ℝ) ^ f := by
  obtain ⟨b0, b1⟩ := two_rpow_bounds h0
  have t0 := (exp_nine (x := 0.6931471803 * f) (by positivity) (by norm_num; linarith)).1
  have t1 := (exp_nine (x := 0.6931471808 * f) (by positivity) (by norm_num; linarith)).2
  have u := ExpoCert.e2Up f h0 h1
  have l := ExpoCert.e2Lo f h0 h1
  have t0' := t0.trans b0
  have t1' := b1.trans t1
  simp only [expT, Nat.factorial] at t0' t1'
  unfold exp2Poly
  rw [abs_le]
  generalize (2 : ℝ) ^ f = E at *
  norm_num at t0' t1' ⊢
  constructor
  · ring_nf at t1' l ⊢; linarith
  · ring_nf at t0' u ⊢; linarith

theorem exp2Poly_neg {g : ℝ} (h0 : 0 ≤ g) (h1 : g ≤ 1) :
    |exp2Poly (-g) - (2 : ℝ) ^ (-g)| ≤ 0.0043 * (2 : ℝ) ^ (-g) := by
  obtain ⟨l0, l1⟩ := log_two
  have b0 : Real.exp (-(0.6931471808 * g)) ≤ (2 : ℝ) ^ (-g) := by
    rw [Real.rpow_def_of_pos (by norm_num)]; apply Real.exp_le_exp.2; nlinarith
  have b1 : (2 : ℝ) ^ (-g) ≤ Real.exp (-(0.6931471803 * g)) := by
    rw [Real.rpow_def_of_pos (by norm_num)]; apply Real.exp_le_exp.2; nlinarith
  have t0 := (exp_neg_nine (x := 0.6931471808 * g) (by positivity)).1
  have t1 := (exp_neg_nine (x := 0.6931471803 * g) (by positivity)).2
  have u := ExpoCert.e2nUp g h0 h1
  have l := ExpoCert.e2nLo g h0 h1
  have t0' := t0.trans b0
  have t1' := b1.trans t1
  simp only [expT, Nat.factorial] at t0' t1'
  unfold exp2Poly
  rw [abs_le]
  generalize (2 : ℝ) ^ (-g) = E at *
  norm_num at t0' t1' ⊢
  constructor
  · ring_nf at t1' l ⊢; linarith
  · ring_nf at t0' u ⊢; linarith

/-- the polynomial of the more accurate exponential -/
noncomputable def cephesPoly (x : ℝ) : ℝ :=
  (((((1.9875691500e-4 * x + 1.3981999507e-3) * x + 8.3334519073e-3) * x + 4.1665795894e-2) * x
    + 1.6666665459e-1) * x + 5.0000001201e-1) * (x * x) + x + 1

theorem cephesPoly_error {x : ℝ} (h : |x| ≤ 0.3467) :
    |cephesPoly x - Real.exp x| ≤ 0.00000001 * Real.exp x := by
  rw [abs_le] at h
  rcases le_total 0 x with h0 | h0
  · have h1 : x ≤ 3467 / 10000 := by have := h.2; norm_num at this ⊢; linarith
    obtain ⟨t0, t1⟩ := exp_nine h0 (by linarith)
    have u := ExpoCert.ceUp x h0 h1
    have l := ExpoCert.ceLo x h0 h1
    simp only [expT, Nat.factorial] at t0 t1
    unfold cephesPoly
    rw [abs_le]
    generalize Real.exp x = E at *
    norm_num at t0 t1 ⊢
    constructor
    · ring_nf at t1 l ⊢; linarith
    · ring_nf at t0 u ⊢; linarith
  · obtain ⟨g, rfl⟩ : ∃ g, x = -g := ⟨-x, by ring⟩
    have g0 : 0 ≤ g := by linarith
    have h1 : g ≤ 3467 / 10000 := by have := h.1; norm_num at this ⊢; linarith
    obtain ⟨t0, t1⟩ := exp_neg_nine g0
    have u := ExpoCert.cenUp g g0 h1
    have l := ExpoCert.cenLo g g0 h1
    simp only [expT, Nat.factorial] at t0 t1
    unfold cephesPoly
    rw [abs_le]
    generalize Real.exp (-g) = E at *
    norm_num at t0 t1 ⊢
    constructor
    · ring_nf at t1 l ⊢; linarith
    · ring_nf at t0 u ⊢; linarith

/-! ## Arc sine -/

theorem sqrt_two : (1.414213 : ℝ) ≤ √2 ∧ √2 ≤ (1.414214 : ℝ) :=
  ⟨Real.le_sqrt_of_sq_le (by norm_num), Real.sqrt_le_iff.2 ⟨by norm_num, by norm_num⟩⟩

/-- half of the angle whose cosine is `a` -/
theorem arcsin_half {a : ℝ} (h0 : 0 ≤ a) (h1 : a ≤ 1) :
    0 ≤ √((1 - a) / 2) ∧ √((1 - a) / 2) ≤ 0.7072 ∧ √((1 - a) / 2) ^ 2 = (1 - a) / 2 ∧
      √(1 - a) = √2 * √((1 - a) / 2) ∧ π / 2 - Real.arcsin a = 2 * Real.arcsin (√((1 - a) / 2)) := by
  have hy2 : √((1 - a) / 2) ^ 2 = (1 - a) / 2 := Real.sq_sqrt (by linarith)
  have hy : √((1 - a) / 2) ≤ 0.7072 := Real.sqrt_le_iff.2 ⟨by norm_num, by norm_num; linarith⟩
  have y0 := Real.sqrt_nonneg ((1 - a) / 2)
  refine ⟨y0, hy, hy2, ?_, ?_⟩
  · rw [← Real.sqrt_mul (by norm_num)]; ring_nf
  · generalize √((1 - a) / 2) = y at *
    have ya : 0 ≤ Real.arcsin y := Real.arcsin_nonneg.2 y0
    have yb : Real.arcsin y ≤ π / 4 := by
      rw [show π / 4 = Real.arcsin (√2 / 2) by
        rw [← Real.sin_pi_div_four, Real.arcsin_sin] <;> linarith [Real.pi_pos]]
      apply Real.monotone_arcsin
      have : y ^ 2 ≤ (√2 / 2) ^ 2 := by
        rw [div_pow, Real.sq_sqrt (by norm_num)]; linarith
      exact (abs_le_of_sq_le_sq' this (by positivity)).2
    have c : Real.cos (2 * Real.arcsin y) = a := by
      rw [Real.cos_two_mul, Real.cos_sq', Real.sin_arcsin (by linarith) (by norm_num at hy; linarith), hy2]
      ring
    have : Real.arccos a = 2 * Real.arcsin y := by
      rw [← c, Real.arccos_cos] <;> linarith [Real.pi_pos]
    rw [← this, Real.arccos]

theorem arcSinPoly_error (acc : Nat) {a : ℝ} (h0 : 0 ≤ a) (h1 : a ≤ 1) :
    |π / 2 - √(1 - a) * arcSinPoly acc a - Real.arcsin a| ≤ if acc < 2 then 0.00008 else 0.00001 := by
  obtain ⟨y0, y1, y2, r, e⟩ := arcsin_half h0 h1
  have ea : a = 1 - 2 * √((1 - a) / 2) ^ 2 := by rw [y2]; ring
  rw [show π / 2 - √(1 - a) * arcSinPoly acc a - Real.arcsin a
    = (π / 2 - Real.arcsin a) - √(1 - a) * arcSinPoly acc a by ring, e, r]
  generalize hy : √((1 - a) / 2) = y at *
  subst ea
  have as := abs_le.1 (arcsin_asP y0 y1)
  have y1' : y ≤ 442 / 625 := by norm_num at y1 ⊢; linarith
  obtain ⟨s0, s1⟩ := sqrt_two
  rw [ExpoCert.asP] at as
  rw [abs_le]
  unfold arcSinPoly madd
  split
  · have up := lin_between (p := √2)
      (A := 0.00008 - 2 * 0.000003 - 2 * ExpoCert.asP y)
      (B := y * (-0.0187293 * ((1 - 2 * y ^ 2) * ((1 - 2 * y ^ 2) * (1 - 2 * y ^ 2)))
        + (0.0742610 * ((1 - 2 * y ^ 2) * (1 - 2 * y ^ 2)) + (-0.2121144 * (1 - 2 * y ^ 2) + 1.5707288))))
      (lo := 1.414213) (hi := 1.414214)
      ((ExpoCert.as3Up_lo y y0 y1').trans_eq (by rw [ExpoCert.asP]; norm_num; ring))
      ((ExpoCert.as3Up_hi y y0 y1').trans_eq (by rw [ExpoCert.asP]; norm_num; ring)) s0 s1
    have lo := lin_between (p := √2)
      (A := 0.00008 - 2 * 0.000003 + 2 * ExpoCert.asP y)
      (B := -(y * (-0.0187293 * ((1 - 2 * y ^ 2) * ((1 - 2 * y ^ 2) * (1 - 2 * y ^ 2)))
        + (0.0742610 * ((1 - 2 * y ^ 2) * (1 - 2 * y ^ 2)) + (-0.2121144 * (1 - 2 * y ^ 2) + 1.5707288)))))
      (lo := 1.414213) (hi := 1.414214)
      ((ExpoCert.as3Lo_lo y y0 y1').trans_eq (by rw [ExpoCert.asP]; norm_num; ring))
      ((ExpoCert.as3Lo_hi y y0 y1').trans_eq (by rw [ExpoCert.asP]; norm_num; ring)) s0 s1
    rw [ExpoCert.asP] at up lo
    constructor
    · norm_num at lo as ⊢; linarith
    · norm_num at up as ⊢; linarith
  · have up := lin_between (p := √2)
      (A := 0.00001 - 2 * 0.000003 - 2 * ExpoCert.asP y)
      (B := y * ((fun z : ℝ => -0.0012624911 * z ^ 7 + 0.0066700901 * z ^ 6 - 0.0170881256 * z ^ 5
        + 0.0308918810 * z ^ 4 - 0.0501743046 * z ^ 3 + 0.0889789874 * z ^ 2 - 0.2145988016 * z + 1.5707963050)
        (1 - 2 * y ^ 2)))
      (lo := 1.414213) (hi := 1.414214)
      ((ExpoCert.as7Up_lo y y0 y1').trans_eq (by rw [ExpoCert.asP]; norm_num; ring))
      ((ExpoCert.as7Up_hi y y0 y1').trans_eq (by rw [ExpoCert.asP]; norm_num; ring)) s0 s1
    have lo := lin_between (p := √2)
      (A := 0.00001 - 2 * 0.000003 + 2 * ExpoCert.asP y)
      (B := -(y * ((fun z : ℝ => -0.0012624911 * z ^ 7 + 0.0066700901 * z ^ 6 - 0.0170881256 * z ^ 5
        + 0.0308918810 * z ^ 4 - 0.0501743046 * z ^ 3 + 0.0889789874 * z ^ 2 - 0.2145988016 * z + 1.5707963050)
        (1 - 2 * y ^ 2))))
      (lo := 1.414213) (hi := 1.414214)
      ((ExpoCert.as7Lo_lo y y0 y1').trans_eq (by rw [ExpoCert.asP]; norm_num; ring))
      ((ExpoCert.as7Lo_hi y y0 y1').trans_eq (by rw [ExpoCert.asP]; norm_num; ring)) s0 s1
    rw [ExpoCert.asP] at up lo
    constructor
    · norm_num at lo as ⊢; ring_nf at lo as ⊢; linarith
    · norm_num at up as ⊢; ring_nf at up as ⊢; linarith

end Verif.Expo
