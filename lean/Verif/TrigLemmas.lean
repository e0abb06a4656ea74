import Verif.Trig
import Verif.TrigCert
import Mathlib.Analysis.Real.Pi.Bounds
import Mathlib.Analysis.SpecialFunctions.Trigonometric.Deriv
import Mathlib.Analysis.SpecialFunctions.Trigonometric.ArctanDeriv
import Mathlib.Analysis.Calculus.Deriv.MeanValue
import Mathlib.Tactic.FieldSimp
import Mathlib.Tactic.NormNum

/-! # Lemmas for `TrigProps.lean` -/

namespace Verif.Trig

open Real

/-- A function that starts at a value that is not negative and never falls is not negative. -/
theorem nonneg_of_deriv {f f' : ℝ → ℝ} (hd : ∀ x, HasDerivAt f (f' x) x) {b : ℝ} (h0 : 0 ≤ f 0)
    (hn : ∀ x, 0 ≤ x → x ≤ b → 0 ≤ f' x) : ∀ x, 0 ≤ x → x ≤ b → 0 ≤ f x := by
  intro x hx hb
  have hm : MonotoneOn f (Set.Icc 0 b) := by
    apply monotoneOn_of_deriv_nonneg (convex_Icc 0 b)
    · exact fun y _ => (hd y).continuousAt.continuousWithinAt
    · exact fun y _ => (hd y).differentiableAt.differentiableWithinAt
    · intro y hy
      rw [interior_Icc] at hy
      rw [(hd y).deriv]
      exact hn y hy.1.le hy.2.le
  exact h0.trans (hm ⟨le_refl _, hx.trans hb⟩ ⟨hx, hb⟩ hx)

section taylor

/-- the Taylor polynomial of the cosine with `n` terms -/
noncomputable def cosT (n : Nat) (x : ℝ) : ℝ :=
  match n with
  | 0 => 0
  | n + 1 => cosT n x + (-1) ^ n * x ^ (2 * n) / (2 * n).factorial

/-- the Taylor polynomial of the sine with `n` terms -/
noncomputable def sinT (n : Nat) (x : ℝ) : ℝ :=
  match n with
  | 0 => 0
  | n + 1 => sinT n x + (-1) ^ n * x ^ (2 * n + 1) / (2 * n + 1).factorial

theorem sinT_deriv (n : Nat) (x : ℝ) : HasDerivAt (sinT n) (cosT n x) x := by
  induction n with
  | zero => exact hasDerivAt_const x 0
  | succ n ih =>
    have h : HasDerivAt (fun x : ℝ => (-1) ^ n * x ^ (2 * n + 1) / (2 * n + 1).factorial)
        ((-1) ^ n * x ^ (2 * n) / (2 * n).factorial) x := by
      have h := ((hasDerivAt_pow (2 * n + 1) x).const_mul ((-1 : ℝ) ^ n)).div_const
        ((2 * n + 1).factorial : ℝ)
      refine h.congr_deriv ?_
      have e : ((2 * n + 1).factorial : ℝ) = (2 * n + 1) * (2 * n).factorial := by
        rw [Nat.factorial_succ]; push_cast; ring
      have p : ((2 * n).factorial : ℝ) ≠ 0 := by positivity
      have q : (2 * (n : ℝ) + 1) ≠ 0 := by positivity
      rw [e]
      push_cast
      field_simp
    exact ih.add h

theorem cosT_deriv (n : Nat) (x : ℝ) : HasDerivAt (cosT (n + 1)) (-sinT n x) x := by
  induction n with
  | zero =>
    have : cosT 1 = fun _ => (1 : ℝ) := by
      funext x; simp [cosT]
    rw [this]
    simpa [sinT] using hasDerivAt_const x (1 : ℝ)
  | succ n ih =>
    have h : HasDerivAt (fun x : ℝ => (-1) ^ (n + 1) * x ^ (2 * (n + 1)) / (2 * (n + 1)).factorial)
        (-((-1) ^ n * x ^ (2 * n + 1) / (2 * n + 1).factorial)) x := by
      have h := ((hasDerivAt_pow (2 * (n + 1)) x).const_mul ((-1 : ℝ) ^ (n + 1))).div_const
        ((2 * (n + 1)).factorial : ℝ)
      refine h.congr_deriv ?_
      have e : ((2 * (n + 1)).factorial : ℝ) = (2 * n + 2) * (2 * n + 1).factorial := by
        rw [show 2 * (n + 1) = (2 * n + 1) + 1 from by omega, Nat.factorial_succ]; push_cast; ring
      have p : ((2 * n + 1).factorial : ℝ) ≠ 0 := by positivity
      have q : (2 * (n : ℝ) + 2) ≠ 0 := by positivity
      rw [e]
      push_cast
      rw [show 2 * (n + 1) - 1 = 2 * n + 1 from by omega, pow_succ]
      field_simp
    exact (ih.add h).congr_deriv (by rw [sinT]; ring)

theorem cosT_zero (n : Nat) : cosT (n + 1) 0 = 1 := by
  induction n with
  | zero => simp [cosT]
  | succ n ih => rw [cosT, ih]; simp

theorem sinT_zero (n : Nat) : sinT n 0 = 0 := by
  induction n with
  | zero => rfl
  | succ n ih => rw [sinT, ih]; simp

/-- The Taylor polynomials of the cosine are above and below it in turn. -/
theorem taylor (n : Nat) (x : ℝ) (hx : 0 ≤ x) :
    0 ≤ (-1) ^ n * (cosT (n + 1) x - Real.cos x) ∧ 0 ≤ (-1) ^ n * (sinT (n + 1) x - Real.sin x) := by
  induction n generalizing x with
  | zero =>
    refine ⟨?_, ?_⟩
    · simp [cosT, Real.cos_le_one]
    · simp [sinT, Real.sin_le hx]
  | succ n ih =>
    have c : ∀ y, 0 ≤ y → 0 ≤ (-1) ^ (n + 1) * (cosT (n + 2) y - Real.cos y) := by
      intro y hy
      refine nonneg_of_deriv (f := fun y => (-1) ^ (n + 1) * (cosT (n + 2) y - Real.cos y))
        (f' := fun y => (-1) ^ n * (sinT (n + 1) y - Real.sin y)) (b := y) ?_ ?_ ?_ y hy le_rfl
      · intro z
        exact ((((cosT_deriv (n + 1) z)).sub (Real.hasDerivAt_cos z)).const_mul _).congr_deriv
          (by rw [pow_succ]; ring)
      · simp [cosT_zero]
      · exact fun z hz _ => (ih z hz).2
    refine ⟨c x hx, ?_⟩
    refine nonneg_of_deriv (f := fun y => (-1) ^ (n + 1) * (sinT (n + 2) y - Real.sin y))
      (f' := fun y => (-1) ^ (n + 1) * (cosT (n + 2) y - Real.cos y)) (b := x) ?_ ?_ ?_ x hx le_rfl
    · intro z
      exact (((sinT_deriv (n + 2) z)).sub (Real.hasDerivAt_sin z)).const_mul _
    · simp [sinT_zero]
    · exact fun z hz _ => c z hz

theorem cos_lower (x : ℝ) : 1 - x ^ 2 / 2 + x ^ 4 / 24 - x ^ 6 / 720 + x ^ 8 / 40320
    - x ^ 10 / 3628800 ≤ Real.cos x := by
  have h := (taylor 5 |x| (abs_nonneg x)).1
  rw [Real.cos_abs] at h
  simp only [cosT, Nat.factorial] at h
  have e2 : |x| ^ 2 = x ^ 2 := sq_abs x
  have e (k : Nat) : |x| ^ (2 * k) = x ^ (2 * k) := by rw [pow_mul, pow_mul, e2]
  simp only [e] at h
  norm_num at h
  linarith

theorem cos_upper (x : ℝ) : Real.cos x ≤ 1 - x ^ 2 / 2 + x ^ 4 / 24 - x ^ 6 / 720 + x ^ 8 / 40320
    - x ^ 10 / 3628800 + x ^ 12 / 479001600 := by
  have h := (taylor 6 |x| (abs_nonneg x)).1
  rw [Real.cos_abs] at h
  simp only [cosT, Nat.factorial] at h
  have e2 : |x| ^ 2 = x ^ 2 := sq_abs x
  have e (k : Nat) : |x| ^ (2 * k) = x ^ (2 * k) := by rw [pow_mul, pow_mul, e2]
  simp only [e] at h
  norm_num at h
  linarith

end taylor

/-- a function of the form `A + B * p` that is not negative at both ends is not negative between -/
theorem lin_between {A B lo hi p : ℝ} (h0 : 0 ≤ A + B * lo) (h1 : 0 ≤ A + B * hi) (hl : lo ≤ p)
    (hh : p ≤ hi) : 0 ≤ A + B * p := by
  rcases le_total 0 B with hb | hb
  · nlinarith
  · nlinarith

theorem pi_sq : (3.141592 : ℝ) ^ 2 ≤ π * π ∧ π * π ≤ (3.141593 : ℝ) ^ 2 := by
  have h1 := Real.pi_gt_d6
  have h2 := Real.pi_lt_d6
  constructor <;> nlinarith

theorem sq_range {t : ℝ} (h : |t| ≤ π / 2) : 0 ≤ t * t ∧ t * t ≤ 4935 / 2000 := by
  have h2 := Real.pi_lt_d6
  rw [abs_le] at h
  refine ⟨mul_self_nonneg t, ?_⟩
  nlinarith

/-- Bhāskara's approximation of the cosine of `t`. -/
noncomputable def bhaskara (t : ℝ) : ℝ := (π * π - 4 * (t * t)) / (π * π + t * t)

theorem bhaskara_error {t : ℝ} (h : |t| ≤ π / 2) : |bhaskara t - Real.cos t| ≤ 0.0017 := by
  obtain ⟨w0, w1⟩ := sq_range h
  have w1' : t * t ≤ 987 / 400 := by linarith
  have cl := cos_lower t
  have cu := cos_upper t
  obtain ⟨p0, p1⟩ := pi_sq
  have pos : 0 < π * π + t * t := by nlinarith [Real.pi_pos]
  have e4 : t ^ 4 = (t * t) ^ 2 := by ring
  have e2 : t ^ 2 = t * t := by ring
  have e6 : t ^ 6 = (t * t) ^ 3 := by ring
  have e8 : t ^ 8 = (t * t) ^ 4 := by ring
  have e10 : t ^ 10 = (t * t) ^ 5 := by ring
  have e12 : t ^ 12 = (t * t) ^ 6 := by ring
  rw [e2, e4, e6, e8, e10] at cl
  rw [e2, e4, e6, e8, e10, e12] at cu
  rw [bhaskara]
  generalize t * t = w at *
  generalize Real.cos t = c at *
  have up : 0 ≤ (17 / 10000 * w + w * (1 - w / 2 + w ^ 2 / 24 - w ^ 3 / 720 + w ^ 4 / 40320
      - w ^ 5 / 3628800) + 4 * w) + (17 / 10000 + (1 - w / 2 + w ^ 2 / 24 - w ^ 3 / 720
      + w ^ 4 / 40320 - w ^ 5 / 3628800) - 1) * (π * π) := by
    refine lin_between (lo := 3.141592 ^ 2) (hi := 3.141593 ^ 2) ?_ ?_ p0 p1
    · exact (TrigCert.bhUp_lo w w0 w1').trans_eq (by norm_num; ring)
    · exact (TrigCert.bhUp_hi w w0 w1').trans_eq (by norm_num; ring)
  have lo : 0 ≤ (17 / 10000 * w - w * (1 - w / 2 + w ^ 2 / 24 - w ^ 3 / 720 + w ^ 4 / 40320
      - w ^ 5 / 3628800 + w ^ 6 / 479001600) - 4 * w) + (17 / 10000 - (1 - w / 2 + w ^ 2 / 24
      - w ^ 3 / 720 + w ^ 4 / 40320 - w ^ 5 / 3628800 + w ^ 6 / 479001600) + 1) * (π * π) := by
    refine lin_between (lo := 3.141592 ^ 2) (hi := 3.141593 ^ 2) ?_ ?_ p0 p1
    · exact (TrigCert.bhLo_lo w w0 w1').trans_eq (by norm_num; ring)
    · exact (TrigCert.bhLo_hi w w0 w1').trans_eq (by norm_num; ring)
  have cl' := mul_le_mul_of_nonneg_left cl pos.le
  have cu' := mul_le_mul_of_nonneg_left cu pos.le
  rw [abs_le]
  constructor
  · have : c - 0.0017 ≤ (π * π - 4 * w) / (π * π + w) := by
      rw [le_div_iff₀ pos]
      norm_num
      linarith
    linarith
  · have : (π * π - 4 * w) / (π * π + w) ≤ c + 0.0017 := by
      rw [div_le_iff₀ pos]
      norm_num
      linarith
    linarith

/-- The polynomial of the more accurate cosine. -/
theorem cos1_error {t : ℝ} (h : |t| ≤ π / 2) :
    |t * t * (t * t * 0.036791683 + -0.49558085) + 0.99940323 - Real.cos t| ≤ 0.0006 := by
  obtain ⟨w0, w1⟩ := sq_range h
  have w1' : t * t ≤ 987 / 400 := by linarith
  have cl := cos_lower t
  have cu := cos_upper t
  have e4 : t ^ 4 = (t * t) ^ 2 := by ring
  have e2 : t ^ 2 = t * t := by ring
  have e6 : t ^ 6 = (t * t) ^ 3 := by ring
  have e8 : t ^ 8 = (t * t) ^ 4 := by ring
  have e10 : t ^ 10 = (t * t) ^ 5 := by ring
  have e12 : t ^ 12 = (t * t) ^ 6 := by ring
  rw [e2, e4, e6, e8, e10] at cl
  rw [e2, e4, e6, e8, e10, e12] at cu
  generalize t * t = w at *
  have up := TrigCert.c1Up w w0 w1'
  have lo := TrigCert.c1Lo w w0 w1'
  rw [abs_le]
  constructor
  · norm_num; linarith
  · norm_num; linarith

theorem atP_deriv (x : ℝ) : HasDerivAt TrigCert.atP (TrigCert.atP' x) x := by
  unfold TrigCert.atP TrigCert.atP'
  refine HasDerivAt.congr_deriv (HasDerivAt.fun_add
    (HasDerivAt.fun_add
    (HasDerivAt.fun_add
    (HasDerivAt.fun_add
    (HasDerivAt.fun_add
    (HasDerivAt.fun_add
    (HasDerivAt.fun_add
    (HasDerivAt.fun_add
    (HasDerivAt.fun_add
    (HasDerivAt.fun_add
    (HasDerivAt.fun_add
    ((hasDerivAt_id' x).const_mul _)
    ((hasDerivAt_pow 2 x).const_mul _))
    ((hasDerivAt_pow 3 x).const_mul _))
    ((hasDerivAt_pow 4 x).const_mul _))
    ((hasDerivAt_pow 5 x).const_mul _))
    ((hasDerivAt_pow 6 x).const_mul _))
    ((hasDerivAt_pow 7 x).const_mul _))
    ((hasDerivAt_pow 8 x).const_mul _))
    ((hasDerivAt_pow 9 x).const_mul _))
    ((hasDerivAt_pow 10 x).const_mul _))
    ((hasDerivAt_pow 11 x).const_mul _))
    ((hasDerivAt_pow 12 x).const_mul _)) ?_
  norm_num
  ring

theorem arctan_atP {x : ℝ} (h0 : 0 ≤ x) (h1 : x ≤ 1) :
    |TrigCert.atP x - Real.arctan x| ≤ 0.0000003 := by
  have q : ∀ z : ℝ, 0 < 1 + z ^ 2 := fun z => by positivity
  have a := nonneg_of_deriv (f := fun z => 0.0000003 * z + (Real.arctan z - TrigCert.atP z))
    (f' := fun z => 0.0000003 * 1 + (1 / (1 + z ^ 2) - TrigCert.atP' z)) (b := 1)
    (fun z => ((hasDerivAt_id z).const_mul _).add ((Real.hasDerivAt_arctan z).sub (atP_deriv z)))
    (by simp [TrigCert.atP]) (fun z z0 z1 => by
      have h := TrigCert.atD_up z z0 z1
      have e : 0.0000003 * 1 + (1 / (1 + z ^ 2) - TrigCert.atP' z)
          = (0.0000003 * (1 + z ^ 2) + 1 - TrigCert.atP' z * (1 + z ^ 2)) / (1 + z ^ 2) := by
        field_simp
        ring
      rw [e]
      refine div_nonneg ?_ (q z).le
      rw [TrigCert.atP']
      norm_num
      linarith) x h0 h1
  have b := nonneg_of_deriv (f := fun z => 0.0000003 * z + (TrigCert.atP z - Real.arctan z))
    (f' := fun z => 0.0000003 * 1 + (TrigCert.atP' z - 1 / (1 + z ^ 2))) (b := 1)
    (fun z => ((hasDerivAt_id z).const_mul _).add ((atP_deriv z).sub (Real.hasDerivAt_arctan z)))
    (by simp [TrigCert.atP]) (fun z z0 z1 => by
      have h := TrigCert.atD_lo z z0 z1
      have e : 0.0000003 * 1 + (TrigCert.atP' z - 1 / (1 + z ^ 2))
          = (0.0000003 * (1 + z ^ 2) - 1 + TrigCert.atP' z * (1 + z ^ 2)) / (1 + z ^ 2) := by
        field_simp
        ring
      rw [e]
      refine div_nonneg ?_ (q z).le
      rw [TrigCert.atP']
      norm_num
      linarith) x h0 h1
  rw [abs_le]
  constructor <;> nlinarith

theorem qtr0_error {x : ℝ} (h0 : 0 ≤ x) (h1 : x ≤ 1) :
    |x / (x * x * 0.28 + 1) - Real.arctan x| ≤ 0.005 := by
  have a := abs_le.1 (arctan_atP h0 h1)
  have u := TrigCert.at0_up x h0 h1
  have l := TrigCert.at0_lo x h0 h1
  have q : 0 < x * x * 0.28 + 1 := by nlinarith [mul_self_nonneg x]
  have e : |x / (x * x * 0.28 + 1) - TrigCert.atP x| ≤ 0.0049997 := by
    rw [abs_le]
    constructor
    · have : TrigCert.atP x - 0.0049997 ≤ x / (x * x * 0.28 + 1) := by
        rw [le_div_iff₀ q, TrigCert.atP]
        norm_num
        linarith
      linarith
    · have : x / (x * x * 0.28 + 1) ≤ TrigCert.atP x + 0.0049997 := by
        rw [div_le_iff₀ q, TrigCert.atP]
        norm_num
        linarith
      linarith
  rw [abs_le] at e ⊢
  constructor
  · norm_num at *; linarith
  · norm_num at *; linarith

theorem qtr2_error {x : ℝ} (h0 : 0 ≤ x) (h1 : x ≤ 1) :
    |0.0208351 * x ^ 9 - 0.0851330 * x ^ 7 + 0.1801410 * x ^ 5 - 0.3302995 * x ^ 3 + 0.9998660 * x
      - Real.arctan x| ≤ 0.000012 := by
  have a := abs_le.1 (arctan_atP h0 h1)
  have u := TrigCert.at2_up x h0 h1
  have l := TrigCert.at2_lo x h0 h1
  rw [TrigCert.atP] at a
  rw [abs_le]
  constructor
  · norm_num at *; linarith
  · norm_num at *; linarith

/-- the error allowed to the arc tangent -/
theorem qtr_error (acc : Nat) {x : ℝ} (h : |x| ≤ 1) :
    |qtrPiArcTan acc x - Real.arctan x| ≤ if acc < 2 then 0.005 else 0.000012 := by
  have odd : qtrPiArcTan acc (-x) = -qtrPiArcTan acc x := by
    unfold qtrPiArcTan madd
    split
    · rw [neg_mul_neg, neg_div]
    · simp only; ring
  have pos : ∀ y : ℝ, 0 ≤ y → y ≤ 1 →
      |qtrPiArcTan acc y - Real.arctan y| ≤ if acc < 2 then 0.005 else 0.000012 := by
    intro y h0 h1
    unfold qtrPiArcTan madd
    split
    · exact qtr0_error h0 h1
    · have := qtr2_error h0 h1
      convert this using 3
      ring
  rcases le_total 0 x with hx | hx
  · exact pos x hx ((abs_le.1 h).2)
  · have := pos (-x) (by linarith) (by linarith [(abs_le.1 h).1])
    rw [odd, Real.arctan_neg] at this
    rwa [show -qtrPiArcTan acc x - -Real.arctan x = -(qtrPiArcTan acc x - Real.arctan x) by ring,
      abs_neg] at this

/-- The reduction of the argument to one half turn. -/
theorem turn (x : ℝ) : ∃ s r : ℝ, (s = 0 ∨ s = 1) ∧ 0 ≤ r ∧ r < π ∧ floor (mod x (π * 2) / π) = s ∧
    floor (mod (x / π) 2) = s ∧ mod x π = r ∧ Real.sin x = (1 - 2 * s) * Real.sin r ∧
    ∃ q : ℤ, x = r + s * π + q * (2 * π) := by
  have hp := Real.pi_pos
  have hp0 : π ≠ 0 := hp.ne'
  let k := ⌊x / π⌋
  let q := ⌊x / (π * 2)⌋
  have r0 : 0 ≤ x - k * π := by
    have := (Int.floor_le (x / π))
    rw [le_div_iff₀ hp] at this
    show 0 ≤ x - (⌊x / π⌋ : ℝ) * π
    linarith
  have r1 : x - k * π < π := by
    have := (Int.lt_floor_add_one (x / π))
    rw [div_lt_iff₀ hp] at this
    show x - (⌊x / π⌋ : ℝ) * π < π
    linarith
  have q0 : 2 * (q : ℝ) ≤ x / π := by
    have := (Int.floor_le (x / (π * 2)))
    have e : x / (π * 2) = x / π / 2 := by rw [div_div]
    rw [e] at this
    show 2 * (⌊x / (π * 2)⌋ : ℝ) ≤ x / π
    rw [e]
    linarith
  have q1 : x / π < 2 * (q : ℝ) + 2 := by
    have := (Int.lt_floor_add_one (x / (π * 2)))
    have e : x / (π * 2) = x / π / 2 := by rw [div_div]
    rw [e] at this
    show x / π < 2 * (⌊x / (π * 2)⌋ : ℝ) + 2
    rw [e]
    linarith
  have k0 : 2 * q ≤ k := Int.le_floor.2 (by push_cast; exact q0)
  have k1 : k < 2 * q + 2 := Int.floor_lt.2 (by push_cast; exact q1)
  have f1 : floor (mod x (π * 2) / π) = ((k - 2 * q : ℤ) : ℝ) := by
    have e : mod x (π * 2) / π = x / π - ((2 * q : ℤ) : ℝ) := by
      unfold mod floor
      push_cast
      show (x - (q : ℝ) * (π * 2)) / π = x / π - 2 * q
      field_simp
    rw [e, floor, Int.floor_sub_intCast]
  have f2 : floor (mod (x / π) 2) = ((k - 2 * q : ℤ) : ℝ) := by
    have e : mod (x / π) 2 = x / π - ((2 * q : ℤ) : ℝ) := by
      unfold mod floor
      push_cast
      rw [div_div]
      show x / π - (q : ℝ) * 2 = x / π - 2 * q
      ring
    rw [e, floor, Int.floor_sub_intCast]
  have hs : k - 2 * q = 0 ∨ k - 2 * q = 1 := by omega
  refine ⟨((k - 2 * q : ℤ) : ℝ), x - k * π, ?_, r0, r1, f1, f2, rfl, ?_, q, ?_⟩
  · rcases hs with h | h
    · left; rw [h]; norm_num
    · right; rw [h]; norm_num
  · rcases hs with h | h
    · have : k = 2 * q := by omega
      rw [h, this]
      have e : x - ((2 * q : ℤ) : ℝ) * π = x - q * (2 * π) := by push_cast; ring
      rw [e, Real.sin_sub_int_mul_two_pi]
      norm_num
    · have : k = 2 * q + 1 := by omega
      rw [h, this]
      have e : x - ((2 * q + 1 : ℤ) : ℝ) * π = x - π - q * (2 * π) := by push_cast; ring
      rw [e, Real.sin_sub_int_mul_two_pi, Real.sin_sub_pi]
      norm_num
  · push_cast; ring

theorem posPiRadSin_eq (a : ℝ) : posPiRadSin a = bhaskara (a - π / 2) := by
  unfold posPiRadSin bhaskara
  have p := Real.pi_pos
  have h1 : π * π + (a - π / 2) * (a - π / 2) ≠ 0 := by nlinarith [mul_self_nonneg (a - π / 2)]
  have h2 : 5 * π * π - 4 * (a * (π - a)) ≠ 0 := by nlinarith [mul_self_nonneg (a - π / 2)]
  simp only
  rw [div_eq_div_iff h2 h1]
  ring

theorem halfPiRadCos_zero (a : ℝ) : halfPiRadCos 0 a = bhaskara a := by
  unfold halfPiRadCos bhaskara negMadd
  simp only [if_true]
  ring_nf

theorem posPiRadSin_error {a : ℝ} (h0 : 0 ≤ a) (h1 : a ≤ π) :
    |posPiRadSin a - Real.sin a| ≤ 0.0017 := by
  have := bhaskara_error (t := a - π / 2) (abs_le.2 ⟨by linarith, by linarith⟩)
  rwa [Real.cos_sub_pi_div_two, ← posPiRadSin_eq] at this

theorem halfPiRadCos_error (acc : Nat) {a : ℝ} (h : |a| ≤ π / 2) :
    |halfPiRadCos acc a - Real.cos a| ≤ if acc = 0 then 0.0017 else 0.0006 := by
  split
  · next h0 => subst h0; rw [halfPiRadCos_zero]; exact bhaskara_error h
  · next h0 =>
    unfold halfPiRadCos madd
    simp only [if_neg h0]
    exact cos1_error h

theorem bhaskara_bound {t : ℝ} (h : |t| ≤ π / 2) : 0 ≤ bhaskara t ∧ bhaskara t ≤ 1 := by
  have p := Real.pi_pos
  rw [abs_le] at h
  have pos : 0 < π * π + t * t := by nlinarith [mul_self_nonneg t]
  unfold bhaskara
  refine ⟨div_nonneg (by nlinarith) pos.le, ?_⟩
  rw [div_le_one pos]
  nlinarith [mul_self_nonneg t]

end Verif.Trig
