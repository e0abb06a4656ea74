import Mathlib.Analysis.SpecialFunctions.PolarCoord
import Mathlib.MeasureTheory.Integral.IntervalIntegral.Periodic
import Mathlib.MeasureTheory.Function.JacobianOneDim
import Mathlib.Analysis.SpecialFunctions.Sqrt
import Verif.RandomPoint
/-!
# Lemmas for the random points: polar coordinates, the root, lines and planes
-/
open MeasureTheory Set ENNReal
namespace Verif.RandomPoint

theorem turn (g : ℝ → ℝ≥0∞) (hg : Function.Periodic g (2 * Real.pi)) :
    ∫⁻ θ in Ioc (-Real.pi) Real.pi, g θ = ∫⁻ θ in Ioc 0 (2 * Real.pi), g θ := by
  have h1 := isAddFundamentalDomain_Ioc Real.two_pi_pos (-Real.pi)
  have h2 := isAddFundamentalDomain_Ioc Real.two_pi_pos 0
  have e1 : -Real.pi + 2 * Real.pi = Real.pi := by ring
  rw [e1] at h1
  rw [zero_add] at h2
  refine h1.setLIntegral_eq h2 g ?_
  rintro ⟨x, n, rfl⟩ y
  have := hg.zsmul n y
  simpa [AddSubgroup.vadd_def, add_comm] using this

theorem turn' (g : ℝ → ℝ≥0∞) : ∫⁻ θ in Ioc 0 (2 * Real.pi), g θ = ENNReal.ofReal (2 * Real.pi) * ∫⁻ v in Ioc (0:ℝ) 1, g (Real.pi * 2 * v) := by
  have h := lintegral_image_eq_lintegral_abs_deriv_mul (s := Ioc (0:ℝ) 1) (f := fun v => Real.pi * 2 * v) (f' := fun _ => Real.pi * 2) measurableSet_Ioc
    (fun x _ => by simpa using ((hasDerivAt_id x).const_mul (Real.pi * 2)).hasDerivWithinAt) (fun a _ b _ h => by simpa [Real.pi_ne_zero] using h) g
  have e : (fun v => Real.pi * 2 * v) '' Ioc (0:ℝ) 1 = Ioc 0 (2 * Real.pi) := by
    rw [Set.image_mul_left_Ioc (by positivity)]; simp [mul_comm]
  rw [e] at h
  rw [h, lintegral_const_mul' _ _ ENNReal.ofReal_ne_top, abs_of_pos (by positivity), mul_comm Real.pi]

theorem root (g : ℝ → ℝ≥0∞) : ∫⁻ u in Ioc (0:ℝ) 1, g (√u) = 2 * ∫⁻ r in Ioc (0:ℝ) 1, ENNReal.ofReal r * g r := by
  have h := lintegral_image_eq_lintegral_abs_deriv_mul (s := Ioc (0:ℝ) 1) (f := fun r => r ^ 2) (f' := fun r => 2 * r) measurableSet_Ioc
    (fun x _ => by simpa using (hasDerivAt_pow 2 x).hasDerivWithinAt) (fun a ha b hb h => by
      have := abs_eq_abs.mpr (sq_eq_sq_iff_eq_or_eq_neg.mp h)
      rwa [abs_of_pos ha.1, abs_of_pos hb.1] at this) (fun u => g (√u))
  have e : (fun r => r ^ 2) '' Ioc (0:ℝ) 1 = Ioc 0 1 := by
    ext u
    constructor
    · rintro ⟨r, hr, rfl⟩
      exact ⟨pow_pos hr.1 2, pow_le_one₀ hr.1.le hr.2⟩
    · intro hu
      exact ⟨√u, ⟨Real.sqrt_pos.mpr hu.1, Real.sqrt_le_one.mpr hu.2⟩, Real.sq_sqrt hu.1.le⟩
  rw [e] at h
  rw [h, ← lintegral_const_mul' _ _ (by simp)]
  refine setLIntegral_congr_fun measurableSet_Ioc fun r hr => ?_

  rw [Real.sqrt_sq hr.1.le, abs_of_pos (by linarith [hr.1]), ENNReal.ofReal_mul (by norm_num), mul_assoc]
  simp

/-- the points from the middle at most 1 away -/
def disc : Set (ℝ × ℝ) := {p | p.1 ^ 2 + p.2 ^ 2 ≤ 1}

theorem disc_meas : MeasurableSet disc := (isClosed_le (by fun_prop) (by fun_prop)).measurableSet

theorem disc_lintegral (f : ℝ × ℝ → ℝ≥0∞) (hf : Measurable f) :
    ∫⁻ p in disc, f p = ENNReal.ofReal Real.pi * ∫⁻ u in Ioc (0:ℝ) 1, ∫⁻ v in Ioc (0:ℝ) 1, f (√u * Real.cos (Real.pi * 2 * v), √u * Real.sin (Real.pi * 2 * v)) := by
  have hm : Measurable (disc.indicator f) := hf.indicator disc_meas
  rw [← lintegral_indicator disc_meas, ← lintegral_comp_polarCoord_symm, polarCoord_target, Measure.volume_eq_prod, setLIntegral_prod _ (by
    refine Measurable.aemeasurable ?_
    refine Measurable.mul (by fun_prop) (hm.comp ?_)
    show Measurable fun p : ℝ × ℝ => (p.1 * Real.cos p.2, p.1 * Real.sin p.2)
    fun_prop)]
  have inner : ∀ r ∈ Ioi (0:ℝ), (∫⁻ θ in Ioo (-Real.pi) Real.pi, ENNReal.ofReal (r, θ).1 • disc.indicator f (polarCoord.symm (r, θ))) =
      (Iic (1:ℝ)).indicator (fun r => ENNReal.ofReal (2 * Real.pi) * (ENNReal.ofReal r * ∫⁻ v in Ioc (0:ℝ) 1, f (r * Real.cos (Real.pi * 2 * v), r * Real.sin (Real.pi * 2 * v)))) r := by
    intro r hr
    have hd : ∀ θ, polarCoord.symm (r, θ) ∈ disc ↔ r ≤ 1 := by
      intro θ
      have : (r * Real.cos θ) ^ 2 + (r * Real.sin θ) ^ 2 = r ^ 2 := by
        rw [mul_pow, mul_pow, ← mul_add, Real.cos_sq_add_sin_sq, mul_one]
      simp only [polarCoord_symm_apply, disc, mem_ofPred_eq, this]
      exact (sq_le_one_iff₀ (le_of_lt hr))
    by_cases h1 : r ≤ 1
    · rw [indicator_of_mem (by exact h1), setLIntegral_congr Ioo_ae_eq_Ioc]
      simp only [smul_eq_mul]
      rw [lintegral_const_mul' _ _ ENNReal.ofReal_ne_top]
      have : ∀ θ, disc.indicator f (polarCoord.symm (r, θ)) = f (r * Real.cos θ, r * Real.sin θ) := fun θ => by
        rw [indicator_of_mem ((hd θ).mpr h1), polarCoord_symm_apply]
      simp only [this]
      rw [turn (fun θ => f (r * Real.cos θ, r * Real.sin θ)) (fun θ => by simp), turn' (fun θ => f (r * Real.cos θ, r * Real.sin θ))]
      ring
    · rw [indicator_of_notMem (by exact h1)]
      have : ∀ θ, disc.indicator f (polarCoord.symm (r, θ)) = 0 := fun θ => indicator_of_notMem (fun h => h1 ((hd θ).mp h)) _
      simp only [this, smul_zero, lintegral_zero]
  rw [setLIntegral_congr_fun measurableSet_Ioi inner, setLIntegral_indicator measurableSet_Iic, Iic_inter_Ioi, lintegral_const_mul' _ _ ENNReal.ofReal_ne_top,
    root (fun r => ∫⁻ v in Ioc (0:ℝ) 1, f (r * Real.cos (Real.pi * 2 * v), r * Real.sin (Real.pi * 2 * v))), ← mul_assoc, mul_comm 2 Real.pi, ENNReal.ofReal_mul Real.pi_pos.le]
  simp

theorem map_line (a c : ℝ) (ha : 0 < a) : Measure.map (fun x : ℝ => x * a + c) volume = ENNReal.ofReal a⁻¹ • (volume : Measure ℝ) := by
  have e : (fun x : ℝ => x * a + c) = (fun x => x + c) ∘ (fun x => x * a) := rfl
  rw [e, ← Measure.map_map (by fun_prop) (by fun_prop), Real.map_volume_mul_right ha.ne', Measure.map_smul, map_add_right_eq_self, abs_of_pos (inv_pos.mpr ha)]

theorem map_plane (a b c d : ℝ) (ha : 0 < a) (hb : 0 < b) (S : Set (ℝ × ℝ)) (hS : MeasurableSet S) :
    volume {p : ℝ × ℝ | (p.1 * a + c, p.2 * b + d) ∈ S} = volume S / ENNReal.ofReal (a * b) := by
  have hm : Measurable (Prod.map (fun x : ℝ => x * a + c) (fun x : ℝ => x * b + d)) := by
    refine Measurable.prodMap ?_ ?_ <;> fun_prop
  have h := Measure.map_apply (μ := (volume : Measure (ℝ × ℝ))) hm hS
  rw [Measure.volume_eq_prod, ← Measure.map_prod_map _ _ (by fun_prop) (by fun_prop), map_line a c ha, map_line b d hb, Measure.prod_smul_left, Measure.prod_smul_right, Measure.smul_apply, Measure.smul_apply, smul_eq_mul, smul_eq_mul] at h
  rw [Measure.volume_eq_prod]
  refine h.symm.trans ?_
  rw [ENNReal.ofReal_mul ha.le, ENNReal.ofReal_inv_of_pos ha, ENNReal.ofReal_inv_of_pos hb, ENNReal.div_eq_inv_mul, ENNReal.mul_inv (Or.inr ENNReal.ofReal_ne_top) (Or.inl ENNReal.ofReal_ne_top), mul_assoc]

end Verif.RandomPoint
