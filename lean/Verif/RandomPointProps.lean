import Verif.RandomPointLemmas
import Mathlib.Analysis.SpecialFunctions.Complex.Arg
/-!
# C143: random points and ranges are in the shape asked for, and spread evenly over it

`volume` is the length of a set of numbers and the area of a set of points: that of a set of draws is the probability of it.
-/
open MeasureTheory Set ENNReal
namespace Verif.RandomPoint

/-- What the two calls of `CCRandomf` return: two numbers from 0 to 1. -/
def Draws : Set (ℝ × ℝ) := Icc 0 1 ×ˢ Icc 0 1

/-- The rectangle with a corner at `(x, y)`, `w` wide and `h` high. -/
def Rect (x y w h : ℝ) : Set (ℝ × ℝ) := Icc x (x + w) ×ˢ Icc y (y + h)

/-- The ellipse around `(cx, cy)` with the radii `rx` and `ry`. -/
def Ellipse (cx cy rx ry : ℝ) : Set (ℝ × ℝ) := {p | ((p.1 - cx) / rx) ^ 2 + ((p.2 - cy) / ry) ^ 2 ≤ 1}

theorem ellipse_meas (cx cy rx ry : ℝ) : MeasurableSet (Ellipse cx cy rx ry) := (isClosed_le (by fun_prop) (by fun_prop)).measurableSet

theorem Rect_volume (x y w h : ℝ) (hw : 0 < w) : volume (Rect x y w h) = ENNReal.ofReal (w * h) := by
  rw [Rect, Measure.volume_eq_prod, Measure.prod_prod, Real.volume_Icc, Real.volume_Icc, ENNReal.ofReal_mul hw.le]
  simp

/-- C143: the random points of a rectangle are the points of the rectangle, -/
theorem C143_rect_points (x y w h : ℝ) (hw : 0 < w) (hh : 0 < h) : (fun d => pointInRect x y w h d.1 d.2) '' Draws = Rect x y w h := by
  ext ⟨a, b⟩
  constructor
  · rintro ⟨⟨u, v⟩, ⟨⟨hu, hu'⟩, hv, hv'⟩, e⟩
    cases e
    refine ⟨⟨?_, ?_⟩, ?_, ?_⟩ <;> dsimp only at * <;> nlinarith
  · rintro ⟨⟨h1, h2⟩, h3, h4⟩
    dsimp only at *
    refine ⟨((a - x) / w, (b - y) / h), ⟨⟨?_, ?_⟩, ?_, ?_⟩, ?_⟩
    · exact div_nonneg (by linarith) hw.le
    · exact (div_le_one hw).mpr (by linarith)
    · exact div_nonneg (by linarith) hh.le
    · exact (div_le_one hh).mpr (by linarith)
    · simp only [pointInRect, Prod.mk.injEq]
      constructor <;> field_simp <;> ring

/-- and they are spread evenly: a part of the rectangle is hit as often as it is large. -/
theorem C143_rect_even (x y w h : ℝ) (hw : 0 < w) (hh : 0 < h) (E : Set (ℝ × ℝ)) (hE : MeasurableSet E) :
    volume {d ∈ Draws | pointInRect x y w h d.1 d.2 ∈ E} = volume (E ∩ Rect x y w h) / volume (Rect x y w h) := by
  have hR : MeasurableSet (Rect x y w h) := measurableSet_Icc.prod measurableSet_Icc
  rw [Rect_volume x y w h hw, ← map_plane w h x y hw hh _ (hE.inter hR)]
  congr 1
  ext ⟨u, v⟩
  simp only [Draws, Rect, pointInRect, mem_ofPred_eq, mem_inter_iff, mem_prod, mem_Icc, add_comm x, add_comm y]
  have a1 : (x ≤ u * w + x ↔ 0 ≤ u) := by
    constructor
    · intro k; exact Classical.byContradiction fun k' => by nlinarith
    · intro k; nlinarith
  have a2 : (u * w + x ≤ w + x ↔ u ≤ 1) := by
    constructor
    · intro k; exact Classical.byContradiction fun k' => by nlinarith
    · intro k; nlinarith
  have b1 : (y ≤ v * h + y ↔ 0 ≤ v) := by
    constructor
    · intro k; exact Classical.byContradiction fun k' => by nlinarith
    · intro k; nlinarith
  have b2 : (v * h + y ≤ h + y ↔ v ≤ 1) := by
    constructor
    · intro k; exact Classical.byContradiction fun k' => by nlinarith
    · intro k; nlinarith
  rw [a1, a2, b1, b2, and_comm]

theorem draws_disc (f : ℝ × ℝ → ℝ≥0∞) (hf : Measurable f) :
    ∫⁻ d in Draws, f (√d.1 * Real.cos (Real.pi * 2 * d.2), √d.1 * Real.sin (Real.pi * 2 * d.2)) = (∫⁻ p in disc, f p) / ENNReal.ofReal Real.pi := by
  have e : (Draws : Set (ℝ × ℝ)) =ᵐ[volume] (Ioc (0:ℝ) 1 ×ˢ Ioc (0:ℝ) 1 : Set (ℝ × ℝ)) := by
    rw [Measure.volume_eq_prod]
    exact (Measure.set_prod_ae_eq Ioc_ae_eq_Icc Ioc_ae_eq_Icc).symm
  rw [disc_lintegral f hf, setLIntegral_congr e, Measure.volume_eq_prod, setLIntegral_prod _ (by
    refine Measurable.aemeasurable (hf.comp ?_)
    fun_prop), mul_comm (ENNReal.ofReal Real.pi), ENNReal.mul_div_cancel_right (by simp [Real.pi_pos]) ENNReal.ofReal_ne_top]

theorem disc_volume : volume disc = ENNReal.ofReal Real.pi := by
  have h := disc_lintegral (fun _ => 1) measurable_const
  simpa using h

theorem ellipse_pre (cx cy rx ry : ℝ) (hx : 0 < rx) (hy : 0 < ry) (p : ℝ × ℝ) : (p.1 * rx + cx, p.2 * ry + cy) ∈ Ellipse cx cy rx ry ↔ p ∈ disc := by
  simp only [Ellipse, disc, mem_ofPred_eq, add_sub_cancel_right, mul_div_cancel_right₀ _ hx.ne', mul_div_cancel_right₀ _ hy.ne']

theorem ellipse_volume (cx cy rx ry : ℝ) (hx : 0 < rx) (hy : 0 < ry) : volume (Ellipse cx cy rx ry) = ENNReal.ofReal (Real.pi * rx * ry) := by
  have h := map_plane rx ry cx cy hx hy _ (ellipse_meas cx cy rx ry)
  have e : {p : ℝ × ℝ | (p.1 * rx + cx, p.2 * ry + cy) ∈ Ellipse cx cy rx ry} = disc := by
    ext p; exact ellipse_pre cx cy rx ry hx hy p
  rw [e, disc_volume, ENNReal.eq_div_iff (by simp [mul_pos hx hy]) ENNReal.ofReal_ne_top, ← ENNReal.ofReal_mul (by positivity)] at h
  rw [← h]; congr 1; ring

/-- the random points of an ellipse are the points of the ellipse, -/
theorem C143_ellipse_points (cx cy rx ry : ℝ) (hx : 0 < rx) (hy : 0 < ry) : (fun d => pointInEllipse cx cy rx ry d.1 d.2) '' Draws = Ellipse cx cy rx ry := by
  ext ⟨a, b⟩
  constructor
  · rintro ⟨⟨u, v⟩, ⟨⟨hu, hu'⟩, -⟩, e⟩
    rw [← e]
    refine (ellipse_pre cx cy rx ry hx hy (Real.cos (Real.pi * 2 * v) * √u, Real.sin (Real.pi * 2 * v) * √u)).mpr ?_
    simp only [disc, mem_ofPred_eq, mul_pow, ← add_mul, Real.cos_sq_add_sin_sq, Real.sq_sqrt hu, one_mul]
    exact hu'
  · intro h
    have ea : a = ((a - cx) / rx) * rx + cx := by field_simp; ring
    have eb : b = ((b - cy) / ry) * ry + cy := by field_simp; ring
    generalize (a - cx) / rx = s at ea
    generalize (b - cy) / ry = t at eb
    subst ea eb
    have hd := (ellipse_pre cx cy rx ry hx hy (s, t)).mp h
    simp only [disc, mem_ofPred_eq] at hd
    have hn : ‖(⟨s, t⟩ : ℂ)‖ = √(s ^ 2 + t ^ 2) := by
      rw [Complex.norm_def, Complex.normSq_mk]; congr 1; ring
    have hc := Complex.norm_mul_cos_arg (⟨s, t⟩ : ℂ)
    have hs := Complex.norm_mul_sin_arg (⟨s, t⟩ : ℂ)
    rw [hn] at hc hs
    have ha := Complex.arg_mem_Ioc (⟨s, t⟩ : ℂ)
    generalize Complex.arg (⟨s, t⟩ : ℂ) = θ at hc hs ha
    obtain ⟨v, hv, hcv, hsv⟩ : ∃ v ∈ Icc (0:ℝ) 1, Real.cos (Real.pi * 2 * v) = Real.cos θ ∧ Real.sin (Real.pi * 2 * v) = Real.sin θ := by
      have hp := Real.pi_pos
      rcases le_or_gt 0 θ with h0 | h0
      · refine ⟨θ / (Real.pi * 2), ⟨by positivity, (div_le_one (by positivity)).mpr (by linarith [ha.2])⟩, ?_⟩
        rw [mul_div_cancel₀ _ (by positivity)]
        exact ⟨rfl, rfl⟩
      · refine ⟨(θ + 2 * Real.pi) / (Real.pi * 2), ⟨div_nonneg (by linarith [ha.1]) (by positivity), (div_le_one (by positivity)).mpr (by linarith)⟩, ?_⟩
        rw [mul_div_cancel₀ _ (by positivity)]
        exact ⟨Real.cos_add_two_pi θ, Real.sin_add_two_pi θ⟩
    refine ⟨(s ^ 2 + t ^ 2, v), ⟨⟨by positivity, hd⟩, hv⟩, ?_⟩
    simp only [pointInEllipse, hcv, hsv, mul_comm (Real.cos θ), mul_comm (Real.sin θ), hc, hs]

/-- and they are spread evenly: a part of the ellipse is hit as often as it is large. -/
theorem C143_ellipse_even (cx cy rx ry : ℝ) (hx : 0 < rx) (hy : 0 < ry) (E : Set (ℝ × ℝ)) (hE : MeasurableSet E) :
    volume {d ∈ Draws | pointInEllipse cx cy rx ry d.1 d.2 ∈ E} = volume (E ∩ Ellipse cx cy rx ry) / volume (Ellipse cx cy rx ry) := by
  have hmap : Measurable fun p : ℝ × ℝ => (p.1 * rx + cx, p.2 * ry + cy) := by fun_prop
  have hE' : MeasurableSet {p : ℝ × ℝ | (p.1 * rx + cx, p.2 * ry + cy) ∈ E} := hmap hE
  have h := draws_disc ({p : ℝ × ℝ | (p.1 * rx + cx, p.2 * ry + cy) ∈ E}.indicator 1) (measurable_one.indicator hE')
  rw [lintegral_indicator_one hE', Measure.restrict_apply hE'] at h
  have e1 : {p : ℝ × ℝ | (p.1 * rx + cx, p.2 * ry + cy) ∈ E} ∩ disc = {p : ℝ × ℝ | (p.1 * rx + cx, p.2 * ry + cy) ∈ E ∩ Ellipse cx cy rx ry} := by
    ext p
    exact and_congr_right fun _ => (ellipse_pre cx cy rx ry hx hy p).symm
  have hm2 : Measurable fun d : ℝ × ℝ => pointInEllipse cx cy rx ry d.1 d.2 := by
    simp only [pointInEllipse]; fun_prop
  have hD : MeasurableSet {d : ℝ × ℝ | pointInEllipse cx cy rx ry d.1 d.2 ∈ E} := hm2 hE
  have e2 : ∀ d : ℝ × ℝ, ({p : ℝ × ℝ | (p.1 * rx + cx, p.2 * ry + cy) ∈ E}.indicator (1 : ℝ × ℝ → ℝ≥0∞)) (√d.1 * Real.cos (Real.pi * 2 * d.2), √d.1 * Real.sin (Real.pi * 2 * d.2)) =
      {d : ℝ × ℝ | pointInEllipse cx cy rx ry d.1 d.2 ∈ E}.indicator 1 d := by
    intro d
    have pe : pointInEllipse cx cy rx ry d.1 d.2 = (√d.1 * Real.cos (Real.pi * 2 * d.2) * rx + cx, √d.1 * Real.sin (Real.pi * 2 * d.2) * ry + cy) := by
      rw [mul_comm (√d.1), mul_comm (√d.1)]; rfl
    by_cases hm : pointInEllipse cx cy rx ry d.1 d.2 ∈ E
    · rw [indicator_of_mem (s := {d : ℝ × ℝ | pointInEllipse cx cy rx ry d.1 d.2 ∈ E}) hm, indicator_of_mem]
      · rfl
      · rw [pe] at hm; exact hm
    · rw [indicator_of_notMem (s := {d : ℝ × ℝ | pointInEllipse cx cy rx ry d.1 d.2 ∈ E}) hm, indicator_of_notMem]
      rw [pe] at hm; exact hm
  simp only [e2] at h
  rw [lintegral_indicator_one hD, Measure.restrict_apply hD, e1, map_plane rx ry cx cy hx hy _ (hE.inter (ellipse_meas cx cy rx ry))] at h
  have e3 : {d ∈ Draws | pointInEllipse cx cy rx ry d.1 d.2 ∈ E} = {d : ℝ × ℝ | pointInEllipse cx cy rx ry d.1 d.2 ∈ E} ∩ Draws := by
    ext d; exact and_comm
  rw [e3, h, ellipse_volume cx cy rx ry hx hy, mul_assoc, ENNReal.ofReal_mul Real.pi_pos.le, ENNReal.div_eq_inv_mul, ENNReal.div_eq_inv_mul, ENNReal.div_eq_inv_mul,
    ENNReal.mul_inv (Or.inr ENNReal.ofReal_ne_top) (Or.inl ENNReal.ofReal_ne_top), mul_assoc]

/-- The same for a circle. -/
theorem C143_circle (cx cy r : ℝ) (hr : 0 < r) : (fun d => pointInCircle cx cy r d.1 d.2) '' Draws = {p | (p.1 - cx) ^ 2 + (p.2 - cy) ^ 2 ≤ r ^ 2} ∧
    ∀ E, MeasurableSet E → volume {d ∈ Draws | pointInCircle cx cy r d.1 d.2 ∈ E} = volume (E ∩ {p | (p.1 - cx) ^ 2 + (p.2 - cy) ^ 2 ≤ r ^ 2}) / ENNReal.ofReal (Real.pi * r ^ 2) := by
  have e : Ellipse cx cy r r = {p | (p.1 - cx) ^ 2 + (p.2 - cy) ^ 2 ≤ r ^ 2} := by
    ext p
    simp only [Ellipse, mem_ofPred_eq, div_pow, ← add_div]
    exact div_le_one (by positivity)
  rw [← e]
  refine ⟨C143_ellipse_points cx cy r r hr hr, fun E hE => ?_⟩
  have h := C143_ellipse_even cx cy r r hr hr E hE
  rw [ellipse_volume cx cy r r hr hr, mul_assoc, ← pow_two] at h
  exact h

/-- C143: a random number of a range is in the range, whatever the number it is made from (the clamp sees to that), -/
theorem C143_range_inside (min max u : ℝ) (h : min ≤ max) : range min max u ∈ Icc min max := by
  simp only [range, clamp]
  constructor <;> split_ifs <;> linarith

theorem range_eq (min max u : ℝ) (h : min < max) (hu : u ∈ Icc (0:ℝ) 1) : range min max u = u * (max - min) + min := by
  have h1 : min ≤ u * (max - min) + min := by nlinarith [hu.1, hu.2]
  have h2 : u * (max - min) + min ≤ max := by nlinarith [hu.1, hu.2]
  simp only [range, clamp]
  split_ifs <;> linarith

/-- they are the numbers of the range, -/
theorem C143_range_points (min max : ℝ) (h : min < max) : range min max '' Icc 0 1 = Icc min max := by
  ext x
  constructor
  · rintro ⟨u, -, rfl⟩
    exact C143_range_inside min max u h.le
  · rintro ⟨h1, h2⟩
    have hp : 0 < max - min := by linarith
    have hu : (x - min) / (max - min) ∈ Icc (0:ℝ) 1 := ⟨div_nonneg (by linarith) hp.le, (div_le_one hp).mpr (by linarith)⟩
    refine ⟨_, hu, ?_⟩
    rw [range_eq min max _ h hu, div_mul_cancel₀ _ hp.ne']
    ring

/-- and they are spread evenly. -/
theorem C143_range_even (min max : ℝ) (h : min < max) (E : Set ℝ) (hE : MeasurableSet E) :
    volume {u ∈ Icc 0 1 | range min max u ∈ E} = volume (E ∩ Icc min max) / volume (Icc min max) := by
  have hp : 0 < max - min := by linarith
  have hm : Measurable fun x : ℝ => x * (max - min) + min := by fun_prop
  have k := Measure.map_apply (μ := (volume : Measure ℝ)) hm (hE.inter (measurableSet_Icc (a := min) (b := max)))
  rw [map_line _ _ hp, Measure.smul_apply, smul_eq_mul, ENNReal.ofReal_inv_of_pos hp, ← ENNReal.div_eq_inv_mul, ← Real.volume_Icc] at k
  rw [k]
  congr 1
  ext u
  simp only [mem_ofPred_eq, mem_preimage, mem_inter_iff]
  constructor
  · rintro ⟨hu, he⟩
    rw [range_eq min max u h hu] at he
    exact ⟨he, by rw [← range_eq min max u h hu]; exact C143_range_inside min max u h.le⟩
  · rintro ⟨he, h1, h2⟩
    have hu : u ∈ Icc (0:ℝ) 1 := by
      constructor
      · exact Classical.byContradiction fun k' => by nlinarith
      · exact Classical.byContradiction fun k' => by nlinarith
    exact ⟨hu, by rwa [range_eq min max u h hu]⟩

/-- The inner half (by radius) of an ellipse is hit a quarter of the time. -/
example : volume {d ∈ Draws | pointInEllipse 1 2 3 4 d.1 d.2 ∈ Ellipse 1 2 (3 / 2) 2} = 1 / 4 := by
  rw [C143_ellipse_even 1 2 3 4 (by norm_num) (by norm_num) _ (ellipse_meas _ _ _ _)]
  have e : Ellipse 1 2 (3 / 2) 2 ∩ Ellipse 1 2 3 4 = Ellipse 1 2 (3 / 2) 2 := by
    refine inter_eq_left.mpr fun p hp => ?_
    simp only [Ellipse, mem_ofPred_eq] at *
    have e1 : (p.1 - 1) / (3 / 2) = 2 * ((p.1 - 1) / 3) := by ring
    have e2 : (p.2 - 2) / 2 = 2 * ((p.2 - 2) / 4) := by ring
    rw [e1, e2] at hp
    nlinarith [sq_nonneg ((p.1 - 1) / 3), sq_nonneg ((p.2 - 2) / 4)]
  rw [e, ellipse_volume _ _ _ _ (by norm_num) (by norm_num), ellipse_volume _ _ _ _ (by norm_num) (by norm_num), ← ENNReal.ofReal_div_of_pos (by positivity)]
  have : Real.pi * (3 / 2) * 2 / (Real.pi * 3 * 4) = 1 / 4 := by
    have := Real.pi_ne_zero
    field_simp
  rw [this, ENNReal.ofReal_div_of_pos (by norm_num)]
  simp

/-- The hypotheses are met: the lower third of a range. -/
example : volume {u ∈ Icc (0:ℝ) 1 | range 1 4 u ∈ Icc 1 2} = ENNReal.ofReal 1 / ENNReal.ofReal 3 := by
  rw [C143_range_even 1 4 (by norm_num) _ measurableSet_Icc, inter_eq_left.mpr (Icc_subset_Icc le_rfl (by norm_num)), Real.volume_Icc, Real.volume_Icc]
  norm_num

#print axioms C143_rect_points
#print axioms C143_rect_even
#print axioms C143_ellipse_points
#print axioms C143_ellipse_even
#print axioms C143_circle
#print axioms C143_range_inside
#print axioms C143_range_points
#print axioms C143_range_even

end Verif.RandomPoint
