import Verif.VecGeom

/-!
# C81: cross products, perpendiculars and normals; being parallel and being orthogonal
-/
namespace Verif.Vec

open Verif.VecSpec Matrix

/-- **C81.** `CCVector3Cross` is the cross product: it is orthogonal to both vectors, and as long as the area they span. -/
theorem C81_cross (a b : V3 ℝ) :
    E3 (v3Cross a b) = WithLp.toLp 2 (WithLp.ofLp (E3 a) ⨯₃ WithLp.ofLp (E3 b)) ∧
      inner ℝ (E3 a) (E3 (v3Cross a b)) = 0 ∧ inner ℝ (E3 b) (E3 (v3Cross a b)) = 0 ∧
      ‖E3 (v3Cross a b)‖ = ‖E3 a‖ * ‖E3 b‖ * Real.sin (InnerProductGeometry.angle (E3 a) (E3 b)) := by
  have h : E3 (v3Cross a b) = WithLp.toLp 2 (WithLp.ofLp (E3 a) ⨯₃ WithLp.ofLp (E3 b)) := by
    rw [cross_apply]
    rfl
  refine ⟨h, ?_, ?_, ?_⟩
  · rw [inner3]
    show a.x * (a.y * b.z - a.z * b.y) + a.y * (a.z * b.x - a.x * b.z) + a.z * (a.x * b.y - a.y * b.x) = 0
    ring
  · rw [inner3]
    show b.x * (a.y * b.z - a.z * b.y) + b.y * (a.z * b.x - a.x * b.z) + b.z * (a.x * b.y - a.y * b.x) = 0
    ring
  · rw [h, InnerProductGeometry.norm_ofLp_crossProduct]

/-- **C81.** `CCVector3Normal` of three points is of length one and orthogonal to the edges of the triangle; it aborts exactly if the points are
on a line (the edges span no area). -/
theorem C81_normal (a b c : V3 ℝ) :
    (v3Normal a b c = none ↔ ‖E3 b - E3 a‖ * ‖E3 c - E3 a‖ * Real.sin (InnerProductGeometry.angle (E3 b - E3 a) (E3 c - E3 a)) = 0) ∧
      ∀ n, v3Normal a b c = some n → ‖E3 n‖ = 1 ∧ inner ℝ (E3 b - E3 a) (E3 n) = 0 ∧ inner ℝ (E3 c - E3 a) (E3 n) = 0 := by
  obtain ⟨-, h1, h2, h3⟩ := C81_cross (v3Lane (· - ·) b a) (v3Lane (· - ·) c a)
  obtain ⟨-, -, -, -, -, -, -, h4, h5⟩ := C81_three (v3Perp a b c) (v3Perp a b c)
  rw [sub3E, sub3E] at h3
  rw [sub3E] at h1 h2
  constructor
  · rw [show v3Normal a b c = v3Normalize (v3Perp a b c) from rfl, h4, ← norm_eq_zero]
    rw [← h3]
    rfl
  · intro n hn
    obtain ⟨h6, h7⟩ := h5 n hn
    have hne : ‖E3 (v3Perp a b c)‖ ≠ 0 := by
      intro h0
      rw [norm_eq_zero] at h0
      have : v3Normal a b c = none := h4.mpr h0
      rw [this] at hn
      simp at hn
    refine ⟨h6, ?_, ?_⟩
    · rw [show v3Cross (v3Lane (· - ·) b a) (v3Lane (· - ·) c a) = v3Perp a b c from rfl, h7, inner_smul_right] at h1
      exact (mul_eq_zero.mp h1).resolve_left hne
    · rw [show v3Cross (v3Lane (· - ·) b a) (v3Lane (· - ·) c a) = v3Perp a b c from rfl, h7, inner_smul_right] at h2
      exact (mul_eq_zero.mp h2).resolve_left hne

/-- **C81.** `CCVector2Perp` turns a vector by a right angle, counter-clockwise (the cross product with it is positive); `CCVector2PerpR`
clockwise.  `CCVector2Cross` is as large as the area two vectors span. -/
theorem C81_perp (l : Level) (a b : V2 ℝ) :
    inner ℝ (E2 a) (E2 (v2Perp a)) = 0 ∧ ‖E2 (v2Perp a)‖ = ‖E2 a‖ ∧ v2Cross l a (v2Perp a) = ‖E2 a‖ ^ 2 ∧
      E2 (v2PerpR a) = - E2 (v2Perp a) ∧
      |v2Cross l a b| = ‖E2 a‖ * ‖E2 b‖ * Real.sin (InnerProductGeometry.angle (E2 a) (E2 b)) := by
  have hc : ∀ a b : V2 ℝ, v2Cross l a b = a.x * b.y - a.y * b.x := fun a b => (C80_two (F := ℝ) l (fun _ => real_exact.2.1) a b 0).2.2.2.2.2.1
  have hn : ∀ a : V2 ℝ, ‖E2 a‖ ^ 2 = a.x * a.x + a.y * a.y := by
    intro a
    rw [← real_inner_self_eq_norm_sq, inner2]
    rfl
  refine ⟨?_, ?_, ?_, ?_, ?_⟩
  · rw [inner2]
    show a.x * -a.y + a.y * a.x = 0
    ring
  · rw [norm2, norm2]
    show Real.sqrt (-a.y * -a.y + a.x * a.x) = Real.sqrt (a.x * a.x + a.y * a.y)
    congr 1
    ring
  · rw [hc, hn]
    show a.x * a.x - a.y * -a.y = _
    ring
  · ext i
    fin_cases i
    · exact (neg_neg a.y).symm
    · rfl
  · have hs := InnerProductGeometry.sin_angle_nonneg (E2 a) (E2 b)
    rw [← abs_of_nonneg (show 0 ≤ ‖E2 a‖ * ‖E2 b‖ * Real.sin (InnerProductGeometry.angle (E2 a) (E2 b)) by positivity), ← sq_eq_sq_iff_abs_eq_abs, mul_pow, mul_pow,
      Real.sin_sq, hc]
    have h1 : (‖E2 a‖ * ‖E2 b‖) ^ 2 * Real.cos (InnerProductGeometry.angle (E2 a) (E2 b)) ^ 2 = (a.x * b.x + a.y * b.y) ^ 2 := by
      rw [← mul_pow, mul_comm, InnerProductGeometry.cos_angle_mul_norm_mul_norm, inner2]
      rfl
    have h2 : (‖E2 a‖ ^ 2 * ‖E2 b‖ ^ 2) * (1 - Real.cos (InnerProductGeometry.angle (E2 a) (E2 b)) ^ 2) =
        ‖E2 a‖ ^ 2 * ‖E2 b‖ ^ 2 - (‖E2 a‖ * ‖E2 b‖) ^ 2 * Real.cos (InnerProductGeometry.angle (E2 a) (E2 b)) ^ 2 := by ring
    rw [h2, h1, hn, hn]
    ring

theorem lt_iff' (x y : ℝ) : Arith.lt x y = true ↔ x < y := by
  simp [Arith.lt]

/-- **C81, what holds of being parallel and orthogonal.** Vectors of which one is a multiple of the other are `Parallel` and orthogonal
ones are `Ortho`; exactly, `Ortho` says that the inner product is within a millionth of zero.  Missing is the converse: see
`C81_parallel_refuted`. -/
theorem C81_parallel_partial (l : Level) (a b : V2 ℝ) (c d : V3 ℝ) (e f : V4 ℝ) (t : ℝ) :
    (E2 b = t • E2 a → v2Parallel l a b = true) ∧ (E3 d = t • E3 c → v3Parallel c d = true) ∧ (E4 f = t • E4 e → v4Parallel e f = true) ∧
      (v2Ortho l a b = true ↔ |inner ℝ (E2 a) (E2 b)| < 1 / 10 ^ 6) ∧ (v3Ortho c d = true ↔ |inner ℝ (E3 c) (E3 d)| < 1 / 10 ^ 6) ∧
      (v4Ortho e f = true ↔ |inner ℝ (E4 e) (E4 f)| < 1 / 10 ^ 6) := by
  have hz : ∀ x : ℝ, x = 0 → Arith.lt (Arith.abs x) (Arith.tiny : ℝ) = true := by
    intro x hx
    rw [lt_iff']
    show |x| < 1 / 10 ^ 6
    rw [hx, abs_zero]
    positivity
  refine ⟨?_, ?_, ?_, ?_, ?_, ?_⟩
  · intro h
    have hx : b.x = t * a.x := congrFun (congrArg WithLp.ofLp h) 0
    have hy : b.y = t * a.y := congrFun (congrArg WithLp.ofLp h) 1
    refine hz _ ?_
    rw [(C80_two (F := ℝ) l (fun _ => real_exact.2.1) a b 0).2.2.2.2.2.1]
    show a.x * b.y - a.y * b.x = 0
    rw [hx, hy]
    ring
  · intro h
    have hx : d.x = t * c.x := congrFun (congrArg WithLp.ofLp h) 0
    have hy : d.y = t * c.y := congrFun (congrArg WithLp.ofLp h) 1
    have hz' : d.z = t * c.z := congrFun (congrArg WithLp.ofLp h) 2
    simp only [v3Parallel, Bool.and_eq_true]
    refine ⟨⟨hz _ ?_, hz _ ?_⟩, hz _ ?_⟩
    · show c.y * d.z - c.z * d.y = 0
      rw [hy, hz']; ring
    · show c.z * d.x - c.x * d.z = 0
      rw [hx, hz']; ring
    · show c.x * d.y - c.y * d.x = 0
      rw [hx, hy]; ring
  · intro h
    have hx : f.x = t * e.x := congrFun (congrArg WithLp.ofLp h) 0
    have hy : f.y = t * e.y := congrFun (congrArg WithLp.ofLp h) 1
    have hz' : f.z = t * e.z := congrFun (congrArg WithLp.ofLp h) 2
    simp only [v4Parallel, Bool.and_eq_true]
    refine ⟨⟨hz _ ?_, hz _ ?_⟩, hz _ ?_⟩
    · show e.y * f.z - e.z * f.y = 0
      rw [hy, hz']; ring
    · show e.z * f.x - e.x * f.z = 0
      rw [hx, hz']; ring
    · show e.x * f.y - e.y * f.x = 0
      rw [hx, hy]; ring
  · rw [v2Ortho, lt_iff', (C80_two (F := ℝ) l (fun _ => real_exact.2.1) a b 0).1, inner2]
    rfl
  · rw [v3Ortho, lt_iff', inner3]
    rfl
  · rw [v4Ortho, lt_iff', inner4]
    rfl

/-- **C81, refuted for being parallel and orthogonal.** Short vectors are parallel and orthogonal at once whatever their directions: here
one-ten-thousandth of the two axes.  The fourth component does not count for being parallel: the first and the fourth axis are
parallel (and orthogonal). -/
theorem C81_parallel_refuted (l : Level) :
    (∀ a b : V2 ℝ, ‖E2 a‖ * ‖E2 b‖ < 1 / 10 ^ 6 → v2Parallel l a b = true ∧ v2Ortho l a b = true) ∧
      (v2Parallel l ⟨1 / 10 ^ 4, 0⟩ ⟨0, (1 / 10 ^ 4 : ℝ)⟩ = true ∧ v2Ortho l ⟨1 / 10 ^ 4, 0⟩ ⟨0, (1 / 10 ^ 4 : ℝ)⟩ = true) ∧
      ∀ x : ℝ, v4Parallel ⟨x, 0, 0, 0⟩ ⟨0, 0, 0, x⟩ = true ∧ v4Ortho ⟨x, 0, 0, 0⟩ ⟨0, 0, 0, x⟩ = true := by
  have h1 : ∀ a b : V2 ℝ, ‖E2 a‖ * ‖E2 b‖ < 1 / 10 ^ 6 → v2Parallel l a b = true ∧ v2Ortho l a b = true := by
    intro a b h
    constructor
    · rw [v2Parallel, lt_iff']
      show |v2Cross l a b| < 1 / 10 ^ 6
      rw [(C81_perp l a b).2.2.2.2]
      refine lt_of_le_of_lt ?_ h
      exact mul_le_of_le_one_right (by positivity) (Real.sin_le_one _)
    · rw [(C81_parallel_partial l a b ⟨0, 0, 0⟩ ⟨0, 0, 0⟩ ⟨0, 0, 0, 0⟩ ⟨0, 0, 0, 0⟩ 0).2.2.2.1]
      exact lt_of_le_of_lt (abs_real_inner_le_norm _ _) h
  refine ⟨h1, h1 _ _ ?_, ?_⟩
  · rw [norm2, norm2]
    show Real.sqrt (1 / 10 ^ 4 * (1 / 10 ^ 4) + 0 * 0) * Real.sqrt (0 * 0 + 1 / 10 ^ 4 * (1 / 10 ^ 4)) < 1 / 10 ^ 6
    rw [zero_mul, add_zero, zero_add, Real.mul_self_sqrt (by positivity)]
    norm_num
  · intro x
    constructor
    · have hz : ∀ y : ℝ, y = 0 → Arith.lt (Arith.abs y) (Arith.tiny : ℝ) = true := by
        intro y hy
        rw [lt_iff']
        show |y| < 1 / 10 ^ 6
        rw [hy, abs_zero]
        positivity
      simp only [v4Parallel, Bool.and_eq_true]
      refine ⟨⟨hz _ ?_, hz _ ?_⟩, hz _ ?_⟩
      · show (0 : ℝ) * 0 - 0 * 0 = 0
        ring
      · show (0 : ℝ) * 0 - x * 0 = 0
        ring
      · show x * 0 - (0 : ℝ) * 0 = 0
        ring
    · rw [(C81_parallel_partial l ⟨0, 0⟩ ⟨0, 0⟩ ⟨0, 0, 0⟩ ⟨0, 0, 0⟩ ⟨x, 0, 0, 0⟩ ⟨0, 0, 0, x⟩ 0).2.2.2.2.2, inner4]
      show |x * 0 + 0 * 0 + 0 * 0 + 0 * x| < 1 / 10 ^ 6
      norm_num

/-! The hypotheses can be met. -/

example : ∃ n, v3Normal (⟨0, 0, 0⟩ : V3 ℝ) ⟨1, 0, 0⟩ ⟨0, 1, 0⟩ = some n := by
  obtain ⟨h, -⟩ := C81_normal ⟨0, 0, 0⟩ ⟨1, 0, 0⟩ ⟨0, 1, 0⟩
  rcases hn : v3Normal (⟨0, 0, 0⟩ : V3 ℝ) ⟨1, 0, 0⟩ ⟨0, 1, 0⟩ with _ | n
  · exfalso
    have h0 : E3 (v3Perp (⟨0, 0, 0⟩ : V3 ℝ) ⟨1, 0, 0⟩ ⟨0, 1, 0⟩) = 0 := by
      obtain ⟨-, -, -, -, -, -, -, h4, -⟩ := C81_three (v3Perp ⟨0, 0, 0⟩ ⟨1, 0, 0⟩ ⟨0, 1, 0⟩) ⟨0, 0, 0⟩
      exact h4.mp hn
    have : (1 - 0 : ℝ) * (1 - 0) - (0 - 0) * (0 - 0) = 0 := congrFun (congrArg WithLp.ofLp h0) 2
    norm_num at this
  · exact ⟨n, rfl⟩

example : E2 (⟨2, 4⟩ : V2 ℝ) = (2 : ℝ) • E2 ⟨1, 2⟩ ∧ E2 (⟨1, 2⟩ : V2 ℝ) ≠ 0 := by
  constructor
  · ext i
    fin_cases i
    · show (2 : ℝ) = 2 * 1
      norm_num
    · show (4 : ℝ) = 2 * 2
      norm_num
  · intro h
    have : (1 : ℝ) = 0 := congrFun (congrArg WithLp.ofLp h) 0
    norm_num at this

#print axioms C81_two
#print axioms C81_three
#print axioms C81_four
#print axioms C81_cross
#print axioms C81_normal
#print axioms C81_perp
#print axioms C81_parallel_partial
#print axioms C81_parallel_refuted

end Verif.Vec
