import Mathlib.Analysis.InnerProductSpace.PiL2
import Mathlib.Analysis.InnerProductSpace.Projection.Basic
import Mathlib.Geometry.Euclidean.Angle.Unoriented.Basic
import Mathlib.Geometry.Euclidean.Angle.Unoriented.CrossProduct
import Mathlib.LinearAlgebra.CrossProduct
import Mathlib.LinearAlgebra.AffineSpace.AffineMap
import Verif.VecProps

/-!
# C81: the geometry of the vectors

The vector functions computed with real numbers, that is but for rounding, are those of Euclidean geometry as Mathlib defines it.
-/
namespace Verif.Vec

open Verif.VecSpec

/-- The real numbers in place of `float`. -/
noncomputable instance realArith : Arith ℝ where
  add := (· + ·)
  sub := (· - ·)
  mul := (· * ·)
  div := (· / ·)
  neg := Neg.neg
  zero := 0
  one := 1
  abs a := |a|
  sqrt := Real.sqrt
  lt a b := @decide (a < b) (Classical.propDecidable _)
  le a b := @decide (a ≤ b) (Classical.propDecidable _)
  eq a b := @decide (a = b) (Classical.propDecidable _)
  tiny := 1 / 10 ^ 6

attribute [instance 10] Arith.toAdd Arith.toSub Arith.toMul Arith.toDiv Arith.toNeg

theorem real_exact : Comm ℝ ∧ AddZero ℝ ∧ Assoc ℝ := ⟨add_comm, add_zero, add_assoc⟩

/-- The vectors as those of Euclidean space. -/
noncomputable def E2 (a : V2 ℝ) : EuclideanSpace ℝ (Fin 2) := !₂[a.x, a.y]

noncomputable def E3 (a : V3 ℝ) : EuclideanSpace ℝ (Fin 3) := !₂[a.x, a.y, a.z]

noncomputable def E4 (a : V4 ℝ) : EuclideanSpace ℝ (Fin 4) := !₂[a.x, a.y, a.z, a.w]

theorem inner2 (a b : V2 ℝ) : inner ℝ (E2 a) (E2 b) = dot2 a b := by
  simp [E2, PiLp.inner_apply, Fin.sum_univ_two]
  show b.x * a.x + b.y * a.y = a.x * b.x + a.y * b.y
  ring

theorem inner3 (a b : V3 ℝ) : inner ℝ (E3 a) (E3 b) = v3Dot a b := by
  simp [E3, PiLp.inner_apply, Fin.sum_univ_three]
  show b.x * a.x + b.y * a.y + b.z * a.z = a.x * b.x + a.y * b.y + a.z * b.z
  ring

theorem inner4 (a b : V4 ℝ) : inner ℝ (E4 a) (E4 b) = v4Dot a b := by
  simp [E4, PiLp.inner_apply, Fin.sum_univ_four]
  show b.x * a.x + b.y * a.y + b.z * a.z + b.w * a.w = a.x * b.x + a.y * b.y + a.z * b.z + a.w * b.w
  ring

theorem norm2 (a : V2 ℝ) : ‖E2 a‖ = len2 a := by
  rw [norm_eq_sqrt_real_inner, inner2]; rfl

theorem norm3 (a : V3 ℝ) : ‖E3 a‖ = v3Length a := by
  rw [norm_eq_sqrt_real_inner, inner3]; rfl

theorem norm4 (a : V4 ℝ) : ‖E4 a‖ = v4Length a := by
  rw [norm_eq_sqrt_real_inner, inner4]; rfl

theorem sub2E (a b : V2 ℝ) : E2 (sub2 a b) = E2 a - E2 b := by
  ext i
  fin_cases i <;> rfl

theorem sub3E (a b : V3 ℝ) : E3 (v3Lane (· - ·) a b) = E3 a - E3 b := by
  ext i
  fin_cases i <;> rfl

theorem sub4E (a b : V4 ℝ) : E4 (lanes (· - ·) a b) = E4 a - E4 b := by
  ext i
  fin_cases i <;> rfl

/-- The functions on vectors are those of Euclidean geometry: the inner product, the norm, the distance, the cosine of the angle (of vectors
other than zero), the point on the line through two points, the projection onto the direction of a vector and the rest of it, and
the vector of length one in the same direction, which only the zero vector does not have. -/
def IsEuclidean {V : Type} {n : ℕ} (E : V → EuclideanSpace ℝ (Fin n)) (dot : V → V → ℝ) (length : V → ℝ)
    (distance distanceSquare angle : V → V → ℝ) (lerp : V → V → ℝ → V) (project reject : V → V → V) (normalize : V → Option V) : Prop :=
  ∀ a b, dot a b = inner ℝ (E a) (E b) ∧ length a = ‖E a‖ ∧ distance a b = dist (E a) (E b) ∧
    distanceSquare a b = dist (E a) (E b) ^ 2 ∧
    (E a ≠ 0 → E b ≠ 0 → angle a b = Real.cos (InnerProductGeometry.angle (E a) (E b))) ∧
    (∀ t, E (lerp a b t) = AffineMap.lineMap (E a) (E b) t) ∧
    (E b ≠ 0 → E (project a b) = (Submodule.span ℝ {E b}).starProjection (E a) ∧
      E (reject a b) = (Submodule.span ℝ {E b})ᗮ.starProjection (E a)) ∧
    (normalize a = none ↔ E a = 0) ∧ ∀ u, normalize a = some u → ‖E u‖ = 1 ∧ E a = ‖E a‖ • E u

theorem isEuclidean_of {V : Type} {n : ℕ} {E : V → EuclideanSpace ℝ (Fin n)} {dot : V → V → ℝ} {length : V → ℝ}
    {distance distanceSquare angle : V → V → ℝ} {lerp : V → V → ℝ → V} {project reject sub : V → V → V} {normalize : V → Option V}
    {scale : V → ℝ → V}
    (h1 : ∀ a b, dot a b = inner ℝ (E a) (E b)) (h2 : ∀ a, length a = ‖E a‖) (hs : ∀ a b, E (sub a b) = E a - E b)
    (h3 : ∀ a b, distance a b = length (sub a b)) (h4 : ∀ a b, distanceSquare a b = dot (sub a b) (sub a b))
    (h5 : ∀ a b, angle a b = dot a b / (length a * length b)) (h6 : ∀ a b t, E (lerp a b t) = E a + t • (E b - E a))
    (h7 : ∀ a b, E (project a b) = (dot a b / dot b b) • E b) (h8 : ∀ a b, E (reject a b) = E a - E (project a b))
    (h9 : ∀ a, normalize a = if length a = 0 then none else some (scale a (length a)))
    (h10 : ∀ a x, E (scale a x) = x⁻¹ • E a) :
    IsEuclidean E dot length distance distanceSquare angle lerp project reject normalize := by
  intro a b
  have hp : E (project a b) = (Submodule.span ℝ {E b}).starProjection (E a) := by
    rw [h7, Submodule.starProjection_singleton, h1, h1, real_inner_self_eq_norm_sq, real_inner_comm]
    rfl
  refine ⟨h1 a b, h2 a, ?_, ?_, ?_, ?_, ?_, ?_, ?_⟩
  · rw [h3, h2, hs, dist_eq_norm]
  · rw [h4, h1, hs, real_inner_self_eq_norm_sq, dist_eq_norm]
  · intro _ _
    rw [h5, InnerProductGeometry.cos_angle, h1, h2, h2]
  · intro t
    rw [h6, AffineMap.lineMap_apply]
    simp [vsub_eq_sub, vadd_eq_add, add_comm]
  · intro _
    refine ⟨hp, ?_⟩
    rw [h8, hp, Submodule.starProjection_orthogonal']
    simp
  · rw [h9]
    by_cases h : length a = 0
    · rw [if_pos h]
      simpa [h2] using h
    · rw [if_neg h]
      simp only [reduceCtorEq, false_iff]
      rw [h2, norm_eq_zero] at h
      exact h
  · intro u hu
    rw [h9] at hu
    by_cases h : length a = 0
    · rw [if_pos h] at hu
      simp at hu
    · rw [if_neg h] at hu
      injection hu with hu
      rw [h2] at h
      subst hu
      rw [h10, h2]
      constructor
      · rw [norm_smul, norm_inv, norm_norm]
        exact inv_mul_cancel₀ h
      · rw [smul_smul, mul_inv_cancel₀ h, one_smul]

theorem norm_ite {V : Type} (x : ℝ) (u : V) : (if !Arith.eq x (Arith.zero : ℝ) then some u else none) = if x = 0 then none else some u := by
  by_cases h : x = 0
  · rw [if_pos h, if_neg]
    simp [Arith.eq, Arith.zero, h]
  · rw [if_neg h, if_pos]
    simp [Arith.eq, Arith.zero, h]

/-- **C81.** The functions on vectors of two, at every level, are those of the Euclidean plane. -/
theorem C81_two (l : Level) : IsEuclidean E2 (v2Dot l) (v2Length l) (v2Distance l) (v2DistanceSquare l) (v2Angle l) (v2Lerp l) (v2Project l)
    (v2Reject l) (v2Normalize l) := by
  have h := fun a b t => C80_two (F := ℝ) l (fun _ => real_exact.2.1) a b t
  refine isEuclidean_of (sub := sub2) (scale := v2Scalar (· / ·)) ?_ ?_ sub2E ?_ ?_ ?_ ?_ ?_ ?_ ?_ ?_
  · intro a b
    rw [(h a b 0).1, inner2]
  · intro a
    rw [(h a a 0).2.1, norm2]
  · intro a b
    rw [(h a b 0).2.2.1, (h _ (sub2 a b) 0).2.1]
  · intro a b
    rw [(h a b 0).2.2.2.1, (h _ _ 0).1]
  · intro a b
    rw [(h a b 0).2.2.2.2.1, (h a b 0).1, (h a b 0).2.1, (h b b 0).2.1]
    rfl
  · intro a b t
    rw [(h a b t).2.2.2.2.2.2.1]
    ext i
    fin_cases i
    · show a.x + (b.x - a.x) * t = a.x + t * (b.x - a.x)
      ring
    · show a.y + (b.y - a.y) * t = a.y + t * (b.y - a.y)
      ring
  · intro a b
    rw [(h a b 0).2.2.2.2.2.2.2.1, (h a b 0).1, (h b b 0).1]
    ext i
    fin_cases i
    · exact mul_comm _ _
    · exact mul_comm _ _
  · intro a b
    rw [(h a b 0).2.2.2.2.2.2.2.2, (h a b 0).2.2.2.2.2.2.2.1, sub2E]
  · intro a
    exact norm_ite _ _
  · intro a x
    ext i
    fin_cases i
    · exact (div_eq_inv_mul _ _)
    · exact (div_eq_inv_mul _ _)

/-- **C81.** The functions on vectors of three are those of Euclidean space. -/
theorem C81_three : IsEuclidean E3 v3Dot v3Length v3Distance v3DistanceSquare v3Angle v3Lerp v3Project v3Reject v3Normalize := by
  refine isEuclidean_of (sub := v3Lane (· - ·)) (scale := v3Scalar (· / ·)) (fun a b => (inner3 a b).symm) (fun a => (norm3 a).symm) sub3E
    (fun _ _ => rfl) (fun _ _ => rfl) (fun _ _ => rfl) ?_ ?_ ?_ (fun a => norm_ite _ _) ?_
  · intro a b t
    ext i
    fin_cases i
    · exact congrArg (a.x + ·) (mul_comm _ _)
    · exact congrArg (a.y + ·) (mul_comm _ _)
    · exact congrArg (a.z + ·) (mul_comm _ _)
  · intro a b
    ext i
    fin_cases i <;> exact mul_comm _ _
  · intro a b
    exact sub3E _ _
  · intro a x
    ext i
    fin_cases i <;> exact (div_eq_inv_mul _ _)

/-- **C81.** The functions on vectors of four are those of Euclidean space of four dimensions. -/
theorem C81_four : IsEuclidean E4 v4Dot v4Length v4Distance v4DistanceSquare v4Angle v4Lerp v4Project v4Reject v4Normalize := by
  refine isEuclidean_of (sub := lanes (· - ·)) (scale := v4Scalar (· / ·)) (fun a b => (inner4 a b).symm) (fun a => (norm4 a).symm) sub4E
    (fun _ _ => rfl) (fun _ _ => rfl) (fun _ _ => rfl) ?_ ?_ ?_ (fun a => norm_ite _ _) ?_
  · intro a b t
    ext i
    fin_cases i
    · exact congrArg (a.x + ·) (mul_comm _ _)
    · exact congrArg (a.y + ·) (mul_comm _ _)
    · exact congrArg (a.z + ·) (mul_comm _ _)
    · exact congrArg (a.w + ·) (mul_comm _ _)
  · intro a b
    ext i
    fin_cases i <;> exact mul_comm _ _
  · intro a b
    exact sub4E _ _
  · intro a x
    ext i
    fin_cases i <;> exact (div_eq_inv_mul _ _)

end Verif.Vec
