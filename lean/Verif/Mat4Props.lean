import Mathlib.LinearAlgebra.Matrix.Notation
import Mathlib.Analysis.SpecialFunctions.Trigonometric.Basic
import Mathlib.Tactic.LinearCombination
import Mathlib.Tactic.FieldSimp
import Verif.Mat4
import Verif.VecGeom

/-!
# C83: the matrices

With real numbers for `float`, that is but for rounding.
-/
namespace Verif.Mat4

open Verif.Vec Verif.VecSpec Matrix

noncomputable instance realTrig : Trig ℝ where
  toArith := realArith
  two := 2
  sin := Real.sin
  cos := Real.cos
  tan := Real.tan

/-- The matrix of mathematics: rows and columns. -/
def M (m : Mat ℝ) : Matrix (Fin 4) (Fin 4) ℝ :=
  !![m.x.x, m.y.x, m.z.x, m.w.x;
     m.x.y, m.y.y, m.z.y, m.w.y;
     m.x.z, m.y.z, m.z.z, m.w.z;
     m.x.w, m.y.w, m.z.w, m.w.w]

/-- The column vector. -/
def C (v : V4 ℝ) : Fin 4 → ℝ := ![v.x, v.y, v.z, v.w]

theorem M_mul (a b : Mat ℝ) : M (mul a b) = M a * M b := by
  ext i j
  rw [Matrix.mul_apply, Fin.sum_univ_four]
  fin_cases i <;> fin_cases j <;> rfl

theorem C_mulVector4 (m : Mat ℝ) (v : V4 ℝ) : C (mulVector4 m v) = M m *ᵥ C v := by
  ext i
  rw [Matrix.mulVec, dotProduct, Fin.sum_univ_four]
  fin_cases i <;> rfl

theorem M_identity : M identity = 1 := by
  ext i j
  fin_cases i <;> fin_cases j <;> rfl

theorem M_injective {a b : Mat ℝ} (h : M a = M b) : a = b := by
  have e : ∀ i j, M a i j = M b i j := fun i j => by rw [h]
  have hx : a.x = b.x := V4.ext (e 0 0) (e 1 0) (e 2 0) (e 3 0)
  have hy : a.y = b.y := V4.ext (e 0 1) (e 1 1) (e 2 1) (e 3 1)
  have hz : a.z = b.z := V4.ext (e 0 2) (e 1 2) (e 2 2) (e 3 2)
  have hw : a.w = b.w := V4.ext (e 0 3) (e 1 3) (e 2 3) (e 3 3)
  exact Mat.ext hx hy hz hw

theorem C_injective {a b : V4 ℝ} (h : C a = C b) : a = b :=
  V4.ext (congrFun h 0) (congrFun h 1) (congrFun h 2) (congrFun h 3)

/-- **C83.** `CCMatrix4Mul` and `CCMatrix4MulVector4D` are the products of matrices, and of a matrix and a column vector. -/
theorem C83_product (a b : Mat ℝ) (v : V4 ℝ) : M (mul a b) = M a * M b ∧ C (mulVector4 a v) = M a *ᵥ C v ∧ M identity = 1 :=
  ⟨M_mul a b, C_mulVector4 a v, M_identity⟩

/-- **C83.** Multiplying matrices composes what they do to vectors, positions and directions (these where the last row is that of
an affine transformation): the right one first.  `CCMatrix4Identity` does nothing. -/
theorem C83_compose (a b c : Mat ℝ) (v : V4 ℝ) (p : V3 ℝ) :
    mulVector4 (mul a b) v = mulVector4 a (mulVector4 b v) ∧ mulVector4 identity v = v ∧ mul (mul a b) c = mul a (mul b c) ∧
      mul identity a = a ∧ mul a identity = a ∧
      (b.x.w = 0 → b.y.w = 0 → b.z.w = 0 → b.w.w = 1 →
        mulPosition (mul a b) p = mulPosition a (mulPosition b p) ∧ mulDirection (mul a b) p = mulDirection a (mulDirection b p)) := by
  have h1 : ∀ v, mulVector4 (mul a b) v = mulVector4 a (mulVector4 b v) := by
    intro v
    apply C_injective
    rw [C_mulVector4, C_mulVector4, C_mulVector4, M_mul, Matrix.mulVec_mulVec]
  refine ⟨h1 v, ?_, ?_, ?_, ?_, ?_⟩
  · apply C_injective
    rw [C_mulVector4, M_identity, Matrix.one_mulVec]
  · apply M_injective
    rw [M_mul, M_mul, M_mul, M_mul, Matrix.mul_assoc]
  · apply M_injective
    rw [M_mul, M_identity, Matrix.one_mul]
  · apply M_injective
    rw [M_mul, M_identity, Matrix.mul_one]
  · intro hx hy hz hw
    constructor
    · have hv : mulVector4 b ⟨p.x, p.y, p.z, (1 : ℝ)⟩ = ⟨(mulPosition b p).x, (mulPosition b p).y, (mulPosition b p).z, (1 : ℝ)⟩ := by
        refine V4.ext rfl rfl rfl ?_
        show b.x.w * p.x + b.y.w * p.y + b.z.w * p.z + b.w.w * 1 = 1
        rw [hx, hy, hz, hw]
        ring
      show (⟨_, _, _⟩ : V3 ℝ) = ⟨_, _, _⟩
      rw [show (⟨p.x, p.y, p.z, Arith.one⟩ : V4 ℝ) = ⟨p.x, p.y, p.z, (1 : ℝ)⟩ from rfl, h1, hv]
      rfl
    · have hv : mulVector4 b ⟨p.x, p.y, p.z, (0 : ℝ)⟩ = ⟨(mulDirection b p).x, (mulDirection b p).y, (mulDirection b p).z, (0 : ℝ)⟩ := by
        refine V4.ext rfl rfl rfl ?_
        show b.x.w * p.x + b.y.w * p.y + b.z.w * p.z + b.w.w * 0 = 0
        rw [hx, hy, hz]
        ring
      show (⟨_, _, _⟩ : V3 ℝ) = ⟨_, _, _⟩
      rw [show (⟨p.x, p.y, p.z, Arith.zero⟩ : V4 ℝ) = ⟨p.x, p.y, p.z, (0 : ℝ)⟩ from rfl, h1, hv]
      rfl

/-- **C83.** Translations move positions and leave directions, scales multiply the components of both. -/
theorem C83_translation_scale (a v : V3 ℝ) :
    E3 (mulPosition (makeTranslation a) v) = E3 v + E3 a ∧ mulDirection (makeTranslation a) v = v ∧
      mulPosition (makeScale a) v = ⟨a.x * v.x, a.y * v.y, a.z * v.z⟩ ∧ mulDirection (makeScale a) v = ⟨a.x * v.x, a.y * v.y, a.z * v.z⟩ := by
  refine ⟨?_, ?_, ?_, ?_⟩
  · ext i
    fin_cases i
    · show 1 * v.x + 0 * v.y + 0 * v.z + a.x * 1 = v.x + a.x
      ring
    · show 0 * v.x + 1 * v.y + 0 * v.z + a.y * 1 = v.y + a.y
      ring
    · show 0 * v.x + 0 * v.y + 1 * v.z + a.z * 1 = v.z + a.z
      ring
  · refine V3.ext ?_ ?_ ?_
    · show 1 * v.x + 0 * v.y + 0 * v.z + a.x * 0 = v.x
      ring
    · show 0 * v.x + 1 * v.y + 0 * v.z + a.y * 0 = v.y
      ring
    · show 0 * v.x + 0 * v.y + 1 * v.z + a.z * 0 = v.z
      ring
  · refine V3.ext ?_ ?_ ?_
    · show a.x * v.x + 0 * v.y + 0 * v.z + 0 * 1 = a.x * v.x
      ring
    · show 0 * v.x + a.y * v.y + 0 * v.z + 0 * 1 = a.y * v.y
      ring
    · show 0 * v.x + 0 * v.y + a.z * v.z + 0 * 1 = a.z * v.z
      ring
  · refine V3.ext ?_ ?_ ?_
    · show a.x * v.x + 0 * v.y + 0 * v.z + 0 * 0 = a.x * v.x
      ring
    · show 0 * v.x + a.y * v.y + 0 * v.z + 0 * 0 = a.y * v.y
      ring
    · show 0 * v.x + 0 * v.y + a.z * v.z + 0 * 0 = a.z * v.z
      ring

theorem normalize_unit {a k : V3 ℝ} (h : v3Normalize a = some k) : k.x * k.x + k.y * k.y + k.z * k.z = 1 := by
  obtain ⟨-, -, -, -, -, -, -, -, h5⟩ := C81_three a a
  have h6 := (h5 k h).1
  have h7 : inner ℝ (E3 k) (E3 k) = ‖E3 k‖ ^ 2 := real_inner_self_eq_norm_sq _
  rw [h6, inner3] at h7
  have h8 : k.x * k.x + k.y * k.y + k.z * k.z = 1 ^ 2 := h7
  rw [h8, one_pow]

/-- The matrix of a rotation, from the cosine, the sine and an axis of length one. -/
def rot (c s : ℝ) (k : V3 ℝ) : Matrix (Fin 4) (Fin 4) ℝ :=
  !![k.x * k.x * (1 - c) + c, k.x * k.y * (1 - c) - k.z * s, k.x * k.z * (1 - c) + k.y * s, 0;
     k.y * k.x * (1 - c) + k.z * s, k.y * k.y * (1 - c) + c, k.y * k.z * (1 - c) - k.x * s, 0;
     k.z * k.x * (1 - c) - k.y * s, k.z * k.y * (1 - c) + k.x * s, k.z * k.z * (1 - c) + c, 0;
     0, 0, 0, 1]

theorem makeRotation_eq {θ : ℝ} {a : V3 ℝ} {r : Mat ℝ} (h : makeRotation θ a = some r) :
    ∃ k, v3Normalize a = some k ∧ M r = rot (Real.cos θ) (Real.sin θ) k := by
  rw [makeRotation] at h
  rcases hk : v3Normalize a with _ | k
  · rw [hk] at h
    simp at h
  · rw [hk] at h
    refine ⟨k, rfl, ?_⟩
    injection h with h
    subst h
    rfl

theorem makeRotation_some {a k : V3 ℝ} (h : v3Normalize a = some k) (θ : ℝ) :
    ∃ r, makeRotation θ a = some r ∧ M r = rot (Real.cos θ) (Real.sin θ) k := by
  refine ⟨_, by rw [makeRotation, h], rfl⟩

theorem rot_mul (c s c' s' : ℝ) (k : V3 ℝ) (hk : k.x * k.x + k.y * k.y + k.z * k.z = 1) :
    rot c s k * rot c' s' k = rot (c * c' - s * s') (s * c' + c * s') k := by
  ext i j
  rw [Matrix.mul_apply, Fin.sum_univ_four]
  fin_cases i <;> fin_cases j
  · show (k.x * k.x * (1 - c) + c) * (k.x * k.x * (1 - c') + c') + (k.x * k.y * (1 - c) - k.z * s) * (k.y * k.x * (1 - c') + k.z * s') + (k.x * k.z * (1 - c) + k.y * s) * (k.z * k.x * (1 - c') - k.y * s') + (0) * (0) = k.x * k.x * (1 - (c * c' - s * s')) + (c * c' - s * s')
    linear_combination (-(s * s') + (1 - c) * (1 - c') * k.x * k.x) * hk
  · show (k.x * k.x * (1 - c) + c) * (k.x * k.y * (1 - c') - k.z * s') + (k.x * k.y * (1 - c) - k.z * s) * (k.y * k.y * (1 - c') + c') + (k.x * k.z * (1 - c) + k.y * s) * (k.z * k.y * (1 - c') + k.x * s') + (0) * (0) = k.x * k.y * (1 - (c * c' - s * s')) - k.z * (s * c' + c * s')
    linear_combination (0 + (1 - c) * (1 - c') * k.x * k.y) * hk
  · show (k.x * k.x * (1 - c) + c) * (k.x * k.z * (1 - c') + k.y * s') + (k.x * k.y * (1 - c) - k.z * s) * (k.y * k.z * (1 - c') - k.x * s') + (k.x * k.z * (1 - c) + k.y * s) * (k.z * k.z * (1 - c') + c') + (0) * (0) = k.x * k.z * (1 - (c * c' - s * s')) + k.y * (s * c' + c * s')
    linear_combination (0 + (1 - c) * (1 - c') * k.x * k.z) * hk
  · show (k.x * k.x * (1 - c) + c) * (0) + (k.x * k.y * (1 - c) - k.z * s) * (0) + (k.x * k.z * (1 - c) + k.y * s) * (0) + (0) * (1) = 0
    ring
  · show (k.y * k.x * (1 - c) + k.z * s) * (k.x * k.x * (1 - c') + c') + (k.y * k.y * (1 - c) + c) * (k.y * k.x * (1 - c') + k.z * s') + (k.y * k.z * (1 - c) - k.x * s) * (k.z * k.x * (1 - c') - k.y * s') + (0) * (0) = k.y * k.x * (1 - (c * c' - s * s')) + k.z * (s * c' + c * s')
    linear_combination (0 + (1 - c) * (1 - c') * k.y * k.x) * hk
  · show (k.y * k.x * (1 - c) + k.z * s) * (k.x * k.y * (1 - c') - k.z * s') + (k.y * k.y * (1 - c) + c) * (k.y * k.y * (1 - c') + c') + (k.y * k.z * (1 - c) - k.x * s) * (k.z * k.y * (1 - c') + k.x * s') + (0) * (0) = k.y * k.y * (1 - (c * c' - s * s')) + (c * c' - s * s')
    linear_combination (-(s * s') + (1 - c) * (1 - c') * k.y * k.y) * hk
  · show (k.y * k.x * (1 - c) + k.z * s) * (k.x * k.z * (1 - c') + k.y * s') + (k.y * k.y * (1 - c) + c) * (k.y * k.z * (1 - c') - k.x * s') + (k.y * k.z * (1 - c) - k.x * s) * (k.z * k.z * (1 - c') + c') + (0) * (0) = k.y * k.z * (1 - (c * c' - s * s')) - k.x * (s * c' + c * s')
    linear_combination (0 + (1 - c) * (1 - c') * k.y * k.z) * hk
  · show (k.y * k.x * (1 - c) + k.z * s) * (0) + (k.y * k.y * (1 - c) + c) * (0) + (k.y * k.z * (1 - c) - k.x * s) * (0) + (0) * (1) = 0
    ring
  · show (k.z * k.x * (1 - c) - k.y * s) * (k.x * k.x * (1 - c') + c') + (k.z * k.y * (1 - c) + k.x * s) * (k.y * k.x * (1 - c') + k.z * s') + (k.z * k.z * (1 - c) + c) * (k.z * k.x * (1 - c') - k.y * s') + (0) * (0) = k.z * k.x * (1 - (c * c' - s * s')) - k.y * (s * c' + c * s')
    linear_combination (0 + (1 - c) * (1 - c') * k.z * k.x) * hk
  · show (k.z * k.x * (1 - c) - k.y * s) * (k.x * k.y * (1 - c') - k.z * s') + (k.z * k.y * (1 - c) + k.x * s) * (k.y * k.y * (1 - c') + c') + (k.z * k.z * (1 - c) + c) * (k.z * k.y * (1 - c') + k.x * s') + (0) * (0) = k.z * k.y * (1 - (c * c' - s * s')) + k.x * (s * c' + c * s')
    linear_combination (0 + (1 - c) * (1 - c') * k.z * k.y) * hk
  · show (k.z * k.x * (1 - c) - k.y * s) * (k.x * k.z * (1 - c') + k.y * s') + (k.z * k.y * (1 - c) + k.x * s) * (k.y * k.z * (1 - c') - k.x * s') + (k.z * k.z * (1 - c) + c) * (k.z * k.z * (1 - c') + c') + (0) * (0) = k.z * k.z * (1 - (c * c' - s * s')) + (c * c' - s * s')
    linear_combination (-(s * s') + (1 - c) * (1 - c') * k.z * k.z) * hk
  · show (k.z * k.x * (1 - c) - k.y * s) * (0) + (k.z * k.y * (1 - c) + k.x * s) * (0) + (k.z * k.z * (1 - c) + c) * (0) + (0) * (1) = 0
    ring
  · show (0) * (k.x * k.x * (1 - c') + c') + (0) * (k.y * k.x * (1 - c') + k.z * s') + (0) * (k.z * k.x * (1 - c') - k.y * s') + (1) * (0) = 0
    ring
  · show (0) * (k.x * k.y * (1 - c') - k.z * s') + (0) * (k.y * k.y * (1 - c') + c') + (0) * (k.z * k.y * (1 - c') + k.x * s') + (1) * (0) = 0
    ring
  · show (0) * (k.x * k.z * (1 - c') + k.y * s') + (0) * (k.y * k.z * (1 - c') - k.x * s') + (0) * (k.z * k.z * (1 - c') + c') + (1) * (0) = 0
    ring
  · show (0) * (0) + (0) * (0) + (0) * (0) + (1) * (1) = 1
    ring

theorem rot_zero (k : V3 ℝ) : rot 1 0 k = 1 := by
  ext i j
  fin_cases i <;> fin_cases j <;> simp [rot]

theorem rot_transpose (c s : ℝ) (k : V3 ℝ) : (rot c s k)ᵀ = rot c (-s) k := by
  ext i j
  fin_cases i <;> fin_cases j
  · show k.x * k.x * (1 - c) + c = k.x * k.x * (1 - c) + c
    ring
  · show k.y * k.x * (1 - c) + k.z * s = k.x * k.y * (1 - c) - k.z * (-s)
    ring
  · show k.z * k.x * (1 - c) - k.y * s = k.x * k.z * (1 - c) + k.y * (-s)
    ring
  · rfl
  · show k.x * k.y * (1 - c) - k.z * s = k.y * k.x * (1 - c) + k.z * (-s)
    ring
  · show k.y * k.y * (1 - c) + c = k.y * k.y * (1 - c) + c
    ring
  · show k.z * k.y * (1 - c) + k.x * s = k.y * k.z * (1 - c) - k.x * (-s)
    ring
  · rfl
  · show k.x * k.z * (1 - c) + k.y * s = k.z * k.x * (1 - c) - k.y * (-s)
    ring
  · show k.y * k.z * (1 - c) - k.x * s = k.z * k.y * (1 - c) + k.x * (-s)
    ring
  · show k.z * k.z * (1 - c) + c = k.z * k.z * (1 - c) + c
    ring
  · rfl
  · rfl
  · rfl
  · rfl
  · rfl

/-- **C83.** `CCMatrix4MakeRotation` aborts exactly on the zero axis.  Otherwise what it does to a vector is to turn it about the axis
(Rodrigues' formula, `k` being the axis made of length one); the axis stays, inner products (and so lengths and angles) are
kept, and the orientation is: it is a special orthogonal matrix.  Turning twice about the same axis adds the angles. -/
theorem C83_rotation (θ : ℝ) (a : V3 ℝ) :
    (makeRotation θ a = none ↔ E3 a = 0) ∧
    ∀ r, makeRotation θ a = some r →
      (∃ k, ‖E3 k‖ = 1 ∧ E3 a = ‖E3 a‖ • E3 k ∧ ∀ v, E3 (mulDirection r v) =
        Real.cos θ • E3 v + Real.sin θ • E3 (v3Cross k v) + ((1 - Real.cos θ) * inner ℝ (E3 k) (E3 v)) • E3 k) ∧
      (∀ v, mulPosition r v = mulDirection r v) ∧ mulDirection r a = a ∧
      (∀ u v, inner ℝ (E3 (mulDirection r u)) (E3 (mulDirection r v)) = inner ℝ (E3 u) (E3 v)) ∧
      M r ∈ Matrix.specialOrthogonalGroup (Fin 4) ℝ ∧
      ∀ φ r', makeRotation φ a = some r' → makeRotation (θ + φ) a = some (mul r r') := by
  obtain ⟨-, -, -, -, -, -, -, h4, h5⟩ := C81_three a a
  constructor
  · rw [← h4, makeRotation]
    rcases v3Normalize a with _ | k <;> simp
  · intro r hr
    obtain ⟨k, hk, hM⟩ := makeRotation_eq hr
    have hu := normalize_unit hk
    obtain ⟨hk1, hk2⟩ := h5 k hk
    have e : ∀ i j, M r i j = rot (Real.cos θ) (Real.sin θ) k i j := fun i j => by rw [hM]
    have hd : ∀ v, E3 (mulDirection r v) =
        Real.cos θ • E3 v + Real.sin θ • E3 (v3Cross k v) + ((1 - Real.cos θ) * inner ℝ (E3 k) (E3 v)) • E3 k := by
      intro v
      rw [inner3]
      ext i
      fin_cases i
      · show M r 0 0 * v.x + M r 0 1 * v.y + M r 0 2 * v.z + M r 0 3 * 0 = Real.cos θ * v.x + Real.sin θ * (k.y * v.z - k.z * v.y) +
          ((1 - Real.cos θ) * (k.x * v.x + k.y * v.y + k.z * v.z)) * k.x
        rw [e, e, e]
        show (k.x * k.x * (1 - Real.cos θ) + Real.cos θ) * v.x + (k.x * k.y * (1 - Real.cos θ) - k.z * Real.sin θ) * v.y +
          (k.x * k.z * (1 - Real.cos θ) + k.y * Real.sin θ) * v.z + _ * 0 = _
        ring
      · show M r 1 0 * v.x + M r 1 1 * v.y + M r 1 2 * v.z + M r 1 3 * 0 = Real.cos θ * v.y + Real.sin θ * (k.z * v.x - k.x * v.z) +
          ((1 - Real.cos θ) * (k.x * v.x + k.y * v.y + k.z * v.z)) * k.y
        rw [e, e, e]
        show (k.y * k.x * (1 - Real.cos θ) + k.z * Real.sin θ) * v.x + (k.y * k.y * (1 - Real.cos θ) + Real.cos θ) * v.y +
          (k.y * k.z * (1 - Real.cos θ) - k.x * Real.sin θ) * v.z + _ * 0 = _
        ring
      · show M r 2 0 * v.x + M r 2 1 * v.y + M r 2 2 * v.z + M r 2 3 * 0 = Real.cos θ * v.z + Real.sin θ * (k.x * v.y - k.y * v.x) +
          ((1 - Real.cos θ) * (k.x * v.x + k.y * v.y + k.z * v.z)) * k.z
        rw [e, e, e]
        show (k.z * k.x * (1 - Real.cos θ) - k.y * Real.sin θ) * v.x + (k.z * k.y * (1 - Real.cos θ) + k.x * Real.sin θ) * v.y +
          (k.z * k.z * (1 - Real.cos θ) + Real.cos θ) * v.z + _ * 0 = _
        ring
    have hc : ∀ i v, E3 (mulDirection r v) i = Real.cos θ * E3 v i + Real.sin θ * E3 (v3Cross k v) i +
        ((1 - Real.cos θ) * (k.x * v.x + k.y * v.y + k.z * v.z)) * E3 k i := by
      intro i v
      rw [hd v, inner3]
      rfl
    have hx : ∀ v, (mulDirection r v).x = Real.cos θ * v.x + Real.sin θ * (k.y * v.z - k.z * v.y) +
        ((1 - Real.cos θ) * (k.x * v.x + k.y * v.y + k.z * v.z)) * k.x := hc 0
    have hy : ∀ v, (mulDirection r v).y = Real.cos θ * v.y + Real.sin θ * (k.z * v.x - k.x * v.z) +
        ((1 - Real.cos θ) * (k.x * v.x + k.y * v.y + k.z * v.z)) * k.y := hc 1
    have hz : ∀ v, (mulDirection r v).z = Real.cos θ * v.z + Real.sin θ * (k.x * v.y - k.y * v.x) +
        ((1 - Real.cos θ) * (k.x * v.x + k.y * v.y + k.z * v.z)) * k.z := hc 2
    have hcs : Real.cos θ * Real.cos θ + Real.sin θ * Real.sin θ = 1 := by
      have := Real.cos_sq_add_sin_sq θ
      nlinarith [this]
    have hadd : ∀ φ r', makeRotation φ a = some r' → makeRotation (θ + φ) a = some (mul r r') := by
      intro φ r' hr'
      obtain ⟨k', hk', hM'⟩ := makeRotation_eq hr'
      obtain ⟨r'', h1, h2⟩ := makeRotation_some hk (θ + φ)
      rw [hk] at hk'
      injection hk' with hk'
      subst hk'
      rw [h1]
      congr 1
      apply M_injective
      rw [M_mul, hM, hM', h2, rot_mul _ _ _ _ _ hu, Real.cos_add, Real.sin_add]
    refine ⟨⟨k, hk1, hk2, hd⟩, ?_, ?_, ?_, ?_, hadd⟩
    · intro v
      have h03 : M r 0 3 = 0 := by rw [e]; rfl
      have h13 : M r 1 3 = 0 := by rw [e]; rfl
      have h23 : M r 2 3 = 0 := by rw [e]; rfl
      refine V3.ext ?_ ?_ ?_
      · show M r 0 0 * v.x + M r 0 1 * v.y + M r 0 2 * v.z + M r 0 3 * 1 = M r 0 0 * v.x + M r 0 1 * v.y + M r 0 2 * v.z + M r 0 3 * 0
        rw [h03]
        ring
      · show M r 1 0 * v.x + M r 1 1 * v.y + M r 1 2 * v.z + M r 1 3 * 1 = M r 1 0 * v.x + M r 1 1 * v.y + M r 1 2 * v.z + M r 1 3 * 0
        rw [h13]
        ring
      · show M r 2 0 * v.x + M r 2 1 * v.y + M r 2 2 * v.z + M r 2 3 * 1 = M r 2 0 * v.x + M r 2 1 * v.y + M r 2 2 * v.z + M r 2 3 * 0
        rw [h23]
        ring
    · have h0 : a.x = ‖E3 a‖ * k.x := congrFun (congrArg WithLp.ofLp hk2) 0
      have h1 : a.y = ‖E3 a‖ * k.y := congrFun (congrArg WithLp.ofLp hk2) 1
      have h2 : a.z = ‖E3 a‖ * k.z := congrFun (congrArg WithLp.ofLp hk2) 2
      generalize ‖E3 a‖ = t at h0 h1 h2
      refine V3.ext ?_ ?_ ?_
      · rw [hx, h0, h1, h2]
        linear_combination ((1 - Real.cos θ) * t * k.x) * hu
      · rw [hy, h0, h1, h2]
        linear_combination ((1 - Real.cos θ) * t * k.y) * hu
      · rw [hz, h0, h1, h2]
        linear_combination ((1 - Real.cos θ) * t * k.z) * hu
    · intro u v
      rw [inner3, inner3]
      show (mulDirection r u).x * (mulDirection r v).x + (mulDirection r u).y * (mulDirection r v).y + (mulDirection r u).z * (mulDirection r v).z =
        u.x * v.x + u.y * v.y + u.z * v.z
      rw [hx, hx, hy, hy, hz, hz]
      linear_combination (Real.sin θ * Real.sin θ * (u.x * v.x + u.y * v.y + u.z * v.z) + (1 - Real.cos θ) * (1 - Real.cos θ) *
        (k.x * u.x + k.y * u.y + k.z * u.z) * (k.x * v.x + k.y * v.y + k.z * v.z)) * hu +
        ((u.x * v.x + u.y * v.y + u.z * v.z) - (k.x * u.x + k.y * u.y + k.z * u.z) * (k.x * v.x + k.y * v.y + k.z * v.z)) * hcs
    · have horth : M r * (M r)ᵀ = 1 := by
        rw [hM, rot_transpose, rot_mul _ _ _ _ _ hu, ← rot_zero k]
        congr 1
        · linear_combination hcs
        · ring
      rw [Matrix.mem_specialOrthogonalGroup_iff]
      refine ⟨(Matrix.mem_orthogonalGroup_iff _ _).mpr horth, ?_⟩
      have h1 : (M r).det * (M r).det = 1 := by
        have := congrArg Matrix.det horth
        rwa [Matrix.det_mul, Matrix.det_transpose, Matrix.det_one] at this
      obtain ⟨r', h2, h3⟩ := makeRotation_some hk (θ / 2)
      have h4 : M r = M r' * M r' := by
        rw [hM, h3, rot_mul _ _ _ _ _ hu, ← Real.cos_add, ← Real.sin_add, add_halves]
      have h5 : 0 ≤ (M r).det := by
        rw [h4, Matrix.det_mul]
        exact mul_self_nonneg _
      nlinarith [h1, h5]

/-- **C83.** The rotations about the axes are those about the vectors of the axes. -/
theorem C83_rotation_axes (θ : ℝ) :
    makeRotation θ ⟨1, 0, 0⟩ = some (makeRotationX θ) ∧ makeRotation θ ⟨0, 1, 0⟩ = some (makeRotationY θ) ∧
      makeRotation θ ⟨0, 0, 1⟩ = some (makeRotationZ θ) := by
  have h1 : v3Normalize (⟨1, 0, 0⟩ : V3 ℝ) = some ⟨1, 0, 0⟩ := by
    have hl : v3Length (⟨1, 0, 0⟩ : V3 ℝ) = 1 := by
      show Real.sqrt (1 * 1 + 0 * 0 + 0 * 0) = 1
      norm_num
    rw [v3Normalize, norm_ite, hl, if_neg one_ne_zero]
    congr 1
    refine V3.ext ?_ ?_ ?_
    · show (1 : ℝ) / 1 = 1
      norm_num
    · show (0 : ℝ) / 1 = 0
      norm_num
    · show (0 : ℝ) / 1 = 0
      norm_num
  have h2 : v3Normalize (⟨0, 1, 0⟩ : V3 ℝ) = some ⟨0, 1, 0⟩ := by
    have hl : v3Length (⟨0, 1, 0⟩ : V3 ℝ) = 1 := by
      show Real.sqrt (0 * 0 + 1 * 1 + 0 * 0) = 1
      norm_num
    rw [v3Normalize, norm_ite, hl, if_neg one_ne_zero]
    congr 1
    refine V3.ext ?_ ?_ ?_
    · show (0 : ℝ) / 1 = 0
      norm_num
    · show (1 : ℝ) / 1 = 1
      norm_num
    · show (0 : ℝ) / 1 = 0
      norm_num
  have h3 : v3Normalize (⟨0, 0, 1⟩ : V3 ℝ) = some ⟨0, 0, 1⟩ := by
    have hl : v3Length (⟨0, 0, 1⟩ : V3 ℝ) = 1 := by
      show Real.sqrt (0 * 0 + 0 * 0 + 1 * 1) = 1
      norm_num
    rw [v3Normalize, norm_ite, hl, if_neg one_ne_zero]
    congr 1
    refine V3.ext ?_ ?_ ?_
    · show (0 : ℝ) / 1 = 0
      norm_num
    · show (0 : ℝ) / 1 = 0
      norm_num
    · show (1 : ℝ) / 1 = 1
      norm_num
  refine ⟨?_, ?_, ?_⟩
  · obtain ⟨r, h4, h5⟩ := makeRotation_some h1 θ
    rw [h4]
    congr 1
    apply M_injective
    rw [h5]
    ext i j
    fin_cases i <;> fin_cases j <;> simp [rot, M, makeRotationX, make] <;> rfl
  · obtain ⟨r, h4, h5⟩ := makeRotation_some h2 θ
    rw [h4]
    congr 1
    apply M_injective
    rw [h5]
    ext i j
    fin_cases i <;> fin_cases j <;> simp [rot, M, makeRotationY, make] <;> rfl
  · obtain ⟨r, h4, h5⟩ := makeRotation_some h3 θ
    rw [h4]
    congr 1
    apply M_injective
    rw [h5]
    ext i j
    fin_cases i <;> fin_cases j <;> simp [rot, M, makeRotationZ, make] <;> rfl

/-- **C83.** `CCMatrix4MakeOrtho` takes the box between the planes to the cube from -1 to 1: the point that is the parts `u`, `v` and `t` of the
way from left to right, from bottom to top and from near to far (looking along the negative third axis), to the point that is
as much of the way through the cube. -/
theorem C83_ortho (left right bottom top zNear zFar u v t : ℝ) (h1 : right ≠ left) (h2 : top ≠ bottom) (h3 : zFar ≠ zNear) :
    mulPosition (makeOrtho left right bottom top zNear zFar)
      ⟨left + u * (right - left), bottom + v * (top - bottom), -(zNear + t * (zFar - zNear))⟩ = ⟨2 * u - 1, 2 * v - 1, 2 * t - 1⟩ := by
  have e1 : right - left ≠ 0 := sub_ne_zero.mpr h1
  have e2 : top - bottom ≠ 0 := sub_ne_zero.mpr h2
  have e3 : zFar - zNear ≠ 0 := sub_ne_zero.mpr h3
  refine V3.ext ?_ ?_ ?_
  · show 2 / (right - left) * (left + u * (right - left)) + 0 * (bottom + v * (top - bottom)) + 0 * -(zNear + t * (zFar - zNear)) +
      -((right + left) / (right - left)) * 1 = 2 * u - 1
    field_simp
    ring
  · show 0 * (left + u * (right - left)) + 2 / (top - bottom) * (bottom + v * (top - bottom)) + 0 * -(zNear + t * (zFar - zNear)) +
      -((top + bottom) / (top - bottom)) * 1 = 2 * v - 1
    field_simp
    ring
  · show 0 * (left + u * (right - left)) + 0 * (bottom + v * (top - bottom)) + (-2) / (zFar - zNear) * -(zNear + t * (zFar - zNear)) +
      -((zFar + zNear) / (zFar - zNear)) * 1 = 2 * t - 1
    field_simp
    ring

/-- **C83.** `CCMatrix4MakeFrustum` with `CCMatrix4MulProjectVector3D` takes the frustum to the cube: the point at distance `d` that is on the
line from the eye through the point of the near plane that is the parts `u` and `v` of the way from left to right and from bottom to
top, goes to `2u - 1` and `2v - 1` whatever `d`; and `d` goes from -1 at the near plane to 1 at the far plane, growing. -/
theorem C83_frustum (left right bottom top zNear zFar u v d : ℝ) (h1 : right ≠ left) (h2 : top ≠ bottom) (hn : 0 < zNear) (h3 : zNear < zFar)
    (hd : 0 < d) :
    ∃ depth : ℝ → ℝ, depth zNear = -1 ∧ depth zFar = 1 ∧ (∀ x y, 0 < x → x < y → depth x < depth y) ∧
      mulProject (makeFrustum left right bottom top zNear zFar)
        ⟨(left + u * (right - left)) * (d / zNear), (bottom + v * (top - bottom)) * (d / zNear), -d⟩ = ⟨2 * u - 1, 2 * v - 1, depth d⟩ := by
  have e1 : right - left ≠ 0 := sub_ne_zero.mpr h1
  have e2 : top - bottom ≠ 0 := sub_ne_zero.mpr h2
  have e3 : zFar - zNear ≠ 0 := sub_ne_zero.mpr (ne_of_gt h3)
  have e4 : zNear ≠ 0 := ne_of_gt hn
  have e5 : d ≠ 0 := ne_of_gt hd
  have e6 : zFar ≠ 0 := ne_of_gt (hn.trans h3)
  refine ⟨fun x => (zFar + zNear - 2 * zFar * zNear / x) / (zFar - zNear), ?_, ?_, ?_, ?_⟩
  · dsimp only
    field_simp
    ring
  · dsimp only
    field_simp
    ring
  · intro x y hx hxy
    dsimp only
    have hy := hx.trans hxy
    have hfn : 0 < 2 * zFar * zNear := by
      have := hn.trans h3
      positivity
    have h4 : 2 * zFar * zNear / y < 2 * zFar * zNear / x := div_lt_div_of_pos_left hfn hx hxy
    have h5 : 0 < zFar - zNear := sub_pos.mpr h3
    exact div_lt_div_of_pos_right (by linarith) h5
  · refine V3.ext ?_ ?_ ?_
    · show ((2 * zNear) / (right - left) * ((left + u * (right - left)) * (d / zNear)) + 0 * ((bottom + v * (top - bottom)) * (d / zNear)) +
        (right + left) / (right - left) * -d + 0 * 1) *
        (1 / (0 * ((left + u * (right - left)) * (d / zNear)) + 0 * ((bottom + v * (top - bottom)) * (d / zNear)) + -1 * -d + 0 * 1)) = 2 * u - 1
      rw [show (0 * ((left + u * (right - left)) * (d / zNear)) + 0 * ((bottom + v * (top - bottom)) * (d / zNear)) + -1 * -d + 0 * 1) = d by ring]
      field_simp
      ring
    · show (0 * ((left + u * (right - left)) * (d / zNear)) + (2 * zNear) / (top - bottom) * ((bottom + v * (top - bottom)) * (d / zNear)) +
        (top + bottom) / (top - bottom) * -d + 0 * 1) *
        (1 / (0 * ((left + u * (right - left)) * (d / zNear)) + 0 * ((bottom + v * (top - bottom)) * (d / zNear)) + -1 * -d + 0 * 1)) = 2 * v - 1
      rw [show (0 * ((left + u * (right - left)) * (d / zNear)) + 0 * ((bottom + v * (top - bottom)) * (d / zNear)) + -1 * -d + 0 * 1) = d by ring]
      field_simp
      ring
    · show (0 * ((left + u * (right - left)) * (d / zNear)) + 0 * ((bottom + v * (top - bottom)) * (d / zNear)) +
        -((zFar + zNear) / (zFar - zNear)) * -d + -((2 * zFar * zNear) / (zFar - zNear)) * 1) *
        (1 / (0 * ((left + u * (right - left)) * (d / zNear)) + 0 * ((bottom + v * (top - bottom)) * (d / zNear)) + -1 * -d + 0 * 1)) =
        (zFar + zNear - 2 * zFar * zNear / d) / (zFar - zNear)
      rw [show (0 * ((left + u * (right - left)) * (d / zNear)) + 0 * ((bottom + v * (top - bottom)) * (d / zNear)) + -1 * -d + 0 * 1) = d by ring]
      field_simp
      ring

/-- **C83.** `CCMatrix4MakePerspective` is the frustum that is symmetric, whose top edge is seen at half of `fovy`, and whose width is
`aspect` times its height. -/
theorem C83_perspective (fovy aspect zNear zFar : ℝ) (ht : Real.tan (fovy / 2) ≠ 0) (ha : aspect ≠ 0) (hn : zNear ≠ 0) (h : zNear ≠ zFar) :
    makePerspective fovy aspect zNear zFar =
      makeFrustum (-(zNear * Real.tan (fovy / 2) * aspect)) (zNear * Real.tan (fovy / 2) * aspect) (-(zNear * Real.tan (fovy / 2)))
        (zNear * Real.tan (fovy / 2)) zNear zFar := by
  have e1 : zFar - zNear ≠ 0 := sub_ne_zero.mpr h.symm
  have e2 : zNear - zFar ≠ 0 := sub_ne_zero.mpr h
  refine Mat.ext ?_ ?_ ?_ ?_
  · refine V4.ext ?_ rfl rfl rfl
    show (1 / Real.tan (fovy / 2)) / aspect =
      (2 * zNear) / (zNear * Real.tan (fovy / 2) * aspect - -(zNear * Real.tan (fovy / 2) * aspect))
    generalize Real.tan (fovy / 2) = T at ht ⊢
    field_simp
    ring
  · refine V4.ext rfl ?_ rfl rfl
    show 1 / Real.tan (fovy / 2) = (2 * zNear) / (zNear * Real.tan (fovy / 2) - -(zNear * Real.tan (fovy / 2)))
    generalize Real.tan (fovy / 2) = T at ht ⊢
    field_simp
    ring
  · refine V4.ext ?_ ?_ ?_ rfl
    · show (0 : ℝ) = (zNear * Real.tan (fovy / 2) * aspect + -(zNear * Real.tan (fovy / 2) * aspect)) /
        (zNear * Real.tan (fovy / 2) * aspect - -(zNear * Real.tan (fovy / 2) * aspect))
      rw [add_neg_cancel, zero_div]
    · show (0 : ℝ) = (zNear * Real.tan (fovy / 2) + -(zNear * Real.tan (fovy / 2))) / (zNear * Real.tan (fovy / 2) - -(zNear * Real.tan (fovy / 2)))
      rw [add_neg_cancel, zero_div]
    · show (zFar + zNear) / (zNear - zFar) = -((zFar + zNear) / (zFar - zNear))
      rw [← neg_sub zFar zNear, div_neg]
  · refine V4.ext rfl rfl ?_ rfl
    show (2 * zFar * zNear) / (zNear - zFar) = -((2 * zFar * zNear) / (zFar - zNear))
    rw [← neg_sub zFar zNear, div_neg]

/-- **C83.** `CCMatrix4Translate` and the others do to a vector first what they are named for, then what the matrix did. -/
theorem C83_applied (m : Mat ℝ) (a : V3 ℝ) (θ l r b t n f g : ℝ) (v : V4 ℝ) :
    mulVector4 (translate m a) v = mulVector4 m (mulVector4 (makeTranslation a) v) ∧
      mulVector4 (scale m a) v = mulVector4 m (mulVector4 (makeScale a) v) ∧
      mulVector4 (rotateX m θ) v = mulVector4 m (mulVector4 (makeRotationX θ) v) ∧
      mulVector4 (rotateY m θ) v = mulVector4 m (mulVector4 (makeRotationY θ) v) ∧
      mulVector4 (rotateZ m θ) v = mulVector4 m (mulVector4 (makeRotationZ θ) v) ∧
      (∀ q, makeRotation θ a = some q → ∃ w, rotate m θ a = some w ∧ mulVector4 w v = mulVector4 m (mulVector4 q v)) ∧
      mulVector4 (ortho m l r b t n f) v = mulVector4 m (mulVector4 (makeOrtho l r b t n f) v) ∧
      mulVector4 (frustum m l r b t n f) v = mulVector4 m (mulVector4 (makeFrustum l r b t n f) v) ∧
      mulVector4 (perspective m θ g n f) v = mulVector4 m (mulVector4 (makePerspective θ g n f) v) := by
  have h := fun x => (C83_compose m x identity v ⟨0, 0, 0⟩).1
  refine ⟨h _, h _, h _, h _, h _, ?_, h _, h _, h _⟩
  intro q hq
  refine ⟨mul m q, ?_, h q⟩
  rw [rotate, hq]

/-! The hypotheses can be met. -/

example : ∃ r, makeRotation (Real.pi / 2) (⟨1, 0, 0⟩ : V3 ℝ) = some r := ⟨_, (C83_rotation_axes _).1⟩

example (v : V3 ℝ) : (makeTranslation v).x.w = 0 ∧ (makeTranslation v).y.w = 0 ∧ (makeTranslation v).z.w = 0 ∧ (makeTranslation v).w.w = 1 := ⟨rfl, rfl, rfl, rfl⟩

example : Real.tan ((Real.pi / 2) / 2) ≠ 0 := by
  rw [show Real.pi / 2 / 2 = Real.pi / 4 by ring, Real.tan_pi_div_four]
  exact one_ne_zero

#print axioms C83_product
#print axioms C83_compose
#print axioms C83_translation_scale
#print axioms C83_rotation
#print axioms C83_rotation_axes
#print axioms C83_ortho
#print axioms C83_frustum
#print axioms C83_perspective
#print axioms C83_applied

end Verif.Mat4
