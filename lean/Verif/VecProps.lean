import Verif.VecSpec

/-!
# C80: every way of computing a vector operation computes the same
-/
namespace Verif.Vec

open Verif.VecSpec

variable {F : Type} [Arith F]

/-- **C80.** Whatever instructions are used, what works component by component works on the components: the vectorised
functions of two on the lower two lanes, and `CCVector2Add`, `CCVector2Sub`, `CCVector2Mul` and `CCVector2Div` themselves.
`f` is the operation: adding, subtracting, multiplying, dividing, the lesser, the greater, a comparison. -/
theorem C80_two_componentwise (l : Level) (f : F → F → F) (a b : V4 F) (p q : V2 F) (s : F) :
    lower (z2Lane l f a b) = ⟨f a.x b.x, f a.y b.y⟩ ∧ lower (z2Scalar l f a s) = ⟨f a.x s, f a.y s⟩ ∧
      v2Add l p q = ⟨p.x + q.x, p.y + q.y⟩ ∧ v2Sub l p q = ⟨p.x - q.x, p.y - q.y⟩ ∧ v2Lane l f p q = ⟨f p.x q.x, f p.y q.y⟩ ∧
      lower (z2Neg l a) = ⟨-a.x, -a.y⟩ ∧ lower (z2Abs l a) = ⟨Arith.abs a.x, Arith.abs a.y⟩ ∧
      lower (z2Perp l a) = ⟨-a.y, a.x⟩ ∧ lower (z2PerpR l a) = ⟨a.y, -a.x⟩ := by
  cases l <;> simp [z2Lane, z2Scalar, v2Add, v2Sub, v2Lane, z2Neg, z2Abs, z2Perp, z2PerpR, Level.hasSse, Level.hasSse3, lanes, lower, set1,
    get2, hadd, hsub, withZero, shuffle, V4.lane]

/-- What the products, lengths, distances and cosines of vectorised vectors of two should be. -/
def TwoProducts (l : Level) (a b : V4 F) : Prop :=
  lower (z2Dot l a b) = ⟨dot2 (lower a) (lower b), dot2 (lower a) (lower b)⟩ ∧
    (z2ScalarDot l a b).x = dot2 (lower a) (lower b) ∧
    lower (z2Length l a) = ⟨len2 (lower a), len2 (lower a)⟩ ∧
    (z2ScalarLength l a).x = len2 (lower a) ∧
    lower (z2Angle l a b) = ⟨cos2 (lower a) (lower b), cos2 (lower a) (lower b)⟩ ∧
    (z2ScalarAngle l a b).x = cos2 (lower a) (lower b) ∧
    (z2Distance l a b).x = len2 (sub2 (lower a) (lower b)) ∧ (z2ScalarDistance l a b).x = len2 (sub2 (lower a) (lower b)) ∧
    (z2DistanceSquare l a b).x = dot2 (sub2 (lower a) (lower b)) (sub2 (lower a) (lower b)) ∧
    (z2ScalarDistanceSquare l a b).x = dot2 (sub2 (lower a) (lower b)) (sub2 (lower a) (lower b)) ∧
    lower (z2Project l a b) = proj2 (lower a) (lower b) ∧
    lower (z2Reject l a b) = sub2 (lower a) (proj2 (lower a) (lower b))

/-- **C80.** The products, lengths, distances and cosines of vectorised vectors of two are what the formulas say, whatever
instructions are used: to the bit without SSE 4.1, given that adding commutes; with SSE 4.1 given also that adding zero
changes nothing. -/
theorem C80_two_products (hc : Comm F) (l : Level) (hl : l = .sse41 → AddZero F) (a b : V4 F) : TwoProducts l a b := by
  have h1 := hc (a.y * b.y) (a.x * b.x)
  have h2 := hc (a.y * a.y) (a.x * a.x)
  have h3 := hc (b.y * b.y) (b.x * b.x)
  have h4 := hc ((a.y - b.y) * (a.y - b.y)) ((a.x - b.x) * (a.x - b.x))
  cases l
  case sse41 =>
    have hz : ∀ x : F, x + Arith.zero = x := hl rfl
    simp [TwoProducts, z2Lane, Level.hasSse, Level.hasSse41, lanes, lower,
      dp, Nat.testBit, hz, z2Dot, z2ScalarDot, z2Length, z2ScalarLength, z2Angle, z2ScalarAngle, z2Distance,
      z2ScalarDistance, z2DistanceSquare, z2ScalarDistanceSquare, z2Project, z2Reject, dot2, len2, cos2, sub2, proj2, sqrtPs, sqrtSs, divSs, mulSs]
  all_goals simp [TwoProducts, z2Lane, Level.hasSse, Level.hasSse3, Level.hasSse41, lanes, lower,
    hadd, unpacklo, shuffle, V4.lane, z2Dot, z2ScalarDot, z2Length, z2ScalarLength, z2Angle, z2ScalarAngle, z2Distance,
    z2ScalarDistance, z2DistanceSquare, z2ScalarDistanceSquare, z2Project, z2Reject, dot2, len2, cos2, sub2, proj2, sqrtPs, sqrtSs, divSs, mulSs, h1, h2, h3, h4]

/-- **C80.** The cross product and the interpolation of vectorised vectors of two are what the formulas say, to the bit. -/
theorem C80_two_cross (l : Level) (a b : V4 F) (t : F) :
    lower (z2Cross l a b) = ⟨cross2 (lower a) (lower b), cross2 (lower a) (lower b)⟩ ∧ (z2ScalarCross l a b).x = cross2 (lower a) (lower b) ∧
      lower (z2Lerp l a b t) = lerp2 (lower a) (lower b) t := by
  cases l <;> simp [z2Lane, z2Scalar, Level.hasSse, Level.hasSse3, lanes, lower, set1,
    hsub, unpacklo, shuffle, V4.lane, z2Cross, z2ScalarCross, z2Lerp, cross2, lerp2]

/-- **C80.** The functions on `CCVector2D` are the formulas at every level: those with a sum of products given that adding zero
changes nothing (with SSE 4.1 only), the others to the bit. -/
theorem C80_two (l : Level) (hl : l = .sse41 → AddZero F) (a b : V2 F) (t : F) :
    v2Dot l a b = dot2 a b ∧ v2Length l a = len2 a ∧ v2Distance l a b = len2 (sub2 a b) ∧
      v2DistanceSquare l a b = dot2 (sub2 a b) (sub2 a b) ∧ v2Angle l a b = cos2 a b ∧ v2Cross l a b = cross2 a b ∧
      v2Lerp l a b t = lerp2 a b t ∧ v2Project l a b = proj2 a b ∧ v2Reject l a b = sub2 a (proj2 a b) := by
  cases l
  case sse41 =>
    have hz : ∀ x : F, x + Arith.zero = x := hl rfl
    simp [z2Lane, z2Scalar, set1, Level.hasSse, Level.hasSse3, Level.hasSse41, lanes, withZero, get2, v2Dot, v2Length, v2Distance,
      v2DistanceSquare, v2Angle, v2Cross, v2Lerp, v2Project, v2Reject, v2Sub, v2Scalar, hsub, shuffle, V4.lane, z2ScalarCross, cross2, lerp2,
      dp, Nat.testBit, hz, z2ScalarDot, z2ScalarLength, z2ScalarAngle,
      z2ScalarDistance, z2ScalarDistanceSquare, dot2, len2, cos2, sub2, proj2, sqrtSs, divSs, mulSs]
  all_goals simp [z2Lane, z2Scalar, set1, Level.hasSse, Level.hasSse3, Level.hasSse41, lanes, withZero, get2, v2Dot, v2Length, v2Distance,
      v2DistanceSquare, v2Angle, v2Cross, v2Lerp, v2Project, v2Reject, v2Add, v2Sub, v2Scalar, hadd, hsub, shuffle, V4.lane, z2ScalarCross, cross2, lerp2,
      z2Dot, z2ScalarDot, z2ScalarLength, z2ScalarAngle,
      z2ScalarDistance, z2ScalarDistanceSquare, dot2, len2, cos2, sub2, proj2, sqrtSs, divSs, mulSs]

/-- What the functions on two packed vectors of two should be, for one of the halves. -/
def Packed (half : V4 F → V2 F) (l : Level) (a b : V4 F) : Prop :=
  half (p2Dot l a b) = ⟨dot2 (half a) (half b), dot2 (half a) (half b)⟩ ∧
    (half (p2ScalarDot l a b)).x = dot2 (half a) (half b) ∧
    half (p2Length l a) = ⟨len2 (half a), len2 (half a)⟩ ∧
    half (p2Angle l a b) = ⟨cos2 (half a) (half b), cos2 (half a) (half b)⟩ ∧
    half (p2Cross l a b) = ⟨cross2 (half a) (half b), cross2 (half a) (half b)⟩ ∧
    half (p2Project l a b) = proj2 (half a) (half b) ∧
    half (p2Perp l a) = ⟨-(half a).y, (half a).x⟩ ∧ half (p2PerpR l a) = ⟨(half a).y, -(half a).x⟩

/-- **C80.** The functions on two packed vectors of two work on the two halves separately, and on each as the formulas say. -/
theorem C80_packed (hc : Comm F) (l : Level) (hl : l = .sse41 → AddZero F) (a b : V4 F) : Packed lower l a b ∧ Packed upper l a b := by
  have h1 := hc (a.y * b.y) (a.x * b.x)
  have h2 := hc (a.y * a.y) (a.x * a.x)
  have h3 := hc (b.y * b.y) (b.x * b.x)
  have h4 := hc (a.w * b.w) (a.z * b.z)
  have h5 := hc (a.w * a.w) (a.z * a.z)
  have h6 := hc (b.w * b.w) (b.z * b.z)
  cases l
  case sse41 =>
    have hz : ∀ x : F, x + Arith.zero = x := hl rfl
    have hz' : ∀ x : F, Arith.zero + x = x := fun x => (hc _ _).trans (hz x)
    simp [Packed, Level.hasSse, Level.hasSse3, Level.hasSse41, lanes, lower, upper, orLanes, hsub, unpacklo, shuffle, V4.lane,
      dp, Nat.testBit, hz, hz', p2Dot, p2ScalarDot, p2Length, p2Angle, p2Cross, p2Project, p2Perp, p2PerpR, dot2, len2, cos2, cross2, proj2, sqrtPs]
  all_goals simp [Packed, Level.hasSse, Level.hasSse3, Level.hasSse41, lanes, lower, upper, hadd, hsub, unpacklo, shuffle, V4.lane,
      p2Dot, p2ScalarDot, p2Length, p2Angle, p2Cross, p2Project, p2Perp, p2PerpR, dot2, len2, cos2, cross2, proj2, sqrtPs, h1, h2, h3, h4, h5, h6]

/-- **C80.** The cross product of vectorised vectors of three or four is the formula, to the bit. -/
theorem C80_three_cross (l : Level) (a b : V4 F) : first3 (z3Cross l a b) = cross3 (first3 a) (first3 b) := by
  cases l <;> simp [z3Cross, Level.hasSse, first3, cross3, shuffle, V4.lane, lanes]

theorem z3Dot_lanes (hc : Comm F) (hz : AddZero F) (ha : Assoc F) (l : Level) (a b : V4 F) :
    (z3Dot l a b).x = dot3 (first3 a) (first3 b) ∧ (z3Dot l a b).y = dot3 (first3 a) (first3 b) ∧ (z3Dot l a b).z = dot3 (first3 a) (first3 b) := by
  have hz : ∀ x : F, x + Arith.zero = x := hz
  have h1 : a.y * b.y + (a.x * b.x + a.z * b.z) = a.x * b.x + a.y * b.y + a.z * b.z := by rw [← ha, hc (a.y * b.y)]
  have h2 : a.z * b.z + (a.y * b.y + a.x * b.x) = a.x * b.x + a.y * b.y + a.z * b.z := by rw [hc, hc (a.y * b.y)]
  have h3 : a.x * b.x + (a.z * b.z + a.y * b.y) = a.x * b.x + a.y * b.y + a.z * b.z := by rw [hc (a.z * b.z), ← ha]
  cases l <;> simp [z3Dot, Level.hasSse, Level.hasSse41, first3, dot3, shuffle, V4.lane, lanes, dp, Nat.testBit, set1, hz, h1, h2, h3]

theorem z4Dot_lanes (hc : Comm F) (ha : Assoc F) (l : Level) (a b : V4 F) : z4Dot l a b = set1 (dot4 a b) := by
  have h0 : a.x * b.x + a.y * b.y + (a.z * b.z + a.w * b.w) = a.x * b.x + a.y * b.y + a.z * b.z + a.w * b.w := (ha _ _ _).symm
  have h1 : a.y * b.y + a.z * b.z + (a.x * b.x + a.w * b.w) = a.x * b.x + a.y * b.y + a.z * b.z + a.w * b.w := by
    rw [← ha, hc _ (a.x * b.x), ← ha]
  have h2 : a.z * b.z + a.w * b.w + (a.y * b.y + a.x * b.x) = a.x * b.x + a.y * b.y + a.z * b.z + a.w * b.w := by
    rw [hc _ (a.y * b.y + a.x * b.x), hc (a.y * b.y) (a.x * b.x), ← ha]
  have h3 : a.w * b.w + a.x * b.x + (a.z * b.z + a.y * b.y) = a.x * b.x + a.y * b.y + a.z * b.z + a.w * b.w := by
    rw [hc (a.w * b.w), hc (a.z * b.z), hc, ← ha, hc (a.y * b.y + a.z * b.z) (a.x * b.x), ← ha]
  have h4 : a.x * b.x + a.y * b.y + (a.w * b.w + a.z * b.z) = a.x * b.x + a.y * b.y + a.z * b.z + a.w * b.w := by
    rw [hc (a.w * b.w), ← ha]
  cases l <;> simp [z4Dot, Level.hasSse, Level.hasSse41, dot4, shuffle, V4.lane, lanes, dp, Nat.testBit, set1, h0, h1, h2, h3, h4]

/-- **C80.** The products, lengths, cosines and projections of vectorised vectors of three are the formulas at every level,
*where sums may be regrouped*: every one of the first three lanes. -/
theorem C80_three_products_partial (hc : Comm F) (hz : AddZero F) (ha : Assoc F) (l : Level) (a b : V4 F) :
    first3 (z3Dot l a b) = ⟨dot3 (first3 a) (first3 b), dot3 (first3 a) (first3 b), dot3 (first3 a) (first3 b)⟩ ∧
      first3 (z3Length l a) = ⟨len3 (first3 a), len3 (first3 a), len3 (first3 a)⟩ ∧
      first3 (z3Angle l a b) = ⟨cos3 (first3 a) (first3 b), cos3 (first3 a) (first3 b), cos3 (first3 a) (first3 b)⟩ ∧
      first3 (z3Project l a b) = proj3 (first3 a) (first3 b) := by
  have hd := z3Dot_lanes hc hz ha l
  have h0 : ∀ a b : V4 F, first3 (z3Dot l a b) = ⟨dot3 (first3 a) (first3 b), dot3 (first3 a) (first3 b), dot3 (first3 a) (first3 b)⟩ := by
    intro a b
    simp [first3, hd]
  have hlen : ∀ a : V4 F, (z3Length l a).x = len3 (first3 a) ∧ (z3Length l a).y = len3 (first3 a) ∧ (z3Length l a).z = len3 (first3 a) := by
    intro a
    cases h : l.hasSse <;> simp [z3Length, h, set1, sqrtPs, hd, len3]
  refine ⟨h0 a b, ?_, ?_, ?_⟩
  · simp only [first3, hlen]
  · simp only [first3, z3Angle, lanes, hd, hlen, cos3]
  · simp only [first3, z3Project, lanes, hd, proj3]

/-- **C80.** The same of vectors of four. -/
theorem C80_four_products_partial (hc : Comm F) (ha : Assoc F) (l : Level) (a b : V4 F) :
    z4Dot l a b = set1 (dot4 a b) ∧ z4Length l a = set1 (len4 a) ∧ z4Project l a b = lanes (· * ·) b (set1 (dot4 a b / dot4 b b)) := by
  have hd := z4Dot_lanes hc ha l
  refine ⟨hd a b, ?_, ?_⟩
  · cases h : l.hasSse <;> simp [z4Length, h, hd, set1, sqrtPs, len4]
  · simp only [z4Project, hd, lanes, set1]

/-! ## Arithmetic that rounds -/

/-- Round an integer to 24 significant bits, to the nearest, ties to even: this is what `float` does with the integers below `2 ^ 128`. -/
def round24 (n : Int) : Int :=
  let m := n.natAbs
  let e := m.log2 + 1 - 24
  let q := m / 2 ^ e
  let r := m % 2 ^ e
  let q := if 2 * r < 2 ^ e then q else if 2 * r > 2 ^ e then q + 1 else q + q % 2
  if n < 0 then -((q * 2 ^ e : Nat) : Int) else ((q * 2 ^ e : Nat) : Int)

/-- The integers among the `float`s.  Adding, subtracting, multiplying and comparing are those of `float`; dividing and taking roots
(which do not stay within the integers) are not used below. -/
structure Flt where
  val : Int
  deriving DecidableEq, Repr

instance : Arith Flt where
  add a b := ⟨round24 (a.val + b.val)⟩
  sub a b := ⟨round24 (a.val - b.val)⟩
  mul a b := ⟨round24 (a.val * b.val)⟩
  div a b := ⟨round24 (a.val / b.val)⟩
  neg a := ⟨-a.val⟩
  zero := ⟨0⟩
  one := ⟨1⟩
  abs a := ⟨a.val.natAbs⟩
  sqrt a := a
  lt a b := decide (a.val < b.val)
  le a b := decide (a.val ≤ b.val)
  eq a b := decide (a.val = b.val)
  tiny := ⟨1⟩

/-- **C80, refuted for vectors of three.** Where sums round, the three lanes of `CCVectorize3Dot` may differ from one another, and from
`CCVector3Dot`: the lanes are summed in different orders.  Adding still commutes and adding zero changes nothing (here for the
numbers that are met). -/
theorem C80_three_products_refuted :
    let a : V3 Flt := ⟨⟨1⟩, ⟨2 ^ 24⟩, ⟨1⟩⟩
    let b : V3 Flt := ⟨⟨1⟩, ⟨1⟩, ⟨1⟩⟩
    Comm Flt ∧ v3Dot a b = ⟨2 ^ 24⟩ ∧
      first3 (z3Dot .plain (vectorize3 a) (vectorize3 b)) = ⟨⟨2 ^ 24⟩, ⟨2 ^ 24⟩, ⟨2 ^ 24⟩⟩ ∧
      first3 (z3Dot .sse2 (vectorize3 a) (vectorize3 b)) = ⟨⟨2 ^ 24 + 2⟩, ⟨2 ^ 24⟩, ⟨2 ^ 24⟩⟩ := by
  refine ⟨fun x y => ?_, by decide +kernel, by decide +kernel, by decide +kernel⟩
  show Flt.mk (round24 (x.val + y.val)) = ⟨round24 (y.val + x.val)⟩
  rw [Int.add_comm]

/-- **C80, refuted for vectors of four.** Likewise, and with SSE 4.1 the sum is still another one. -/
theorem C80_four_products_refuted :
    let a : V4 Flt := ⟨⟨2 ^ 24⟩, ⟨1⟩, ⟨1⟩, ⟨1⟩⟩
    let b : V4 Flt := ⟨⟨1⟩, ⟨1⟩, ⟨1⟩, ⟨1⟩⟩
    v4Dot a b = ⟨2 ^ 24⟩ ∧ z4Dot .sse41 a b = set1 ⟨2 ^ 24 + 2⟩ ∧
      z4Dot .sse2 a b = ⟨⟨2 ^ 24 + 2⟩, ⟨2 ^ 24 + 2⟩, ⟨2 ^ 24 + 2⟩, ⟨2 ^ 24 + 2⟩⟩ := by
  decide +kernel

/-! ## Normalising -/

/-- **C80, refuted for normalising.** `CCVectorize2Normalize` wants the length of the upper half to be other than zero.  But without SSE, and
with SSE 4.1, that length is zero whatever the vector: it aborts on *every* vector.  And at every level it aborts on every vector made by
`CCVectorizeVector2DWithZero`.  (Given `0 * 0 = 0`, `0 + 0 = 0`, `sqrtf(0) = 0`.) -/
theorem C80_two_normalize_refuted (hq : Arith.eq (Arith.sqrt (Arith.zero : F)) Arith.zero = true) (h0 : Arith.eq (Arith.zero : F) Arith.zero = true)
    (hm : (Arith.zero : F) * Arith.zero = Arith.zero) (hp : (Arith.zero : F) + Arith.zero = Arith.zero) :
    (∀ a : V4 F, z2Normalize .plain a = none ∧ z2Normalize .sse41 a = none) ∧
      ∀ l (a : V2 F), z2Normalize l (withZero a) = none := by
  constructor
  · intro a
    simp [z2Normalize, z2Length, z2Dot, Level.hasSse, Level.hasSse41, dp, Nat.testBit, high2, sqrtPs, hq, h0]
  · intro l a
    cases l <;> simp [z2Normalize, z2Length, z2Dot, z2Lane, Level.hasSse, Level.hasSse3, Level.hasSse41, dp, Nat.testBit, high2, sqrtPs, hq, h0, withZero, lanes,
      hadd, unpacklo, shuffle, V4.lane, hm, hp]

/-- **C80.** What is not refuted: at the other levels, `CCVectorize2Normalize` of a vector held twice (`CCVectorizeVector2D`), and
`CCVectorize2PackedNormalize` at every level, divide each half by its length, and abort exactly if one of the lengths is zero. -/
theorem C80_normalize_partial (hc : Comm F) (l : Level) (hl : l = .sse41 → AddZero F) (a : V4 F) :
    (p2Normalize l a = if Arith.eq (len2 (lower a)) Arith.zero ∨ Arith.eq (len2 (upper a)) Arith.zero then none
      else some ⟨a.x / len2 (lower a), a.y / len2 (lower a), a.z / len2 (upper a), a.w / len2 (upper a)⟩) ∧
    (l ≠ .plain → l ≠ .sse41 → ∀ v : V2 F, z2Normalize l (vectorize2 v) =
      if Arith.eq (len2 v) Arith.zero then none else some (vectorize2 ⟨v.x / len2 v, v.y / len2 v⟩)) := by
  obtain ⟨⟨-, -, h1, -⟩, ⟨-, -, h2, -⟩⟩ := C80_packed hc l hl a a
  constructor
  · have hx : (p2Length l a).x = len2 (lower a) := congrArg V2.x h1
    have hy : (p2Length l a).y = len2 (lower a) := congrArg V2.y h1
    have hz : (p2Length l a).z = len2 (upper a) := congrArg V2.x h2
    have hw : (p2Length l a).w = len2 (upper a) := congrArg V2.y h2
    simp only [p2Normalize, get2, high2, lanes, hx, hy, hz, hw]
    cases Arith.eq (len2 (lower a)) Arith.zero <;> cases Arith.eq (len2 (upper a)) Arith.zero <;> simp
  · intro hp h41 v
    have h := hc (v.y * v.y) (v.x * v.x)
    cases l <;> first | contradiction | (
      simp [z2Normalize, z2Length, z2Dot, z2Lane, Level.hasSse, Level.hasSse3, Level.hasSse41, high2, get2, sqrtPs, vectorize2, pack, lanes,
        hadd, unpacklo, shuffle, V4.lane, len2, dot2, h]
      rcases Bool.eq_false_or_eq_true (Arith.eq (Arith.sqrt (v.x * v.x + v.y * v.y)) Arith.zero) with h' | h' <;> simp [h'])

/-! The hypotheses can be met: here with integers, whose sums are exact. -/

instance : Arith Int where
  zero := 0
  one := 1
  abs a := a.natAbs
  sqrt a := a
  lt a b := decide (a < b)
  le a b := decide (a ≤ b)
  eq a b := decide (a = b)
  tiny := 1

example : Comm Int ∧ AddZero Int ∧ Assoc Int := ⟨Int.add_comm, Int.add_zero, Int.add_assoc⟩

example : z2Normalize .sse3 (withZero ⟨3, (4 : Int)⟩) = none := (C80_two_normalize_refuted (F := Int) rfl rfl rfl rfl).2 .sse3 ⟨3, 4⟩

example : z2Dot .sse3 (pack ⟨3, 4⟩ ⟨5, (6 : Int)⟩) (pack ⟨1, 2⟩ ⟨3, 4⟩) = ⟨11, 11, 39, 39⟩ := by decide +kernel

example : z3Cross .sse2 (vectorize3 ⟨1, 0, 0⟩) (vectorize3 ⟨0, 1, (0 : Int)⟩) = vectorize3 ⟨0, 0, 1⟩ := by decide +kernel

example : (p2Normalize .sse41 (pack ⟨3, 4⟩ ⟨5, (6 : Int)⟩)).isSome ∧ z2Normalize .sse41 (pack ⟨3, 4⟩ ⟨5, (6 : Int)⟩) = none := by decide +kernel

#print axioms C80_two_componentwise
#print axioms C80_two_products
#print axioms C80_two_cross
#print axioms C80_two
#print axioms C80_packed
#print axioms C80_three_cross
#print axioms C80_three_products_partial
#print axioms C80_four_products_partial
#print axioms C80_three_products_refuted
#print axioms C80_four_products_refuted
#print axioms C80_two_normalize_refuted
#print axioms C80_normalize_partial

end Verif.Vec
