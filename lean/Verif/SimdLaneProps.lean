import Verif.SimdLaneCount

/-!
# C94: the integer operations on lanes
-/
namespace Verif.SimdLane
open Spec

/-! ## Rotating -/

/-- **C94, rotating, when it is right.**  On every lane of 8, 16, 32 or 64 bits and for every number
of bits, rotating left and right, by a lane and by a constant, gives the rotated lane exactly when the
lane type is unsigned, or the lane is not negative, or nothing is rotated, or the bits that end up
above (below) the seam are all ones already.  Rotating by a constant never runs into the unreachable
case of the shifts. -/
theorem C94_rotate_exact (sg : Bool) {w : Nat} (hw : Width w) (a b : BitVec w) (n : BitVec 8) :
    (IsRotl a b.toNat (rotateLeft sg a b) ↔
      (sg = false ∨ a.msb = false ∨ b.toNat % w = 0 ∨ ∀ i < w - b.toNat % w, bit a i)) ∧
    (∃ r, rotateLeftN sg a n = some r ∧ (IsRotl a n.toNat r ↔
      (sg = false ∨ a.msb = false ∨ n.toNat % w = 0 ∨ ∀ i < w - n.toNat % w, bit a i))) ∧
    (IsRotr a b.toNat (rotateRight sg a b) ↔
      (sg = false ∨ a.msb = false ∨ b.toNat % w = 0 ∨ ∀ i < b.toNat % w, bit a i)) ∧
    (∃ r, rotateRightN sg a n = some r ∧ (IsRotr a n.toNat r ↔
      (sg = false ∨ a.msb = false ∨ n.toNat % w = 0 ∨ ∀ i < n.toNat % w, bit a i))) := by
  have h0 : 0 < w := by have := (width_le hw).1; omega
  have right : ∀ m, (IsRotr a m (shr sg a (m % w) ||| (a <<< ((w - m % w) % w))) ↔
      (sg = false ∨ a.msb = false ∨ m % w = 0 ∨ ∀ i < m % w, bit a i)) := by
    intro m
    have hm := Nat.mod_lt m h0
    rw [rotr_iff h0, BitVec.or_comm]
    have hl := Nat.mod_lt (w - m % w) h0
    rcases Nat.eq_zero_or_pos (m % w) with h | h
    · have := rot_iff sg hl a
      simp only [h, Nat.sub_zero, Nat.mod_self, true_or, or_true, iff_true] at this ⊢
      exact this
    · have e : (w - m % w) % w = w - m % w := Nat.mod_eq_of_lt (by omega)
      have := rot_iff sg hl a
      rw [e, show w - (w - m % w) = m % w by omega, Nat.mod_eq_of_lt hm] at this
      rw [e, this]
      constructor
      · rintro (h | h | h | h)
        · exact Or.inl h
        · exact Or.inr (Or.inl h)
        · omega
        · exact Or.inr (Or.inr (Or.inr h))
      · rintro (h | h | h | h)
        · exact Or.inl h
        · exact Or.inr (Or.inl h)
        · omega
        · exact Or.inr (Or.inr (Or.inr h))
  refine ⟨?_, ⟨_, rotateLeftN_eq hw a n, ?_⟩, ?_, ⟨_, rotateRightN_eq hw a n, ?_⟩⟩
  · rw [rotateLeft_eq hw, rotl_mod h0, rot_iff sg (Nat.mod_lt _ h0)]
  · rw [rotl_mod h0, rot_iff sg (Nat.mod_lt _ h0)]
  · rw [rotateRight_eq hw]; exact right _
  · exact right _

/-- **C94, rotating unsigned lanes** is always right, and so is rotating lanes that are not
negative. -/
theorem C94_rotate_partial (sg : Bool) {w : Nat} (hw : Width w) (a b : BitVec w) (n : BitVec 8)
    (h : sg = false ∨ a.msb = false) :
    IsRotl a b.toNat (rotateLeft sg a b) ∧ IsRotr a b.toNat (rotateRight sg a b) ∧
      (∃ r, rotateLeftN sg a n = some r ∧ IsRotl a n.toNat r) ∧
      ∃ r, rotateRightN sg a n = some r ∧ IsRotr a n.toNat r := by
  obtain ⟨h1, ⟨r, h2, h3⟩, h4, ⟨r', h5, h6⟩⟩ := C94_rotate_exact sg hw a b n
  have : ∀ p, sg = false ∨ a.msb = false ∨ p := fun p => by
    rcases h with h | h
    · exact Or.inl h
    · exact Or.inr (Or.inl h)
  exact ⟨h1.2 (this _), h4.2 (this _), ⟨r, h2, h3.2 (this _)⟩, ⟨r', h5, h6.2 (this _)⟩⟩

example : Width 32 ∧ rotateLeft false 0x80000001#32 4#32 = 0x18#32 ∧
    rotateRight false 0x80000001#32 4#32 = 0x18000000#32 := by
  refine ⟨by simp [Width], by decide, by decide⟩

/-- **C94, rotating negative lanes is refuted**: `CCSimdRotateLeft` of the `s32` lane with bit
pattern 80000000 by 4 gives fffffff8 and not 8, since the right shift of a signed lane copies the sign. -/
theorem C94_rotate_refuted :
    rotateLeft true 0x80000000#32 4#32 = 0xfffffff8#32 ∧
      ¬ IsRotl 0x80000000#32 (4#32 : BitVec 32).toNat (rotateLeft true 0x80000000#32 4#32) := by
  refine ⟨by decide, fun h => ?_⟩
  have := h 0 (by decide)
  revert this
  decide

/-! ## Lowest bits -/

/-- **C94, lowest set and unset bit**, for lanes of any width: the lowest one bit on its own (zero if
there is none), and the lowest zero bit as a one on its own (zero if there is none). -/
theorem C94_lowest {w : Nat} (a : BitVec w) :
    (∀ k, LowestOne a k → (lowestSet a).toNat = 2 ^ k) ∧ (a = 0 → lowestSet a = 0) ∧
    (∀ k, LowestZero a k → (lowestUnset a).toNat = 2 ^ k) ∧
    (a = BitVec.allOnes w → lowestUnset a = 0) := by
  refine ⟨fun k hk => by rw [lowestSet_eq hk, twoPow_toNat hk.1], by rintro rfl; simp [lowestSet], ?_,
    by rintro rfl; simp [lowestUnset]⟩
  rintro k ⟨h1, h2, h3⟩
  have hk : LowestOne (~~~a) k := by
    refine ⟨h1, ?_, fun j hj => ?_⟩
    · simp only [bit, BitVec.getLsbD_not, h1, decide_true, Bool.true_and]
      simpa [bit] using h2
    · have := h3 j hj
      simp only [bit] at this
      simp [bit, this]
  rw [lowestUnset_eq, lowestSet_eq hk, twoPow_toNat h1]

example : LowestOne 40#8 3 ∧ LowestZero 39#8 3 := by
  refine ⟨⟨by decide, by unfold bit; decide, by unfold bit; decide⟩,
    ⟨by decide, by unfold bit; decide, by unfold bit; decide⟩⟩

/-! ## Masks, the highest bit and powers of two -/

/-- **C94, masks of lanes of 8, 16 and 32 bits**: `CCSimdMask` has ones up to the highest one,
`CCSimdMaskHighestUnset` ones above it, `CCSimdHighestSet` is that one bit on its own, and
`CCSimdNextPow2` is the least power of two that is no less than the lane, for lanes for which
there is one. -/
theorem C94_mask_partial {w : Nat} (hw : w = 8 ∨ w = 16 ∨ w = 32) (a : BitVec w) :
    IsMask a (mask a) ∧ IsUnsetMask a (maskHighestUnset a) ∧ IsHighest a (highestSet a) ∧
      (1 ≤ a.toNat → a.toNat ≤ 2 ^ (w - 1) → IsNextPow2 a (nextPow2 a)) := by
  have h : ∀ a : BitVec w, IsMask a (mask a) := by
    rcases hw with rfl | rfl | rfl
    · exact fun a => isMask_of_smear (mask8 a)
    · exact fun a => isMask_of_smear (mask16 a)
    · exact fun a => isMask_of_smear (mask32 a)
  have hw' : Width w := by rcases hw with h | h | h <;> simp [Width, h]
  exact ⟨h a, (maskHighestUnset_iff hw' a).2 (h a), (highestSet_iff a).2 (h a),
    fun h1 h2 => (nextPow2_iff h1 h2).2 (h _)⟩

example : (1 ≤ (37#8 : BitVec 8).toNat ∧ (37#8 : BitVec 8).toNat ≤ 2 ^ (8 - 1)) ∧
    mask 37#8 = 63#8 ∧ highestSet 37#8 = 32#8 ∧ nextPow2 37#8 = 64#8 ∧
    maskHighestUnset 37#8 = 192#8 := by decide

/-- **C94, masks of 64-bit lanes, when they are right**: exactly when there are no 48 zeros in a row
below the highest one bit of the lane (of the lane less one for `CCSimdNextPow2`). -/
theorem C94_mask64_exact (a : BitVec 64) :
    (IsMask a (mask a) ↔ ¬ LongGap a) ∧ (IsUnsetMask a (maskHighestUnset a) ↔ ¬ LongGap a) ∧
      (IsHighest a (highestSet a) ↔ ¬ LongGap a) ∧
      (1 ≤ a.toNat → a.toNat ≤ 2 ^ 63 → (IsNextPow2 a (nextPow2 a) ↔ ¬ LongGap (a - 1))) := by
  have hw : Width 64 := by simp [Width]
  refine ⟨isMask_64 a, ?_, ?_, fun h1 h2 => ?_⟩
  · rw [maskHighestUnset_iff hw, isMask_64]
  · rw [highestSet_iff, isMask_64]
  · rw [nextPow2_iff h1 h2, isMask_64]

/-- **C94, masks of 64-bit lanes** below 2⁴⁸ are right. -/
theorem C94_mask64_partial (a : BitVec 64) (h : a.toNat < 2 ^ 48) :
    IsMask a (mask a) ∧ IsUnsetMask a (maskHighestUnset a) ∧ IsHighest a (highestSet a) ∧
      (1 ≤ a.toNat → IsNextPow2 a (nextPow2 a)) := by
  have key : ∀ a : BitVec 64, a.toNat < 2 ^ 48 → ¬ LongGap a := by
    rintro a h ⟨i, ⟨j, hj, hb⟩, hg⟩
    have hj48 : j < 48 := by
      rcases Nat.lt_or_ge j 48 with h' | h'
      · exact h'
      · have : a.getLsbD j = false := by
          rw [BitVec.getLsbD]
          exact Nat.testBit_lt_two_pow (Nat.lt_of_lt_of_le h (Nat.pow_le_pow_right (by decide) h'))
        simp [bit, this] at hb
    exact hg (j - i) (by omega) (by rwa [show i + (j - i) = j by omega])
  obtain ⟨h1, h2, h3, h4⟩ := C94_mask64_exact a
  refine ⟨h1.2 (key a h), h2.2 (key a h), h3.2 (key a h), fun h0 => (h4 h0 (by omega)).2 (key _ ?_)⟩
  have : (a - 1).toNat = a.toNat - 1 := by
    rw [BitVec.toNat_sub_of_le (by rw [BitVec.le_def]; exact h0)]; rfl
  omega

/-- **C94, masks of 64-bit lanes are refuted**: the last shift is by 16 and not by 32, so that
`CCSimdMask` of 2⁴⁸ misses bit 0, `CCSimdHighestSet` of 2⁴⁸ is 2⁴⁸ + 1, and `CCSimdNextPow2` of
2⁴⁸ + 1 is 2⁴⁹ − 1, which is no power of two. -/
theorem C94_mask64_refuted :
    mask (0x1000000000000#64) = 0x1fffffffffffe#64 ∧
      ¬ IsMask 0x1000000000000#64 (mask 0x1000000000000#64) ∧
    highestSet (0x1000000000000#64) = 0x1000000000001#64 ∧
      ¬ IsHighest 0x1000000000000#64 (highestSet 0x1000000000000#64) ∧
    nextPow2 (0x1000000000001#64) = 0x1ffffffffffff#64 ∧
      ¬ IsNextPow2 0x1000000000001#64 (nextPow2 0x1000000000001#64) := by
  have hg : LongGap 0x1000000000000#64 := ⟨0, ⟨48, by decide, by unfold bit; decide⟩, by
    unfold bit; decide⟩
  obtain ⟨h1, _, h3, _⟩ := C94_mask64_exact 0x1000000000000#64
  obtain ⟨_, _, _, h4⟩ := C94_mask64_exact 0x1000000000001#64
  refine ⟨by decide, fun h => h1.1 h hg, by decide, fun h => h3.1 h hg, by decide, fun h => ?_⟩
  exact (h4 (by decide) (by decide)).1 h hg

/-- **C94, masks of the bits below a power of two**, for lanes of any width: `CCSimdMaskLowerPow2` of
2ᵏ has the `k` lowest bits, and of 0 is 0. -/
theorem C94_mask_lower {w : Nat} (a : BitVec w) :
    (∀ k < w, a.toNat = 2 ^ k → (maskLowerPow2 a).toNat = 2 ^ k - 1) ∧
      (a = 0 → maskLowerPow2 a = 0) :=
  ⟨fun _ hk h => pow2_sub_one hk a h, fun h => by rw [maskLowerPow2_eq, if_pos h]⟩

example : maskLowerPow2 0x10#16 = 0xf#16 ∧ (0x10#16 : BitVec 16).toNat = 2 ^ 4 := by decide

/-! ## Counting -/

/-- **C94, counting**: on lanes of 8, 16 and 32 bits, signed or not, `CCSimdCountSet` is the number of
one bits and `CCSimdCountLowestUnset` the number of zeros below the lowest one, or the width if there
is none; no unreachable shift is run into. -/
theorem C94_count (sg : Bool) {w : Nat} (hw : w = 8 ∨ w = 16 ∨ w = 32) (a : BitVec w) :
    (∃ r, countSet sg a = some r ∧ r.toNat = ones a) ∧
    ∃ r, countLowestUnset sg a = some r ∧ (∀ k, LowestOne a k → r.toNat = k) ∧
      (a = 0 → r.toNat = w) :=
  ⟨countSet_spec sg hw a, countLowestUnset_spec sg hw a⟩

example : countSet true 0xf0f1#16 = some 9#16 ∧ countLowestUnset true 0x8000#16 = some 15#16 ∧
    countLowestUnset false 0#8 = some 8#8 := by decide

theorem leading_iff {w : Nat} (a : BitVec w) (n : Nat) : LeadingZeros a n ↔
    n ≤ w ∧ a.toNat < 2 ^ (w - n) ∧ (n < w → 2 ^ (w - 1 - n) ≤ a.toNat) := by
  constructor
  · rintro ⟨h1, h2, h3⟩
    refine ⟨h1, Nat.lt_pow_two_of_testBit _ fun i hi => ?_, fun h => Nat.ge_two_pow_of_testBit (h3 h)⟩
    simpa [bit, BitVec.getLsbD] using h2 i hi
  · rintro ⟨h1, h2, h3⟩
    have hz : ∀ i, w - n ≤ i → ¬ bit a i := by
      intro i hi
      have : a.getLsbD i = false := by
        rw [BitVec.getLsbD]
        exact Nat.testBit_lt_two_pow (Nat.lt_of_lt_of_le h2 (Nat.pow_le_pow_right (by decide) hi))
      simp [bit, this]
    refine ⟨h1, hz, fun h => ?_⟩
    have h0 : a ≠ 0 := by
      rintro rfl
      have := h3 h
      have := Nat.two_pow_pos (w - 1 - n)
      simp at *
    obtain ⟨k, hk⟩ := exists_highest h0
    have hb := highest_bounds hk
    have hlt : k < w - n := by
      rcases Nat.lt_or_ge k (w - n) with h | h
      · exact h
      · exact absurd hk.2.1 (hz k h)
    have : 2 ^ (w - 1 - n) < 2 ^ (k + 1) := Nat.lt_of_le_of_lt (h3 h) hb.2
    have := (Nat.pow_lt_pow_iff_right (show 1 < 2 by decide)).1 this
    rw [show w - 1 - n = k by omega]
    exact hk.2.1

theorem leading_unique {w : Nat} {a : BitVec w} {m n : Nat} (h1 : LeadingZeros a m)
    (h2 : LeadingZeros a n) : m = n := by
  obtain ⟨a1, b1, c1⟩ := h1
  obtain ⟨a2, b2, c2⟩ := h2
  rcases Nat.lt_trichotomy m n with h | h | h
  · exact absurd (c1 (by omega)) (b2 _ (by omega))
  · exact h
  · exact absurd (c2 (by omega)) (b1 _ (by omega))

theorem leading_clz {w : Nat} (hw : 0 < w) (a : BitVec w) : LeadingZeros a a.clz.toNat := by
  rw [leading_iff]
  refine ⟨?_, BitVec.toNat_lt_two_pow_sub_clz, fun h => ?_⟩
  · have h := BitVec.clz_le (x := a)
    rw [BitVec.le_def] at h
    simpa [Nat.mod_eq_of_lt Nat.lt_two_pow_self] using h
  · have h0 : a ≠ 0#w := by
      rintro rfl
      have : (0#w : BitVec w).clz = w := BitVec.clz_eq_iff_eq_zero.2 rfl
      rw [this] at h
      simp [Nat.mod_eq_of_lt Nat.lt_two_pow_self] at h
    exact BitVec.two_pow_sub_clz_le_toNat_of_ne_zero hw h0

/-- What the code computes for one 64-bit lane. -/
def lane64 (x : BitVec 64) : BitVec 64 :=
  let hi : BitVec 32 := (x >>> 32).setWidth 32
  ((hi.clz + (hi.clz &&& maskEq (x.setWidth 32) 0)) ++
    ((x.setWidth 32 : BitVec 32).clz + (hi.clz &&& maskEq (x.setWidth 32) 0))) >>> 32

theorem countHighest_lanes (x y : BitVec 64) :
    countHighestUnset64 [x, y] = some [lane64 x, lane64 y] := by
  rfl

theorem lane64_toNat (x : BitVec 64) : (lane64 x).toNat =
    ((x >>> 32).setWidth 32 : BitVec 32).clz.toNat * (if x.toNat % 2 ^ 32 = 0 then 2 else 1) := by
  have hle : ((x >>> 32).setWidth 32 : BitVec 32).clz.toNat ≤ 32 :=
    (leading_clz (by decide) ((x >>> 32).setWidth 32 : BitVec 32)).1
  rw [lane64]
  generalize ((x >>> 32).setWidth 32 : BitVec 32).clz = c at hle
  have hm : ((c &&& maskEq (x.setWidth 32) 0 : BitVec 32)).toNat =
      if x.toNat % 2 ^ 32 = 0 then c.toNat else 0 := by
    have hz : (x.setWidth 32 : BitVec 32) = 0 ↔ x.toNat % 2 ^ 32 = 0 := by
      rw [← BitVec.toNat_inj]; simp
    rw [maskEq, lanemask]
    by_cases h : x.toNat % 2 ^ 32 = 0
    · rw [if_pos h, if_pos (by simpa using hz.2 h), BitVec.and_allOnes]
    · rw [if_neg h, if_neg (by simpa using fun h' => h (hz.1 h'))]; simp
  rw [BitVec.toNat_ushiftRight, BitVec.toNat_append, Nat.shiftRight_or_distrib,
    Nat.shiftLeft_shiftRight, Nat.shiftRight_eq_div_pow _ 32, Nat.div_eq_of_lt (BitVec.isLt _),
    Nat.or_zero, BitVec.toNat_add, hm]
  split <;> omega

/-- **C94, leading zeros of 64-bit lanes, when they are right**: `CCSimdCountHighestUnset` of both
lanes of a vector of two is never unreachable, and the count of a lane is right exactly when the lane
is zero, or has its top bit, or has ones in both halves, or has bit 31 as its highest one. -/
theorem C94_count_highest64_exact (x y : BitVec 64) : ∃ r s,
    countHighestUnset64 [x, y] = some [r, s] ∧
    (LeadingZeros x r.toNat ↔ x = 0 ∨ 2 ^ 63 ≤ x.toNat ∨ (2 ^ 32 ≤ x.toNat ∧ x.toNat % 2 ^ 32 ≠ 0) ∨
      (2 ^ 31 ≤ x.toNat ∧ x.toNat < 2 ^ 32)) ∧
    (LeadingZeros y s.toNat ↔ y = 0 ∨ 2 ^ 63 ≤ y.toNat ∨ (2 ^ 32 ≤ y.toNat ∧ y.toNat % 2 ^ 32 ≠ 0) ∨
      (2 ^ 31 ≤ y.toNat ∧ y.toNat < 2 ^ 32)) := by
  suffices key : ∀ x : BitVec 64, LeadingZeros x (lane64 x).toNat ↔
      x = 0 ∨ 2 ^ 63 ≤ x.toNat ∨ (2 ^ 32 ≤ x.toNat ∧ x.toNat % 2 ^ 32 ≠ 0) ∨
        (2 ^ 31 ≤ x.toNat ∧ x.toNat < 2 ^ 32) from
    ⟨_, _, countHighest_lanes x y, key x, key y⟩
  intro x
  have hx := x.isLt
  have hhi : ((x >>> 32).setWidth 32 : BitVec 32).toNat = x.toNat / 2 ^ 32 := by
    simp [Nat.shiftRight_eq_div_pow]; omega
  have h0 : x = 0 ↔ x.toNat = 0 := by rw [← BitVec.toNat_inj]; rfl
  have hc := leading_clz (by decide) ((x >>> 32).setWidth 32 : BitVec 32)
  rw [lane64_toNat, h0]
  generalize ((x >>> 32).setWidth 32 : BitVec 32).clz.toNat = c at hc
  rw [leading_iff, hhi] at hc
  obtain ⟨c1, c2, c3⟩ := hc
  rcases Nat.lt_or_ge x.toNat (2 ^ 32) with hlt | hge
  · -- the upper half is zero
    have hz : x.toNat / 2 ^ 32 = 0 := Nat.div_eq_of_lt hlt
    rw [hz] at c2 c3
    have hc32 : c = 32 := by
      rcases Nat.lt_or_ge c 32 with h | h
      · have := c3 h; have := Nat.two_pow_pos (32 - 1 - c); omega
      · omega
    subst hc32
    rw [Nat.mod_eq_of_lt hlt, leading_iff]
    by_cases hx0 : x.toNat = 0
    · simp [hx0]
    · rw [if_neg hx0]
      simp only [Nat.reducePow, Nat.reduceMul, Nat.reduceSub] at hlt ⊢
      omega
  · have hc32 : c < 32 := by
      rcases Nat.lt_or_ge c 32 with h | h
      · exact h
      · have : c = 32 := by omega
        subst this; simp at c2; omega
    have c3 := c3 hc32
    have hl : LeadingZeros x c := by
      rw [leading_iff]
      have e1 : 2 ^ (64 - c) = 2 ^ (32 - c) * 2 ^ 32 := by rw [← Nat.pow_add]; congr 1; omega
      have e2 : 2 ^ (64 - 1 - c) = 2 ^ (32 - 1 - c) * 2 ^ 32 := by rw [← Nat.pow_add]; congr 1; omega
      refine ⟨by omega, ?_, fun _ => ?_⟩
      · rw [e1]; exact (Nat.div_lt_iff_lt_mul (by decide)).1 c2
      · rw [e2]; exact (Nat.le_div_iff_mul_le (by decide)).1 c3
    have hz : c = 0 ↔ 2 ^ 63 ≤ x.toNat := by
      have hl' := (leading_iff x c).1 hl
      constructor
      · rintro rfl; exact hl'.2.2 (by decide)
      · intro h
        rcases Nat.eq_zero_or_pos c with h' | h'
        · exact h'
        · have : 2 ^ (64 - c) ≤ 2 ^ 63 := Nat.pow_le_pow_right (by decide) (by omega)
          omega
    have huniq : ∀ n, LeadingZeros x n ↔ n = c :=
      fun n => ⟨fun h => leading_unique h hl, fun h => h ▸ hl⟩
    rw [huniq]
    split <;> omega

example : ((2 : Nat) ^ 32 ≤ (0x500000001#64 : BitVec 64).toNat ∧
      (0x500000001#64 : BitVec 64).toNat % 2 ^ 32 ≠ 0) ∧
    countHighestUnset64 [0x500000001#64, 0x80000000#64] = some [29#64, 32#64] := by
  decide +kernel

/-- **C94, leading zeros of 64-bit lanes are refuted**: `CCSimdCountHighestUnset` of 1 and of 2³²
gives 32 and 62, and not 63 and 31.  The lanes of the two swizzles are the wrong way around: the
mask is taken from the lower halves and the count from the upper ones. -/
theorem C94_count_highest64_refuted :
    countHighestUnset64 [1#64, 0x100000000#64] = some [32#64, 62#64] ∧
      ¬ LeadingZeros 1#64 32 ∧ ¬ LeadingZeros 0x100000000#64 62 ∧ LeadingZeros 1#64 63 ∧
      LeadingZeros 0x100000000#64 31 := by
  refine ⟨by decide +kernel, ?_⟩
  simp only [leading_iff]
  decide

/-! ## Comparing, selecting and dividing -/

/-- **C94, comparing**: on lanes of any width the six comparisons compare the numbers of the lane
type, and give 1 if they hold and else 0; on lanes of floats the comparison masks become 1.0 and 0.0
(bit patterns 3f800000 and 3ff0000000000000). -/
theorem C94_compare (sg : Bool) {w : Nat} (a b : BitVec w) (c : Bool) :
    (compareEq a b = if num sg a = num sg b then 1 else 0) ∧
    (compareNe a b = if num sg a ≠ num sg b then 1 else 0) ∧
    (compareLt sg a b = if num sg a < num sg b then 1 else 0) ∧
    (compareLe sg a b = if num sg a ≤ num sg b then 1 else 0) ∧
    (compareGt sg a b = if num sg a > num sg b then 1 else 0) ∧
    (compareGe sg a b = if num sg a ≥ num sg b then 1 else 0) ∧
    (compareF32 (lanemask 32 c) = some (if c then 0x3f800000#32 else 0)) ∧
    (compareF64 (lanemask 64 c) = some (if c then 0x3ff0000000000000#64 else 0)) := by
  have heq : a = b ↔ num sg a = num sg b := by
    cases sg
    · simp only [num, Bool.false_eq_true, if_false, Int.ofNat_inj, BitVec.toNat_inj]
    · simp only [num, if_true, BitVec.toInt_inj]
  refine ⟨by rw [compareEq_eq]; simp only [heq], ?_, ?_, ?_, ?_, ?_, ?_, ?_⟩
  · rw [compareNe, maskNe, maskEq, lanemask]
    by_cases h : a = b
    · rw [if_pos (by simpa using h), if_neg (by simpa using heq.1 h)]; simp
    · rw [if_neg (by simpa using h), if_pos (by simpa using fun h' => h (heq.2 h'))]
      simp [neg_allOnes]
  · rw [compareLt, maskLt, neg_lanemask, lt_iff]; simp
  · rw [compareLe, maskLe, neg_lanemask, le_iff]; simp
  · rw [compareGt, maskGt, neg_lanemask, lt_iff]; simp
  · rw [compareGe, maskGe, neg_lanemask, le_iff]; simp
  · cases c <;> decide
  · cases c <;> decide

example : compareLt true 0xff#8 1#8 = 1#8 ∧ compareLt false 0xff#8 1#8 = 0#8 := by decide

/-- **C94, least, greatest and clamping**: on lanes of any width `CCSimdMin` and `CCSimdMax` give one of
the two lanes, whose number is the least and the greatest, and `CCSimdClamp` to an interval that is not
empty is the number in the interval that is nearest. -/
theorem C94_min_max_clamp (sg : Bool) {w : Nat} (a b lo hi : BitVec w) :
    num sg (min sg a b) = Min.min (num sg a) (num sg b) ∧
    num sg (max sg a b) = Max.max (num sg a) (num sg b) ∧
    (num sg lo ≤ num sg hi →
      (num sg a < num sg lo → clamp sg a lo hi = lo) ∧
      (num sg hi < num sg a → clamp sg a lo hi = hi) ∧
      (num sg lo ≤ num sg a → num sg a ≤ num sg hi → clamp sg a lo hi = a)) := by
  have hinj : ∀ a b : BitVec w, num sg a = num sg b → a = b := by
    intro a b
    cases sg
    · simp only [num, Bool.false_eq_true, if_false, Int.ofNat_inj, BitVec.toNat_inj]; exact id
    · simp only [num, if_true, BitVec.toInt_inj]; exact id
  have hmin : ∀ a b : BitVec w, num sg (min sg a b) = Min.min (num sg a) (num sg b) := by
    intro a b
    rw [min, maskLt, mask_select, lt_iff]
    by_cases h : num sg a < num sg b
    · rw [if_pos (by simpa using h)]; omega
    · rw [if_neg (by simpa using h)]; omega
  have hmax : ∀ a b : BitVec w, num sg (max sg a b) = Max.max (num sg a) (num sg b) := by
    intro a b
    rw [max, maskGt, mask_select, lt_iff]
    by_cases h : num sg b < num sg a
    · rw [if_pos (by simpa using h)]; omega
    · rw [if_neg (by simpa using h)]; omega
  refine ⟨hmin a b, hmax a b, fun h => ⟨fun h1 => ?_, fun h1 => ?_, fun h1 h2 => ?_⟩⟩ <;>
  · apply hinj
    rw [clamp, hmin, hmax]
    omega

example : num true 2#8 ≤ num true 9#8 ∧ clamp true 0xfe#8 2#8 9#8 = 2#8 ∧
    clamp false 0xfe#8 2#8 9#8 = 9#8 := by decide

/-- **C94, dividing**: undefined exactly when the divisor is zero, or a signed lane of 32 or more bits
with the least number is divided by -1; otherwise the quotient is that of the numbers, rounded to zero,
apart from the least 8 or 16-bit number over -1, which gives itself, and `CCSimdMod` is the remainder,
which has the sign of the dividend. -/
theorem C94_div_mod (sg : Bool) {w : Nat} (hw : Width w) (a b : BitVec w) :
    (div sg a b = none ↔ num sg b = 0 ∨
      (sg = true ∧ 32 ≤ w ∧ num sg a = -2 ^ (w - 1) ∧ num sg b = -1)) ∧
    (mod sg a b = none ↔ div sg a b = none) ∧
    (∀ q, div sg a b = some q →
      (¬ (sg = true ∧ num sg a = -2 ^ (w - 1) ∧ num sg b = -1) →
        num sg q = (num sg a).tdiv (num sg b)) ∧
      (sg = true ∧ num sg a = -2 ^ (w - 1) ∧ num sg b = -1 → q = a)) ∧
    (∀ r, mod sg a b = some r → num sg r = (num sg a).tmod (num sg b)) := by
  have h1w : 1 ≤ w := by rcases hw with h | h | h | h <;> omega
  have hb0 : b = 0 ↔ num sg b = 0 := by
    cases sg
    · rw [← BitVec.toNat_inj]; simp [num]
    · rw [← BitVec.toInt_inj]; simp [num]
  have hmod : mod sg a b = (div sg a b).map fun q => a - q * b := by
    rw [mod]; cases div sg a b <;> rfl
  cases sg with
  | false =>
    have hd : div false a b = if b = 0 then none else some (a / b) := rfl
    by_cases h : b = 0
    · rw [hmod, hd, if_pos h]
      simp [hb0.1 h]
    · rw [hmod, hd, if_neg h]
      have h' := fun h' => h (hb0.2 h')
      refine ⟨by simpa using h', by simp, ?_, ?_⟩
      · rintro q hq
        cases hq
        simp [num, Int.tdiv_eq_ediv]
      · rintro r hr
        simp only [Option.map_some, Option.some.injEq] at hr
        subst hr
        have hbp : 0 < b.toNat := by
          rcases Nat.eq_zero_or_pos b.toNat with h | h
          · exact absurd (by simp [num, h]) h'
          · exact h
        have hle : a.toNat / b.toNat * b.toNat ≤ a.toNat := Nat.div_mul_le_self _ _
        have e : (a / b * b).toNat = a.toNat / b.toNat * b.toNat := by
          rw [BitVec.toNat_mul, BitVec.toNat_udiv, Nat.mod_eq_of_lt (Nat.lt_of_le_of_lt hle a.isLt)]
        have e2 : (a - a / b * b).toNat = a.toNat % b.toNat := by
          rw [BitVec.toNat_sub_of_le (by rw [BitVec.le_def, e]; exact hle), e]
          have := Nat.div_add_mod' a.toNat b.toNat
          omega
        simp only [num, Bool.false_eq_true, if_false, e2]
        rw [Int.tmod_eq_emod_of_nonneg (by omega)]
        rfl
  | true =>
    have hmin : a = BitVec.intMin w ↔ num true a = -2 ^ (w - 1) := by
      rw [← BitVec.toInt_inj, BitVec.toInt_intMin_of_pos (by omega)]; rfl
    have hone : b = BitVec.allOnes w ↔ num true b = -1 := by
      rw [← BitVec.toInt_inj, BitVec.toInt_allOnes, if_pos (by omega)]; rfl
    have hlo : -2 ^ (w - 1) ≤ a.toInt := BitVec.le_toInt a
    have hhi : a.toInt < 2 ^ (w - 1) := BitVec.toInt_lt
    have hp : (2 : Int) ^ w = 2 * 2 ^ (w - 1) := by
      rw [← Int.pow_succ', show w - 1 + 1 = w by omega]
    have bm : ∀ x : Int, -2 ^ (w - 1) ≤ x → x < 2 ^ (w - 1) → x.bmod (2 ^ w) = x := by
      intro x h1 h2
      rw [Int.bmod_eq_of_le_mul_two] <;> simp <;> omega
    have hrem : b ≠ 0 → num true (a - a.sdiv b * b) = (num true a).tmod (num true b) := by
      intro h
      have e : a.sdiv b = BitVec.ofInt w (a.toInt.tdiv b.toInt) := by
        rw [← BitVec.toInt_inj, BitVec.toInt_sdiv, BitVec.toInt_ofInt]
      have e2 : a - a.sdiv b * b = BitVec.ofInt w (a.toInt.tmod b.toInt) := by
        rw [Int.tmod_def, Int.mul_comm, Int.sub_eq_add_neg, BitVec.ofInt_add, BitVec.ofInt_neg,
          ← BitVec.sub_eq_add_neg, BitVec.ofInt_mul, ← e, BitVec.ofInt_toInt,
          BitVec.ofInt_toInt]
      simp only [num, if_true, e2, BitVec.toInt_ofInt]
      have hab : (a.toInt.tmod b.toInt).natAbs ≤ a.toInt.natAbs := by
        rw [Int.natAbs_tmod]; exact Nat.mod_le _ _
      have hsg : 0 ≤ a.toInt → 0 ≤ a.toInt.tmod b.toInt := Int.tmod_nonneg _
      have hsg' : a.toInt ≤ 0 → a.toInt.tmod b.toInt ≤ 0 := by
        intro h
        have := Int.tmod_nonneg b.toInt (show 0 ≤ -a.toInt by omega)
        rw [Int.neg_tmod] at this
        omega
      exact bm _ (by omega) (by omega)
    have hd : div true a b = if b = 0 then none else if 32 ≤ w ∧ a = BitVec.intMin w ∧
        b = BitVec.allOnes w then none else some (a.sdiv b) := rfl
    rw [hmod, hd]
    by_cases h : b = 0
    · rw [if_pos h]
      simp [hb0.1 h]
    · rw [if_neg h]
      have h' := fun h' => h (hb0.2 h')
      simp only [hmin, hone]
      by_cases hu : 32 ≤ w ∧ num true a = -2 ^ (w - 1) ∧ num true b = -1
      · rw [if_pos hu]
        simp [hu]
      · rw [if_neg hu]
        refine ⟨by simpa using ⟨h', by simpa using hu⟩, by simp, ?_, ?_⟩
        · rintro q hq
          cases hq
          constructor
          · intro hn
            refine BitVec.toInt_sdiv_of_ne_or_ne a b ?_
            rw [BitVec.neg_one_eq_allOnes]
            by_cases ha : a = BitVec.intMin w
            · exact Or.inr fun hb => hn ⟨trivial, hmin.1 ha, hone.1 hb⟩
            · exact Or.inl ha
          · rintro ⟨-, ha, hb⟩
            rw [hmin.2 ha, hone.2 hb, ← BitVec.neg_one_eq_allOnes, BitVec.intMin_sdiv_neg_one]
        · rintro r hr
          simp only [Option.map_some, Option.some.injEq] at hr
          subst hr
          exact hrem h

example : div true 0xf9#8 2#8 = some 0xfd#8 ∧ mod true 0xf9#8 2#8 = some 0xff#8 ∧
    div true 0x80#8 0xff#8 = some 0x80#8 ∧ div true 0x80000000#32 0xffffffff#32 = none ∧
    mod false 0xf9#8 10#8 = some 9#8 := by decide

#print axioms C94_rotate_exact
#print axioms C94_rotate_partial
#print axioms C94_rotate_refuted
#print axioms C94_lowest
#print axioms C94_mask_partial
#print axioms C94_mask64_exact
#print axioms C94_mask64_partial
#print axioms C94_mask64_refuted
#print axioms C94_mask_lower
#print axioms C94_count
#print axioms C94_count_highest64_exact
#print axioms C94_count_highest64_refuted
#print axioms C94_compare
#print axioms C94_min_max_clamp
#print axioms C94_div_mod

end Verif.SimdLane
