import Verif.SimdLaneLemmas

namespace Verif.SimdLane
open Spec
open BitTricks (val popByte byte_facts val_sub val_add val_lt shr1 shr2 and2 shr4)

theorem shiftRightN_eq (sg : Bool) {w : Nat} (a : BitVec w) {n : Nat} (h : n < w) :
    shiftRightN sg a n = some (shr sg a n) := by
  rw [shiftRightN, if_pos h]; rfl

theorem shr_and (sg : Bool) {w k : Nat} (a c : BitVec w) (hc : c.toNat < 2 ^ (w - k)) :
    shr sg a k &&& c = a >>> k &&& c := by
  cases sg with
  | false => rfl
  | true =>
    apply BitVec.eq_of_getLsbD_eq
    intro i hi
    rw [shr, if_pos rfl, BitVec.getLsbD_and, BitVec.getLsbD_and, BitVec.getLsbD_sshiftRight,
      BitVec.getLsbD_ushiftRight]
    rcases Nat.lt_or_ge (k + i) w with h | h
    · rw [if_pos h]; simp [show ¬ w ≤ i by omega]
    · have : c.getLsbD i = false := by
        rw [BitVec.getLsbD]
        apply Nat.testBit_lt_two_pow
        exact Nat.lt_of_lt_of_le hc (Nat.pow_le_pow_right (by decide) (by omega))
      rw [this]; simp

theorem shr_msb (sg : Bool) {w k : Nat} (a : BitVec w) (h : a.toNat < 2 ^ (w - 1)) :
    shr sg a k = a >>> k := by
  cases sg with
  | false => rfl
  | true =>
    rw [shr, if_pos rfl]
    rcases Nat.eq_zero_or_pos w with rfl | hw
    · apply BitVec.eq_of_toNat_eq; simp [BitVec.of_length_zero]
    · apply BitVec.sshiftRight_eq_of_msb_false
      rw [BitVec.msb_eq_decide]
      simp; exact h

theorem val_const (bs : List Nat) (c : Nat) : val (bs.map fun _ => c) = val (List.replicate bs.length c) := by
  rw [List.map_const']

theorem val_le {bs : List Nat} {c : Nat} (h : ∀ b ∈ bs, b ≤ c) : val bs ≤ val (List.replicate bs.length c) := by
  induction bs with
  | nil => exact Nat.le_refl _
  | cons b bs ih =>
    have := h b (by simp)
    have := ih fun b hb => h b (by simp [hb])
    simp only [val, List.length_cons, List.replicate_succ]; omega

/-- The steps of `CCSimdCountSet` on the bytes of the lane. -/
theorem countSet_core (sg : Bool) {w n : Nat} (hw : w = 8 * n) (hn : 1 ≤ n) (a : BitVec w) (bs : List Nat)
    (hlen : bs.length = n) (hb : ∀ b ∈ bs, b < 256) (hv : val bs = a.toNat)
    (h55 : (pattern w 0x5555555555555555).toNat = val (List.replicate n 0x55))
    (h33 : (pattern w 0x3333333333333333).toNat = val (List.replicate n 0x33))
    (h0f : (pattern w 0x0f0f0f0f0f0f0f0f).toNat = val (List.replicate n 0x0f))
    (l55 : val (List.replicate n 0x55) < 2 ^ (w - 1)) (l33 : val (List.replicate n 0x33) < 2 ^ (w - 2))
    (l44 : val (List.replicate n 0x44) + val (List.replicate n 0x44) / 16 < 2 ^ w)
    (l44' : val (List.replicate n 0x44) < 2 ^ (w - 1)) :
    ∃ z : BitVec w, z.toNat = val (bs.map popByte) ∧
      countSet sg a = shiftRightN sg (z * pattern w 0x0101010101010101) (w - 8) := by
  have hpow : 2 ^ w = 256 ^ n := by rw [hw, Nat.pow_mul]
  let g1 : Nat → Nat := fun b => b - (b / 2 &&& 0x55)
  let g2 : Nat → Nat := fun b => (b &&& 0x33) + (b / 4 &&& 0x33)
  let g3 : Nat → Nat := fun b => (b + b / 16) &&& 0x0f
  have hg1 : ∀ b ∈ bs.map g1, b < 256 := by
    intro c hc; obtain ⟨b, hb', rfl⟩ := List.mem_map.1 hc
    have := hb b hb'; simp only [g1]; omega
  have hg2 : ∀ b ∈ (bs.map g1).map g2, b ≤ 0x44 ∧ b % 16 ≤ 4 := by
    intro c hc; rw [List.map_map] at hc; obtain ⟨b, hb', rfl⟩ := List.mem_map.1 hc
    have := byte_facts b (hb b hb'); exact ⟨this.2.1, this.2.2.1⟩
  have hg3 : ((bs.map g1).map g2).map g3 = bs.map popByte := by
    rw [List.map_map, List.map_map]; apply List.map_congr_left
    intro b hb'; exact (byte_facts b (hb b hb')).2.2.2.1
  have s1 : (a - (shr sg a 1 &&& pattern w 0x5555555555555555)).toNat = val (bs.map g1) := by
    have hs := val_sub bs (fun b => b / 2 &&& 0x55) (fun b hb' => (byte_facts b (hb b hb')).1)
    rw [shr_and sg a _ (by rw [h55]; exact l55)]
    have hy : (a >>> 1 &&& pattern w 0x5555555555555555).toNat = val (bs.map fun b => b / 2 &&& 0x55) := by
      rw [BitVec.toNat_and, BitVec.toNat_ushiftRight, Nat.shiftRight_eq_div_pow, ← hv, ← shr1 bs hb,
        val_const, hlen, h55, Nat.pow_one]
    rw [BitVec.toNat_sub_of_le (by rw [BitVec.le_def, hy, ← hv]; exact hs.1), hy, ← hv]; exact hs.2
  have len1 : (bs.map g1).length = n := by simpa using hlen
  have len2 : ((bs.map g1).map g2).length = n := by simpa using hlen
  generalize hx : a - (shr sg a 1 &&& pattern w 0x5555555555555555) = x at s1
  have s2 : ((x &&& pattern w 0x3333333333333333) + (shr sg x 2 &&& pattern w 0x3333333333333333)).toNat =
      val ((bs.map g1).map g2) := by
    rw [shr_and sg x _ (by rw [h33]; exact l33)]
    have ha : (x &&& pattern w 0x3333333333333333).toNat = val ((bs.map g1).map fun b => b &&& 0x33) := by
      rw [BitVec.toNat_and, s1, ← and2 _ hg1, h33, val_const, len1]
    have hc : (x >>> 2 &&& pattern w 0x3333333333333333).toNat = val ((bs.map g1).map fun b => b / 4 &&& 0x33) := by
      rw [BitVec.toNat_and, BitVec.toNat_ushiftRight, Nat.shiftRight_eq_div_pow, s1, ← shr2 _ hg1, h33,
        val_const, len1]
    rw [BitVec.toNat_add, ha, hc, val_add, Nat.mod_eq_of_lt]
    have := val_lt ((bs.map g1).map g2) (fun b hb' => by have := hg2 b hb'; omega)
    rw [len2] at this
    rw [hpow]; exact this
  generalize hy : (x &&& pattern w 0x3333333333333333) + (shr sg x 2 &&& pattern w 0x3333333333333333) = y at s2
  have hyle : y.toNat ≤ val (List.replicate n 0x44) := by
    rw [s2, ← len2]; exact val_le fun b hb => (hg2 b hb).1
  refine ⟨(y + shr sg y 4) &&& pattern w 0x0f0f0f0f0f0f0f0f, ?_, ?_⟩
  · rw [shr_msb sg y (by omega)]
    rw [BitVec.toNat_and, BitVec.toNat_add, BitVec.toNat_ushiftRight, Nat.shiftRight_eq_div_pow,
      show 2 ^ 4 = 16 by decide, Nat.mod_eq_of_lt (by omega), s2, h0f, ← len2, ← val_const,
      shr4 _ hg2]
    exact congrArg val hg3
  · rw [countSet, shiftRightN_eq sg a (by omega)]
    simp only [Option.bind_eq_bind, Option.bind_some]
    rw [hx, shiftRightN_eq sg x (by omega)]
    simp only [Option.bind_some]
    rw [hy, shiftRightN_eq sg y (by omega)]
    simp only [Option.bind_some]

/-- The last step: the top byte of the product is the sum of the bytes. -/
theorem countSet_last (sg : Bool) {w c : Nat} (z : BitVec w) (hw8 : 8 ≤ w)
    (hs : (z * pattern w 0x0101010101010101).toNat / 2 ^ (w - 8) = c) (hc : c < 128) :
    ∃ r, shiftRightN sg (z * pattern w 0x0101010101010101) (w - 8) = some r ∧ r.toNat = c := by
  refine ⟨_, shiftRightN_eq sg _ (by omega), ?_⟩
  rw [shr_msb, BitVec.toNat_ushiftRight, Nat.shiftRight_eq_div_pow, hs]
  have h1 : (z * pattern w 0x0101010101010101).toNat < 2 ^ (w - 8) * 128 := by
    have := Nat.div_add_mod (z * pattern w 0x0101010101010101).toNat (2 ^ (w - 8))
    rw [hs] at this
    have := Nat.mod_lt (z * pattern w 0x0101010101010101).toNat (Nat.two_pow_pos (w - 8))
    have : 2 ^ (w - 8) * c ≤ 2 ^ (w - 8) * 127 := Nat.mul_le_mul_left _ (by omega)
    omega
  have h2 : 2 ^ (w - 1) = 2 ^ (w - 8) * 128 := by
    rw [show (128 : Nat) = 2 ^ 7 by decide, ← Nat.pow_add]; congr 1; omega
  omega

theorem pop_byte_eq {w : Nat} (x : BitVec w) (k : Nat) :
    (List.range 8).countP (fun i => x.getLsbD (8 * k + i)) = popByte (x.toNat / 256 ^ k % 256) := by
  apply List.countP_congr
  intro i hi
  have hi : i < 8 := by simpa using hi
  rw [show (256 : Nat) ^ k = 2 ^ (8 * k) by rw [Nat.pow_mul], show (256 : Nat) = 2 ^ 8 by rfl,
    Nat.testBit_mod_two_pow, Nat.testBit_div_two_pow, BitVec.getLsbD]
  simp [hi, Nat.add_comm]

theorem popByte_le {b : Nat} (h : b < 256) : popByte b ≤ 8 := (byte_facts b h).2.2.2.2

theorem countSet8 (sg : Bool) (a : BitVec 8) : ∃ r, countSet sg a = some r ∧ r.toNat = ones a := by
  have ha := a.isLt
  obtain ⟨z, hz, he⟩ := countSet_core sg (w := 8) (n := 1) rfl (by decide) a [a.toNat] rfl
    (by intro b hb; simp at hb; omega) (by simp [val]) (by decide) (by decide) (by decide) (by decide)
    (by decide) (by decide) (by decide)
  have hone : ones a = popByte a.toNat := by
    have := pop_byte_eq a 0
    rw [Nat.pow_zero, Nat.div_one, Nat.mod_eq_of_lt (by omega)] at this
    rw [← this, ones]
    apply List.countP_congr; intro i _; simp
  have := popByte_le (show a.toNat < 256 by omega)
  rw [he, hone]
  refine countSet_last sg z (by decide) ?_ (by omega)
  rw [BitVec.toNat_mul, hz, show (pattern 8 0x0101010101010101).toNat = 1 by decide]
  simp only [List.map_cons, List.map_nil, val]
  omega

theorem countSet16 (sg : Bool) (a : BitVec 16) : ∃ r, countSet sg a = some r ∧ r.toNat = ones a := by
  have ha := a.isLt
  obtain ⟨z, hz, he⟩ := countSet_core sg (w := 16) (n := 2) rfl (by decide) a [a.toNat % 256, a.toNat / 256 % 256] rfl
    (by intro b hb; simp at hb; omega) (by simp [val]; omega) (by decide) (by decide) (by decide)
    (by decide) (by decide) (by decide) (by decide)
  have hone : ones a = popByte (a.toNat % 256) + popByte (a.toNat / 256 % 256) := by
    have h0 := pop_byte_eq a 0
    have h1 := pop_byte_eq a 1
    rw [Nat.pow_zero, Nat.div_one] at h0
    rw [Nat.pow_one] at h1
    rw [← h0, ← h1, ones, show (List.range 16) = List.range (8 * (1 + 1)) from rfl, BitTricks.popByte_sum]
    simp
  have p0 := popByte_le (show a.toNat % 256 < 256 by omega)
  have p1 := popByte_le (show a.toNat / 256 % 256 < 256 by omega)
  rw [he, hone]
  refine countSet_last sg z (by decide) ?_ (by omega)
  rw [BitVec.toNat_mul, hz, show (pattern 16 0x0101010101010101).toNat = 0x0101 by decide]
  simp only [List.map_cons, List.map_nil, val]
  generalize popByte (a.toNat % 256) = c0 at *
  generalize popByte (a.toNat / 256 % 256) = c1 at *
  have h : (c0 + 256 * (c1 + 256 * 0)) * 257 = (c0 + 256 * (c0 + c1)) + 2 ^ 16 * c1 := by omega
  rw [h, Nat.add_mul_mod_self_left, Nat.mod_eq_of_lt (by omega),
    show (2 : Nat) ^ (16 - 8) = 256 by decide, Nat.add_mul_div_left _ _ (by decide),
    Nat.div_eq_of_lt (by omega), Nat.zero_add]

theorem countSet32 (sg : Bool) (a : BitVec 32) : ∃ r, countSet sg a = some r ∧ r.toNat = ones a := by
  have ha := a.isLt
  obtain ⟨z, hz, he⟩ := countSet_core sg (w := 32) (n := 4) rfl (by decide) a
    [a.toNat % 256, a.toNat / 256 % 256, a.toNat / 256 ^ 2 % 256, a.toNat / 256 ^ 3 % 256] rfl
    (by intro b hb; simp at hb; omega) (by simp [val]; omega) (by decide) (by decide) (by decide)
    (by decide) (by decide) (by decide) (by decide)
  have hone : ones a = popByte (a.toNat % 256) + popByte (a.toNat / 256 % 256) +
      popByte (a.toNat / 256 ^ 2 % 256) + popByte (a.toNat / 256 ^ 3 % 256) := by
    have h0 := pop_byte_eq a 0
    have h1 := pop_byte_eq a 1
    have h2 := pop_byte_eq a 2
    have h3 := pop_byte_eq a 3
    rw [Nat.pow_zero, Nat.div_one] at h0
    rw [Nat.pow_one] at h1
    rw [← h0, ← h1, ← h2, ← h3, ones, show (List.range 32) = List.range (8 * (3 + 1)) from rfl,
      BitTricks.popByte_sum, show 8 * 3 = 8 * (2 + 1) from rfl, BitTricks.popByte_sum,
      show 8 * 2 = 8 * (1 + 1) from rfl, BitTricks.popByte_sum]
    simp
  have p0 := popByte_le (show a.toNat % 256 < 256 by omega)
  have p1 := popByte_le (show a.toNat / 256 % 256 < 256 by omega)
  have p2 := popByte_le (show a.toNat / 256 ^ 2 % 256 < 256 by omega)
  have p3 := popByte_le (show a.toNat / 256 ^ 3 % 256 < 256 by omega)
  rw [he, hone]
  refine countSet_last sg z (by decide) ?_ (by omega)
  rw [BitVec.toNat_mul, hz, show (pattern 32 0x0101010101010101).toNat = 0x01010101 by decide]
  simp only [List.map_cons, List.map_nil, val]
  generalize popByte (a.toNat % 256) = c0 at *
  generalize popByte (a.toNat / 256 % 256) = c1 at *
  generalize popByte (a.toNat / 256 ^ 2 % 256) = c2 at *
  generalize popByte (a.toNat / 256 ^ 3 % 256) = c3 at *
  have h : (c0 + 256 * (c1 + 256 * (c2 + 256 * (c3 + 256 * 0)))) * 0x01010101 =
      ((c0 + 256 * (c0 + c1) + 256 ^ 2 * (c0 + c1 + c2)) + 2 ^ 24 * (c0 + c1 + c2 + c3)) +
        2 ^ 32 * (c1 + c2 + c3 + 256 * (c2 + c3) + 256 ^ 2 * c3) := by omega
  rw [h, Nat.add_mul_mod_self_left, Nat.mod_eq_of_lt (by omega),
    show (2 : Nat) ^ (32 - 8) = 2 ^ 24 by decide, Nat.add_mul_div_left _ _ (by decide),
    Nat.div_eq_of_lt (by omega), Nat.zero_add]

/-- The lane widths with a multiplication. -/
def MulWidth (w : Nat) : Prop := w = 8 ∨ w = 16 ∨ w = 32

theorem countSet_spec (sg : Bool) {w : Nat} (hw : MulWidth w) (a : BitVec w) :
    ∃ r, countSet sg a = some r ∧ r.toNat = ones a := by
  rcases hw with rfl | rfl | rfl
  · exact countSet8 sg a
  · exact countSet16 sg a
  · exact countSet32 sg a

/-! ## Lower mask and trailing zeros -/

theorem maskNe_zero {w : Nat} (a : BitVec w) : maskNe a 0 = if a = 0 then 0 else BitVec.allOnes w := by
  rw [maskNe, maskEq, lanemask]
  by_cases h : a = 0
  · simp [h]
  · rw [if_neg h, if_neg (by simpa using h)]; simp

theorem maskLowerPow2_eq {w : Nat} (a : BitVec w) : maskLowerPow2 a = if a = 0 then 0 else a - 1 := by
  rw [maskLowerPow2, maskNe_zero]
  split
  · simp
  · rw [BitVec.allOnes_and, BitVec.not_neg]; rfl

theorem lane_one {w : Nat} (hw : 0 < w) : (1 : BitVec w).toNat = 1 := by simp; exact hw

theorem pow2_sub_one {w k : Nat} (hk : k < w) (a : BitVec w) (h : a.toNat = 2 ^ k) :
    (maskLowerPow2 a).toNat = 2 ^ k - 1 := by
  have hp := Nat.two_pow_pos k
  rw [maskLowerPow2_eq, if_neg (by rintro rfl; simp at h; omega),
    BitVec.toNat_sub_of_le (by rw [BitVec.le_def, lane_one (by omega)]; omega),
    lane_one (by omega), h]

theorem ones_low {w k : Nat} (hk : k ≤ w) (a : BitVec w) (h : a.toNat = 2 ^ k - 1) : ones a = k := by
  have hb : ∀ i, a.getLsbD i = decide (i < k) := by
    intro i; rw [BitVec.getLsbD, h, Nat.testBit_two_pow_sub_one]
  rw [ones]
  simp only [hb]
  have hr : List.range w = List.range (k + (w - k)) := by rw [Nat.add_sub_cancel' hk]
  rw [hr, List.range_add, List.countP_append]
  have h1 : (List.range k).countP (fun i => decide (i < k)) = k := by
    rw [List.countP_eq_length.2 (by intro i hi; simpa using hi), List.length_range]
  have h2 : ((List.range (w - k)).map (fun i => k + i)).countP (fun i => decide (i < k)) = 0 := by
    rw [List.countP_eq_zero]
    intro i hi
    obtain ⟨j, -, rfl⟩ := List.mem_map.1 hi
    simp
  rw [h1, h2, Nat.add_zero]

theorem neg_allOnes {w : Nat} : -(BitVec.allOnes w) = 1 := by
  rw [← BitVec.neg_one_eq_allOnes, BitVec.neg_neg]; rfl

theorem compareEq_eq {w : Nat} (a b : BitVec w) : compareEq a b = if a = b then 1 else 0 := by
  rw [compareEq, maskEq, lanemask]
  by_cases h : a = b
  · rw [if_pos h, if_pos (by simpa using h), neg_allOnes]
  · rw [if_neg h, if_neg (by simpa using h)]; simp

theorem countLowestUnset_spec (sg : Bool) {w : Nat} (hw : MulWidth w) (a : BitVec w) :
    ∃ r, countLowestUnset sg a = some r ∧ (∀ k, LowestOne a k → r.toNat = k) ∧
      (a = 0 → r.toNat = w) := by
  obtain ⟨c, hc, ho⟩ := countSet_spec sg hw (maskLowerPow2 (lowestSet a))
  refine ⟨c + compareEq a 0 * BitVec.ofNat w w, ?_, ?_, ?_⟩
  · rw [countLowestUnset, hc]; rfl
  · intro k hk
    have h0 : a ≠ 0 := ne_zero_iff.2 ⟨k, hk.2.1⟩
    rw [compareEq_eq, if_neg h0]
    have e : c + 0 * BitVec.ofNat w w = c := by simp
    rw [e, ho]
    apply ones_low (by have := hk.1; omega)
    apply pow2_sub_one hk.1
    rw [lowestSet_eq hk, twoPow_toNat hk.1]
  · rintro rfl
    rw [compareEq_eq, if_pos rfl]
    have hz : maskLowerPow2 (lowestSet (0 : BitVec w)) = 0 := by
      rw [maskLowerPow2_eq, if_pos (by simp [lowestSet])]
    rw [hz] at ho
    have hc0 : c = 0 := by
      apply BitVec.eq_of_toNat_eq
      rw [ho]
      rw [ones_low (k := 0) (Nat.zero_le _) _ (by simp)]
      simp
    rw [hc0]
    have e : (0 : BitVec w) + 1 * BitVec.ofNat w w = BitVec.ofNat w w := by simp
    rw [e, BitVec.toNat_ofNat, Nat.mod_eq_of_lt (Nat.lt_two_pow_self)]

/-! ## Comparing, dividing -/

theorem mask_select {w : Nat} (c : Bool) (a b : BitVec w) :
    (lanemask w c &&& a) ||| andNot (lanemask w c) b = if c then a else b := by
  cases c <;> simp [lanemask, andNot]

theorem neg_lanemask {w : Nat} (c : Bool) : -(lanemask w c) = if c then 1 else 0 := by
  cases c
  · simp [lanemask]
  · rw [lanemask, if_pos rfl, if_pos rfl, neg_allOnes]

theorem lt_iff (sg : Bool) {w : Nat} (a b : BitVec w) :
    (if sg then a.slt b else a.ult b) = decide (num sg a < num sg b) := by
  cases sg
  · simp [num, BitVec.ult]
  · simp [num, BitVec.slt]

theorem le_iff (sg : Bool) {w : Nat} (a b : BitVec w) :
    (if sg then a.sle b else a.ule b) = decide (num sg a ≤ num sg b) := by
  cases sg
  · simp [num, BitVec.ule]
  · simp [num, BitVec.sle]

end Verif.SimdLane
