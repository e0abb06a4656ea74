import Verif.SimdLane
import Verif.SimdLaneSpec
import Verif.SimdShuffleProps
import Verif.BitTricksLemmas

namespace Verif.SimdLane
open Spec

theorem bit_lt {w : Nat} {a : BitVec w} {i : Nat} (h : bit a i) : i < w := by
  rcases Nat.lt_or_ge i w with h' | h'
  · exact h'
  · simp [bit, BitVec.getLsbD_of_ge _ _ h'] at h

theorem eq_of_bits {w : Nat} {a b : BitVec w} (h : ∀ i < w, bit a i ↔ bit b i) : a = b := by
  apply BitVec.eq_of_getLsbD_eq; intro i hi
  have := h i hi; simp only [bit] at this
  cases hx : a.getLsbD i <;> cases hy : b.getLsbD i <;> simp_all

theorem ne_zero_iff {w : Nat} {a : BitVec w} : a ≠ 0 ↔ ∃ i, bit a i := by
  constructor
  · intro h
    by_cases he : ∃ i, bit a i
    · exact he
    · exfalso; apply h; apply eq_of_bits; intro i _
      simp only [bit]; constructor
      · intro hb; exact absurd ⟨i, hb⟩ he
      · simp
  · rintro ⟨i, hb⟩ rfl; simp [bit] at hb

theorem exists_lowest {w : Nat} {a : BitVec w} (h : a ≠ 0) : ∃ k, LowestOne a k := by
  obtain ⟨i, hi⟩ := ne_zero_iff.1 h
  induction i using Nat.strongRecOn with
  | ind i ih =>
    by_cases hl : ∃ j < i, bit a j
    · obtain ⟨j, hj, hb⟩ := hl; exact ih j hj hb
    · exact ⟨i, bit_lt hi, hi, fun j hj hb => hl ⟨j, hj, hb⟩⟩

theorem exists_highest {w : Nat} {a : BitVec w} (h : a ≠ 0) : ∃ k, HighestOne a k := by
  obtain ⟨i, hi⟩ := ne_zero_iff.1 h
  generalize hn : w - i = n
  induction n using Nat.strongRecOn generalizing i with
  | ind n ih =>
    by_cases hl : ∃ j > i, bit a j
    · obtain ⟨j, hj, hb⟩ := hl; have := bit_lt hb; exact ih (w - j) (by omega) j hb rfl
    · exact ⟨i, bit_lt hi, hi, fun j hj hb => hl ⟨j, hj, hb⟩⟩

theorem bit_twoPow {w k : Nat} (i : Nat) (hk : k < w) : bit (BitVec.twoPow w k) i ↔ i = k := by
  simp [bit, BitVec.getLsbD_twoPow, hk]; omega

theorem twoPow_toNat {w k : Nat} (hk : k < w) : (BitVec.twoPow w k).toNat = 2 ^ k := by
  rw [BitVec.toNat_twoPow, Nat.mod_eq_of_lt (Nat.pow_lt_pow_right (by omega) hk)]

theorem bit_lowestSet {w : Nat} (a : BitVec w) (i : Nat) :
    bit (lowestSet a) i ↔ bit a i ∧ ∀ j < i, ¬ bit a j := by
  by_cases hi : i < w
  · simp only [bit, lowestSet, BitVec.getLsbD_and, BitVec.getLsbD_neg, hi]
    by_cases hx : a.getLsbD i <;> simp [hx]
  · simp [bit, BitVec.getLsbD_of_ge _ _ (Nat.le_of_not_lt hi)]

theorem lowestUnset_eq {w : Nat} (a : BitVec w) : lowestUnset a = lowestSet (~~~a) := by
  simp only [lowestUnset, lowestSet, BitVec.neg_eq_not_add, BitVec.not_not]; rfl

theorem lowestSet_eq {w : Nat} {a : BitVec w} {k} (h : LowestOne a k) :
    lowestSet a = BitVec.twoPow w k := by
  apply eq_of_bits; intro i _
  rw [bit_lowestSet, bit_twoPow i h.1]
  constructor
  · rintro ⟨h1, h2⟩
    rcases Nat.lt_trichotomy i k with hi | hi | hi
    · exact absurd h1 (h.2.2 i hi)
    · exact hi
    · exact absurd h.2.1 (h2 k hi)
  · rintro rfl; exact h.2

theorem highest_bounds {w : Nat} {a : BitVec w} {k} (h : HighestOne a k) :
    2 ^ k ≤ a.toNat ∧ a.toNat < 2 ^ (k + 1) := by
  constructor
  · exact Nat.ge_two_pow_of_testBit (by have := h.2.1; simpa [bit, BitVec.getLsbD] using this)
  · apply Nat.lt_pow_two_of_testBit
    intro i hi
    have := h.2.2 i (by omega)
    simpa [bit, BitVec.getLsbD] using this

/-! ## The mask -/

/-- The bits of `y` are those of `x` smeared down over `m` positions. -/
def Smear {w : Nat} (x : BitVec w) (m : Nat) (y : BitVec w) : Prop :=
  ∀ i, bit y i ↔ ∃ d < m, bit x (i + d)

theorem smear_self {w : Nat} (x : BitVec w) : Smear x 1 x := by
  intro i; constructor
  · intro h; exact ⟨0, by omega, h⟩
  · rintro ⟨d, hd, h⟩; rwa [show i + d = i by omega] at h

theorem smear_step {w : Nat} {x y : BitVec w} {m s : Nat} (h : Smear x m y) (hs : s ≤ m) :
    Smear x (m + s) (y ||| y >>> s) := by
  intro i
  have : bit (y ||| y >>> s) i ↔ bit y i ∨ bit y (s + i) := by simp [bit]
  rw [this, h i, h (s + i)]
  constructor
  · rintro (⟨d, hd, hb⟩ | ⟨d, hd, hb⟩)
    · exact ⟨d, by omega, hb⟩
    · exact ⟨s + d, by omega, by rwa [show i + (s + d) = s + i + d by omega]⟩
  · rintro ⟨d, hd, hb⟩
    rcases Nat.lt_or_ge d m with h | h
    · exact Or.inl ⟨d, h, hb⟩
    · exact Or.inr ⟨d - s, by omega, by rwa [show s + i + (d - s) = i + d by omega]⟩

theorem mask8 (a : BitVec 8) : Smear a 8 (mask a) :=
  smear_step (smear_step (smear_step (smear_self a) (by decide)) (by decide)) (by decide)

theorem mask16 (a : BitVec 16) : Smear a 16 (mask a) :=
  smear_step (smear_step (smear_step (smear_step (smear_self a) (by decide)) (by decide))
    (by decide)) (by decide)

theorem mask32 (a : BitVec 32) : Smear a 32 (mask a) :=
  smear_step (smear_step (smear_step (smear_step (smear_step (smear_self a) (by decide))
    (by decide)) (by decide)) (by decide)) (by decide)

theorem mask64 (a : BitVec 64) : Smear a 48 (mask a) :=
  smear_step (smear_step (smear_step (smear_step (smear_step (smear_step (smear_self a) (by decide))
    (by decide)) (by decide)) (by decide)) (by decide)) (by decide)

theorem isMask_of_smear {w : Nat} {a r : BitVec w} (h : Smear a w r) : IsMask a r := by
  intro i _
  rw [h i]
  constructor
  · rintro ⟨d, -, hb⟩; exact ⟨i + d, by omega, hb⟩
  · rintro ⟨j, hj, hb⟩
    have := bit_lt hb
    exact ⟨j - i, by omega, by rwa [show i + (j - i) = j by omega]⟩

theorem isMask_unique {w : Nat} {a r s : BitVec w} (h1 : IsMask a r) (h2 : IsMask a s) : r = s :=
  eq_of_bits fun i hi => (h1 i hi).trans (h2 i hi).symm

theorem isMask_64 (a : BitVec 64) : IsMask a (mask a) ↔ ¬ LongGap a := by
  constructor
  · rintro h ⟨i, ⟨j, hj, hb⟩, hg⟩
    have := bit_lt hb
    obtain ⟨d, hd, hb'⟩ := (mask64 a i).1 ((h i (by omega)).2 ⟨j, hj, hb⟩)
    exact hg d hd hb'
  · intro h i _
    rw [mask64 a i]
    constructor
    · rintro ⟨d, -, hb⟩; exact ⟨i + d, by omega, hb⟩
    · rintro ⟨j, hj, hb⟩
      apply Classical.byContradiction
      intro hc
      exact h ⟨i, ⟨j, hj, hb⟩, fun d hd hb => hc ⟨d, hd, hb⟩⟩

/-- The real mask of a lane. -/
theorem isMask_toNat {w : Nat} {a r : BitVec w} (h : IsMask a r) {k} (hk : HighestOne a k) :
    r.toNat = 2 ^ (k + 1) - 1 := by
  have hkw := hk.1
  have : r = BitVec.ofNat w (2 ^ (k + 1) - 1) := by
    apply eq_of_bits; intro i hi
    rw [h i hi]
    simp only [bit, BitVec.getLsbD_ofNat, Nat.testBit_two_pow_sub_one, Bool.and_eq_true,
      decide_eq_true_eq]
    constructor
    · rintro ⟨j, hj, hb⟩
      have : ¬ j > k := fun hj => hk.2.2 j hj hb
      omega
    · rintro ⟨_, hi⟩; exact ⟨k, by omega, hk.2.1⟩
  rw [this, BitVec.toNat_ofNat, Nat.mod_eq_of_lt]
  have := Nat.pow_le_pow_right (n := 2) (by omega) (show k + 1 ≤ w by omega)
  have := Nat.two_pow_pos (k + 1)
  omega

theorem isMask_exists {w : Nat} (a : BitVec w) : ∃ r : BitVec w, IsMask a r := by
  by_cases h : a = 0
  · subst h
    refine ⟨0, fun i hi => ?_⟩
    simp [bit]
  · obtain ⟨k, hk⟩ := exists_highest h
    refine ⟨BitVec.ofNat w (2 ^ (k + 1) - 1), fun i hi => ?_⟩
    simp only [bit, BitVec.getLsbD_ofNat, Nat.testBit_two_pow_sub_one, Bool.and_eq_true,
      decide_eq_true_eq]
    constructor
    · rintro ⟨_, hi⟩; exact ⟨k, by omega, hk.2.1⟩
    · rintro ⟨j, hj, hb⟩
      have : ¬ j > k := fun hj => hk.2.2 j hj hb
      omega

theorem isMask_zero {w : Nat} {r : BitVec w} (h : IsMask 0 r) : r = 0 :=
  isMask_unique h fun i _ => by simp [bit]

/-- `m ^ (m >> 1)` determines `m`. -/
theorem gray_injective {w : Nat} {m n : BitVec w} (h : m ^^^ m >>> 1 = n ^^^ n >>> 1) : m = n := by
  have key : ∀ d i, w ≤ i + d → m.getLsbD i = n.getLsbD i := by
    intro d
    induction d with
    | zero => intro i hi; rw [BitVec.getLsbD_of_ge _ _ (by omega), BitVec.getLsbD_of_ge _ _ (by omega)]
    | succ d ih =>
      intro i hi
      have h1 := ih (1 + i) (by omega)
      have h2 := congrArg (fun x => BitVec.getLsbD x i) h
      simp only [BitVec.getLsbD_xor, BitVec.getLsbD_ushiftRight, h1] at h2
      revert h2
      cases m.getLsbD i <;> cases n.getLsbD i <;> cases n.getLsbD (1 + i) <;> simp
  exact BitVec.eq_of_getLsbD_eq fun i _ => key w i (by omega)

/-- `m ^ (m >> 1)` of a mask is its highest bit. -/
theorem gray_mask {w : Nat} {a m : BitVec w} (h : IsMask a m) : IsHighest a (m ^^^ m >>> 1) := by
  constructor
  · intro k hk
    rw [← twoPow_toNat hk.1]
    congr 1
    apply eq_of_bits
    intro i hi
    rw [bit_twoPow i hk.1]
    have h1 := h i hi
    have hb : ∀ i, bit m i ↔ i ≤ k := by
      intro i
      constructor
      · intro hb
        obtain ⟨j, hj, hb⟩ := (h i (bit_lt hb)).1 hb
        have : ¬ j > k := fun hj => hk.2.2 j hj hb
        omega
      · intro hi; have := hk.1; exact (h i (by omega)).2 ⟨k, hi, hk.2.1⟩
    have hx : bit (m ^^^ m >>> 1) i ↔ (bit m i ↔ ¬ bit m (1 + i)) := by
      simp only [bit, BitVec.getLsbD_xor, BitVec.getLsbD_ushiftRight]
      cases m.getLsbD i <;> cases m.getLsbD (1 + i) <;> simp
    rw [hx, hb, hb]
    omega
  · rintro rfl
    rw [isMask_zero h]
    simp

theorem isHighest_unique {w : Nat} {a r s : BitVec w} (h1 : IsHighest a r) (h2 : IsHighest a s) :
    r = s := by
  by_cases h : a = 0
  · rw [h1.2 h, h2.2 h]
  · obtain ⟨k, hk⟩ := exists_highest h
    exact BitVec.eq_of_toNat_eq (by rw [h1.1 k hk, h2.1 k hk])

theorem highestSet_iff {w : Nat} (a : BitVec w) : IsHighest a (highestSet a) ↔ IsMask a (mask a) := by
  obtain ⟨m, hm⟩ := isMask_exists a
  constructor
  · intro h
    have := gray_injective (isHighest_unique h (gray_mask hm))
    rwa [this]
  · exact gray_mask

theorem full_eq {w : Nat} (hw : Width w) :
    BitVec.ofNat w (0xffffffffffffffff >>> (64 - w)) = BitVec.allOnes w := by
  rcases hw with rfl | rfl | rfl | rfl <;> decide

theorem maskHighestUnset_iff {w : Nat} (hw : Width w) (a : BitVec w) :
    IsUnsetMask a (maskHighestUnset a) ↔ IsMask a (mask a) := by
  have : ∀ i, i < w → (bit (maskHighestUnset a) i ↔ ¬ bit (mask a) i) := by
    intro i hi
    rw [maskHighestUnset, full_eq hw]
    simp only [bit, BitVec.getLsbD_xor, BitVec.getLsbD_allOnes, hi, decide_true]
    cases (mask a).getLsbD i <;> simp
  constructor
  · intro h i hi
    have h1 := h i hi
    rw [this i hi] at h1
    constructor
    · intro hb
      apply Classical.byContradiction
      intro hc
      exact h1.2 (fun j hj hb' => hc ⟨j, hj, hb'⟩) hb
    · rintro ⟨j, hj, hb⟩
      apply Classical.byContradiction
      intro hc
      exact h1.1 hc j hj hb
  · intro h i hi
    rw [this i hi, h i hi]
    simp

/-- Adding one to the mask of `a - 1`. -/
theorem isMask_nextPow2 {w : Nat} {a m : BitVec w} (hm : IsMask (a - 1) m) (h1 : 1 ≤ a.toNat)
    (h2 : a.toNat ≤ 2 ^ (w - 1)) : IsNextPow2 a (m + 1) := by
  have hw : 0 < w := by
    rcases Nat.eq_zero_or_pos w with rfl | h
    · have := a.isLt; omega
    · exact h
  have hpow : 2 ^ w = 2 * 2 ^ (w - 1) := by
    rw [← Nat.pow_succ', Nat.succ_eq_add_one, show w - 1 + 1 = w by omega]
  have hone : (1 : BitVec w).toNat = 1 := by
    have := Nat.two_pow_pos (w - 1)
    simp; exact hw
  have ha : (a - 1).toNat = a.toNat - 1 := by
    rw [BitVec.toNat_sub_of_le (by rw [BitVec.le_def, hone]; exact h1), hone]
  by_cases h0 : a - 1 = 0
  · rw [h0] at hm
    have hz : a.toNat = 1 := by rw [h0] at ha; simp at ha; omega
    rw [isMask_zero hm]
    have : ((0 : BitVec w) + 1).toNat = 1 := by
      rw [show (0 : BitVec w) + 1 = 1 by simp, hone]
    refine ⟨⟨0, this⟩, by omega, fun k _ => ?_⟩
    have := Nat.two_pow_pos k
    omega
  · obtain ⟨k, hk⟩ := exists_highest h0
    have hb := highest_bounds hk
    have ht := isMask_toNat hm hk
    have hkw : k + 1 < w := by
      have : 2 ^ k < 2 ^ (w - 1) := by omega
      have := (Nat.pow_lt_pow_iff_right (show 1 < 2 by decide)).1 this
      omega
    have hlt : 2 ^ (k + 1) < 2 ^ w := (Nat.pow_lt_pow_iff_right (by decide)).2 hkw
    have hp := Nat.two_pow_pos (k + 1)
    have hr : (m + 1).toNat = 2 ^ (k + 1) := by
      rw [BitVec.toNat_add, hone, ht, Nat.sub_add_cancel hp, Nat.mod_eq_of_lt hlt]
    refine ⟨⟨k + 1, hr⟩, by omega, fun l hl => ?_⟩
    rw [hr]
    apply Nat.pow_le_pow_right (by decide)
    have : 2 ^ k < 2 ^ l := by omega
    have := (Nat.pow_lt_pow_iff_right (show 1 < 2 by decide)).1 this
    omega

theorem isNextPow2_unique {w : Nat} {a r s : BitVec w} (h1 : IsNextPow2 a r) (h2 : IsNextPow2 a s) :
    r = s := by
  apply BitVec.eq_of_toNat_eq
  obtain ⟨⟨k, hk⟩, ha, hl⟩ := h1
  obtain ⟨⟨k', hk'⟩, ha', hl'⟩ := h2
  have := hl k' (hk' ▸ ha')
  have := hl' k (hk ▸ ha)
  omega

theorem nextPow2_iff {w : Nat} {a : BitVec w} (h1 : 1 ≤ a.toNat) (h2 : a.toNat ≤ 2 ^ (w - 1)) :
    IsNextPow2 a (nextPow2 a) ↔ IsMask (a - 1) (mask (a - 1)) := by
  obtain ⟨m, hm⟩ := isMask_exists (a - 1)
  constructor
  · intro h
    have := isNextPow2_unique h (isMask_nextPow2 hm h1 h2)
    rw [nextPow2, BitVec.add_left_inj] at this
    rwa [this]
  · intro h; exact isMask_nextPow2 h h1 h2

/-! ## Rotating -/

theorem width_pow {w : Nat} (hw : Width w) : ∃ k, w = 2 ^ k ∧ 3 ≤ k ∧ k ≤ 6 := by
  rcases hw with rfl | rfl | rfl | rfl
  · exact ⟨3, rfl, by omega, by omega⟩
  · exact ⟨4, rfl, by omega, by omega⟩
  · exact ⟨5, rfl, by omega, by omega⟩
  · exact ⟨6, rfl, by omega, by omega⟩

theorem and_width {w v : Nat} (hw : Width w) (hv : 8 ≤ v) (b : BitVec v) :
    (b &&& BitVec.ofNat v (w - 1)).toNat = b.toNat % w := by
  obtain ⟨k, rfl, hk, hk6⟩ := width_pow hw
  have h1 : 2 ^ k ≤ 2 ^ 6 := Nat.pow_le_pow_right (by decide) hk6
  have h2 : 2 ^ 8 ≤ 2 ^ v := Nat.pow_le_pow_right (by decide) hv
  rw [BitVec.toNat_and, BitVec.toNat_ofNat, Nat.mod_eq_of_lt (by omega), Nat.and_two_pow_sub_one_eq_mod]

theorem dvd_width {w v : Nat} (hw : Width w) (hv : 8 ≤ v) : w ∣ 2 ^ v := by
  obtain ⟨k, rfl, hk, hk6⟩ := width_pow hw
  exact Nat.pow_dvd_pow 2 (by omega)

theorem neg_and_width {w v : Nat} (hw : Width w) (hv : 8 ≤ v) (b : BitVec v) :
    (-b &&& BitVec.ofNat v (w - 1)).toNat = (w - b.toNat % w) % w := by
  rw [and_width hw hv, BitVec.toNat_neg, Nat.mod_mod_of_dvd _ (dvd_width hw hv)]
  have hw0 : 0 < w := by rcases hw with rfl | rfl | rfl | rfl <;> decide
  obtain ⟨c, hc⟩ := dvd_width hw hv
  have hlt := b.isLt
  have hd := Nat.div_add_mod b.toNat w
  have hm := Nat.mod_lt b.toNat hw0
  have hq : b.toNat / w < c := by
    apply Nat.div_lt_of_lt_mul
    omega
  obtain ⟨e, he⟩ : ∃ e, c = b.toNat / w + 1 + e := ⟨c - (b.toNat / w + 1), by omega⟩
  have : 2 ^ v - b.toNat = (w - b.toNat % w) + w * e := by
    have h3 : w * c = w * (b.toNat / w) + w + w * e := by
      rw [he, Nat.mul_add, Nat.mul_add, Nat.mul_one]
    omega
  rw [this, Nat.add_mul_mod_self_left]

theorem setWidth8_toInt {w : Nat} (hw : 8 ≤ w) (b : BitVec w) (h : b.toNat < 64) :
    (b.setWidth 8).toInt = b.toNat := by
  rw [BitVec.toInt_eq_toNat_cond, BitVec.toNat_setWidth, Nat.mod_eq_of_lt (by omega), if_pos (by omega)]

theorem setWidth8_neg_toInt {w : Nat} (hw : 8 ≤ w) (b : BitVec w) (h : b.toNat < 64) :
    ((-b).setWidth 8).toInt = -(b.toNat : Int) := by
  have e : (-b).setWidth 8 = -(b.setWidth 8) := by
    apply BitVec.eq_of_toNat_eq
    rw [BitVec.toNat_setWidth, BitVec.toNat_neg, BitVec.toNat_neg, BitVec.toNat_setWidth,
      Nat.mod_mod_of_dvd _ (Nat.pow_dvd_pow 2 hw), Nat.mod_eq_of_lt (show b.toNat < 2 ^ 8 by omega)]
    obtain ⟨c, hc⟩ := Nat.pow_dvd_pow 2 hw
    have : 0 < 2 ^ w := Nat.two_pow_pos w
    have hc0 : 1 ≤ c := by
      rcases Nat.eq_zero_or_pos c with h | h
      · subst h; omega
      · exact h
    obtain ⟨d, rfl⟩ : ∃ d, c = 1 + d := ⟨c - 1, by omega⟩
    have : 2 ^ w - b.toNat = (2 ^ 8 - b.toNat) + 2 ^ 8 * d := by omega
    rw [this, Nat.add_mul_mod_self_left]
  rw [e, BitVec.toInt_neg, setWidth8_toInt hw b h, Int.bmod_def]
  split <;> omega

theorem shiftLeft_eq {sg : Bool} {w : Nat} (hw : 8 ≤ w) (a b : BitVec w) (h : b.toNat < 64) :
    shiftLeft sg a b = a <<< b.toNat := by
  rw [shiftLeft, vshl]
  rw [setWidth8_toInt hw b h, if_pos (by omega)]
  rfl

/-- Shifting right as the lane type does. -/
def shr (sg : Bool) {w : Nat} (a : BitVec w) (n : Nat) : BitVec w :=
  if sg then a.sshiftRight n else a >>> n

theorem shiftRight_eq {sg : Bool} {w : Nat} (hw : 8 ≤ w) (a b : BitVec w) (h : b.toNat < 64) :
    shiftRight sg a b = shr sg a b.toNat := by
  rw [shiftRight, vshl]
  rw [setWidth8_neg_toInt hw b h]
  split
  · have : b.toNat = 0 := by omega
    rw [this, shr]
    cases sg <;> simp
  · rw [shr, Int.neg_neg]
    rfl

theorem width_le {w : Nat} (hw : Width w) : 8 ≤ w ∧ w ≤ 64 := by
  rcases hw with rfl | rfl | rfl | rfl <;> decide

theorem rotateLeft_eq {sg : Bool} {w : Nat} (hw : Width w) (a b : BitVec w) :
    rotateLeft sg a b = (a <<< (b.toNat % w)) ||| shr sg a ((w - b.toNat % w) % w) := by
  obtain ⟨h8, h64⟩ := width_le hw
  have h1 := Nat.mod_lt b.toNat (show w > 0 by omega)
  have h2 := Nat.mod_lt (w - b.toNat % w) (show w > 0 by omega)
  have e1 := and_width hw h8 b
  have e2 := neg_and_width hw h8 b
  rw [rotateLeft]
  rw [shiftLeft_eq h8 _ _ (by omega), shiftRight_eq h8 _ _ (by omega), e1, e2]

theorem rotateRight_eq {sg : Bool} {w : Nat} (hw : Width w) (a b : BitVec w) :
    rotateRight sg a b = shr sg a (b.toNat % w) ||| (a <<< ((w - b.toNat % w) % w)) := by
  obtain ⟨h8, h64⟩ := width_le hw
  have h1 := Nat.mod_lt b.toNat (show w > 0 by omega)
  have h2 := Nat.mod_lt (w - b.toNat % w) (show w > 0 by omega)
  have e1 := and_width hw h8 b
  have e2 := neg_and_width hw h8 b
  rw [rotateRight]
  rw [shiftLeft_eq h8 _ _ (by omega), shiftRight_eq h8 _ _ (by omega), e1, e2]

theorem rotateLeftN_eq {sg : Bool} {w : Nat} (hw : Width w) (a : BitVec w) (n : BitVec 8) :
    rotateLeftN sg a n = some ((a <<< (n.toNat % w)) ||| shr sg a ((w - n.toNat % w) % w)) := by
  obtain ⟨h8, h64⟩ := width_le hw
  have h1 := Nat.mod_lt n.toNat (show w > 0 by omega)
  have h2 := Nat.mod_lt (w - n.toNat % w) (show w > 0 by omega)
  have hn : (n.setWidth 32).toNat = n.toNat := by
    have := n.isLt
    rw [BitVec.toNat_setWidth, Nat.mod_eq_of_lt (by omega)]
  have e1 := and_width hw (show 8 ≤ 32 by decide) (n.setWidth 32)
  have e2 := neg_and_width hw (show 8 ≤ 32 by decide) (n.setWidth 32)
  rw [hn] at e1 e2
  rw [rotateLeftN]
  rw [e1, e2, shiftLeftN, if_pos h1, shiftRightN, if_pos h2]
  rfl

theorem rotateRightN_eq {sg : Bool} {w : Nat} (hw : Width w) (a : BitVec w) (n : BitVec 8) :
    rotateRightN sg a n = some (shr sg a (n.toNat % w) ||| (a <<< ((w - n.toNat % w) % w))) := by
  obtain ⟨h8, h64⟩ := width_le hw
  have h1 := Nat.mod_lt n.toNat (show w > 0 by omega)
  have h2 := Nat.mod_lt (w - n.toNat % w) (show w > 0 by omega)
  have hn : (n.setWidth 32).toNat = n.toNat := by
    have := n.isLt
    rw [BitVec.toNat_setWidth, Nat.mod_eq_of_lt (by omega)]
  have e1 := and_width hw (show 8 ≤ 32 by decide) (n.setWidth 32)
  have e2 := neg_and_width hw (show 8 ≤ 32 by decide) (n.setWidth 32)
  rw [hn] at e1 e2
  rw [rotateRightN]
  rw [e1, e2, shiftLeftN, if_pos h2, shiftRightN, if_pos h1]
  rfl

/-- The bits of the two shifts of a rotation together. -/
theorem rot_bits (sg : Bool) {w m : Nat} (hm : 0 < m) (hmw : m < w) (a : BitVec w) (i : Nat)
    (hi : i < w) :
    ((a <<< m) ||| shr sg a (w - m)).getLsbD i =
      if i < m then a.getLsbD (i + (w - m)) else (a.getLsbD (i - m) || (sg && a.msb)) := by
  have hs : (shr sg a (w - m)).getLsbD i = if i < m then a.getLsbD (i + (w - m)) else (sg && a.msb) := by
    cases sg with
    | false =>
      rw [shr, if_neg (by simp), BitVec.getLsbD_ushiftRight]
      split
      · rw [Nat.add_comm]
      · rw [BitVec.getLsbD_of_ge _ _ (by omega)]; rfl
    | true =>
      rw [shr, if_pos rfl, BitVec.getLsbD_sshiftRight]
      simp only [show ¬ w ≤ i by omega, decide_false, Bool.not_false, Bool.true_and]
      split
      · rw [if_pos (by omega), Nat.add_comm]
      · rw [if_neg (by omega)]
  rw [BitVec.getLsbD_or, hs, BitVec.getLsbD_shiftLeft]
  split
  · rename_i h; simp [h]
  · rename_i h; simp [h, hi]

/-- When the two shifts of a rotation by `m` bits give the rotation. -/
theorem rot_iff (sg : Bool) {w m : Nat} (hmw : m < w) (a : BitVec w) :
    (∀ i < w, ((a <<< m) ||| shr sg a ((w - m) % w)).getLsbD ((i + m) % w) = a.getLsbD i) ↔
      (sg = false ∨ a.msb = false ∨ m = 0 ∨ ∀ i < w - m, bit a i) := by
  rcases Nat.eq_zero_or_pos m with rfl | hm
  · simp only [Nat.sub_zero, Nat.mod_self, Nat.add_zero, true_or, or_true, iff_true]
    intro i hi
    rw [Nat.mod_eq_of_lt hi, shr]
    cases sg <;> simp
  · rw [Nat.mod_eq_of_lt (show w - m < w by omega)]
    have hpt : ∀ i, i < w → (((a <<< m) ||| shr sg a (w - m)).getLsbD ((i + m) % w) = a.getLsbD i ↔
        (w - m ≤ i ∨ (sg && a.msb) = false ∨ bit a i)) := by
      intro i hi
      rcases Nat.lt_or_ge i (w - m) with h | h
      · rw [Nat.mod_eq_of_lt (by omega), rot_bits sg hm hmw a _ (by omega), if_neg (by omega),
          Nat.add_sub_cancel]
        simp only [show ¬ w - m ≤ i by omega, false_or, bit]
        cases a.getLsbD i <;> cases (sg && a.msb) <;> simp
      · have : (i + m) % w = i + m - w := by
          rw [Nat.mod_eq_sub_mod (by omega), Nat.mod_eq_of_lt (by omega)]
        rw [this, rot_bits sg hm hmw a _ (by omega), if_pos (by omega),
          show i + m - w + (w - m) = i by omega]
        simp [h]
    constructor
    · intro h
      cases hs : sg with
      | false => exact Or.inl rfl
      | true =>
        cases hmsb : a.msb with
        | false => exact Or.inr (Or.inl rfl)
        | true =>
          refine Or.inr (Or.inr (Or.inr fun i hi => ?_))
          have := (hpt i (by omega)).1 (h i (by omega))
          simp only [hs, hmsb, Bool.and_self, show ¬ w - m ≤ i by omega, false_or] at this
          simpa using this
    · rintro h i hi
      rw [hpt i hi]
      rcases h with h | h | h | h
      · simp [h]
      · simp [h]
      · omega
      · rcases Nat.lt_or_ge i (w - m) with h' | h'
        · exact Or.inr (Or.inr (h i h'))
        · exact Or.inl h'

theorem rotl_mod {w : Nat} (hw : 0 < w) (a : BitVec w) (n : Nat) (r : BitVec w) :
    IsRotl a n r ↔ ∀ i < w, r.getLsbD ((i + n % w) % w) = a.getLsbD i := by
  simp only [IsRotl, Nat.add_mod_mod]

/-- Rotating right by `n` is rotating left by the rest. -/
theorem rotr_iff {w : Nat} (hw : 0 < w) (a : BitVec w) (n : Nat) (r : BitVec w) :
    IsRotr a n r ↔ ∀ i < w, r.getLsbD ((i + (w - n % w) % w) % w) = a.getLsbD i := by
  have hn := Nat.mod_lt n hw
  constructor
  · intro h i hi
    rw [h _ (Nat.mod_lt _ hw)]
    congr 1
    rw [Nat.add_mod_mod, Nat.mod_add_mod, ← Nat.add_mod_mod _ n w, Nat.add_assoc,
      Nat.sub_add_cancel (by omega), Nat.add_mod_right, Nat.mod_eq_of_lt hi]
  · intro h i hi
    have := h ((i + n) % w) (Nat.mod_lt _ hw)
    rw [← this]
    have e : ((i + n) % w + (w - n % w) % w) % w = i := by
      rw [Nat.add_mod_mod, ← Nat.add_mod_mod i n w, Nat.mod_add_mod, Nat.add_assoc,
        Nat.add_sub_cancel' (by omega), Nat.add_mod_right, Nat.mod_eq_of_lt hi]
    rw [e]

end Verif.SimdLane
