import Verif.BitTricksSpec
namespace Verif.BitTricks
open Spec

theorem bit_lowestSet (x : U64) (i : Nat) : bit (lowestSet x) i ↔ bit x i ∧ ∀ j < i, ¬ bit x j := by
  by_cases hi : i < 64
  · simp only [bit, lowestSet, BitVec.getLsbD_and, BitVec.getLsbD_neg, hi]
    by_cases hx : x.getLsbD i <;> simp [hx]
  · simp [bit, BitVec.getLsbD_of_ge _ _ (Nat.le_of_not_lt hi)]

theorem lowestUnset_eq (x : U64) : lowestUnset x = lowestSet (~~~x) := by
  simp only [lowestUnset, lowestSet, BitVec.neg_eq_not_add, BitVec.not_not]; rfl

theorem mask_step {x y : U64} {m : Nat} (h : ∀ i, bit y i ↔ ∃ d < m, bit x (i + d)) :
    ∀ i, bit (y ||| y >>> m) i ↔ ∃ d < 2 * m, bit x (i + d) := by
  intro i
  have : bit (y ||| y >>> m) i ↔ bit y i ∨ bit y (m + i) := by simp [bit]
  rw [this, h i, h (m + i)]
  constructor
  · rintro (⟨d, hd, hb⟩ | ⟨d, hd, hb⟩)
    · exact ⟨d, by omega, hb⟩
    · exact ⟨m + d, by omega, by rwa [show i + (m + d) = m + i + d by omega]⟩
  · rintro ⟨d, hd, hb⟩
    rcases Nat.lt_or_ge d m with h | h
    · exact Or.inl ⟨d, h, hb⟩
    · exact Or.inr ⟨d - m, by omega, by rwa [show m + i + (d - m) = i + d by omega]⟩

theorem bit_lt {x : U64} {i} (h : bit x i) : i < 64 := by
  rcases Nat.lt_or_ge i 64 with h' | h'
  · exact h'
  · simp [bit, BitVec.getLsbD_of_ge _ _ h'] at h

theorem bit_mask (x : U64) (i : Nat) : bit (maskForValue x) i ↔ ∃ j ≥ i, bit x j := by
  have h0 : ∀ i, bit x i ↔ ∃ d < 1, bit x (i + d) := by
    intro i; constructor
    · intro h; exact ⟨0, by omega, h⟩
    · rintro ⟨d, hd, h⟩; rwa [show i + d = i by omega] at h
  have h := mask_step (mask_step (mask_step (mask_step (mask_step (mask_step h0))))) i
  rw [show maskForValue x = _ from rfl]
  refine Iff.trans h ?_
  constructor
  · rintro ⟨d, hd, h⟩; exact ⟨i + d, by omega, h⟩
  · rintro ⟨j, hj, h⟩; have := bit_lt h; exact ⟨j - i, by omega, by rwa [show i + (j - i) = j by omega]⟩

theorem bit_highestSet (x : U64) (i : Nat) : bit (highestSet x) i ↔ bit x i ∧ ∀ j > i, ¬ bit x j := by
  have h1 := bit_mask x i
  have h2 := bit_mask x (1 + i)
  have : bit (highestSet x) i ↔ (bit (maskForValue x) i ↔ ¬ bit (maskForValue x) (1 + i)) := by
    simp only [bit, highestSet, BitVec.getLsbD_xor, BitVec.getLsbD_ushiftRight]
    cases (maskForValue x).getLsbD i <;> cases (maskForValue x).getLsbD (1 + i) <;> simp
  rw [this, h1, h2]
  constructor
  · intro h
    by_cases hx : bit x i
    · exact ⟨hx, fun j hj hb => h.1 ⟨i, Nat.le_refl _, hx⟩ ⟨j, by omega, hb⟩⟩
    · exfalso
      have : ¬ ∃ j, j ≥ 1 + i ∧ bit x j := by
        rintro ⟨j, hj, hb⟩; exact (h.1 ⟨j, by omega, hb⟩) ⟨j, hj, hb⟩
      obtain ⟨j, hj, hb⟩ := h.2 this
      rcases Nat.eq_or_lt_of_le hj with rfl | hj
      · exact hx hb
      · exact this ⟨j, by omega, hb⟩
  · rintro ⟨h1, h2⟩
    exact ⟨fun _ ⟨j, hj, hb⟩ => h2 j (by omega) hb, fun _ => ⟨i, Nat.le_refl _, h1⟩⟩

theorem eq_of_bits {x y : U64} (h : ∀ i, bit x i ↔ bit y i) : x = y := by
  apply BitVec.eq_of_getLsbD_eq; intro i hi
  have := h i; simp only [bit] at this
  cases hx : x.getLsbD i <;> cases hy : y.getLsbD i <;> simp_all

theorem bit_twoPow (k i : Nat) (hk : k < 64) : bit (BitVec.twoPow 64 k) i ↔ i = k := by
  simp [bit, BitVec.getLsbD_twoPow, hk]; omega

theorem twoPow_toNat {k : Nat} (hk : k < 64) : (BitVec.twoPow 64 k).toNat = 2 ^ k := by
  rw [BitVec.toNat_twoPow, Nat.mod_eq_of_lt (Nat.pow_lt_pow_right (by omega) hk)]

theorem ne_zero_iff {x : U64} : x ≠ 0 ↔ ∃ i, bit x i := by
  constructor
  · intro h
    by_cases he : ∃ i, bit x i
    · exact he
    · exfalso; apply h; apply eq_of_bits; intro i
      simp only [bit]; constructor
      · intro hb; exact absurd ⟨i, hb⟩ he
      · simp
  · rintro ⟨i, hb⟩ rfl; simp [bit] at hb

theorem exists_lowest {x : U64} (h : x ≠ 0) : ∃ k, LowestOne x k := by
  obtain ⟨i, hi⟩ := ne_zero_iff.1 h
  induction i using Nat.strongRecOn with
  | ind i ih =>
    by_cases hl : ∃ j < i, bit x j
    · obtain ⟨j, hj, hb⟩ := hl; exact ih j hj hb
    · exact ⟨i, bit_lt hi, hi, fun j hj hb => hl ⟨j, hj, hb⟩⟩

theorem exists_highest {x : U64} (h : x ≠ 0) : ∃ k, HighestOne x k := by
  obtain ⟨i, hi⟩ := ne_zero_iff.1 h
  generalize hn : 64 - i = n
  induction n using Nat.strongRecOn generalizing i with
  | ind n ih =>
    by_cases hl : ∃ j > i, bit x j
    · obtain ⟨j, hj, hb⟩ := hl; have := bit_lt hb; exact ih (64 - j) (by omega) j hb rfl
    · exact ⟨i, bit_lt hi, hi, fun j hj hb => hl ⟨j, hj, hb⟩⟩

theorem lowestSet_eq {x : U64} {k} (h : LowestOne x k) : lowestSet x = BitVec.twoPow 64 k := by
  apply eq_of_bits; intro i
  rw [bit_lowestSet, bit_twoPow k i h.1]
  constructor
  · rintro ⟨h1, h2⟩
    rcases Nat.lt_trichotomy i k with hi | hi | hi
    · exact absurd h1 (h.2.2 i hi)
    · exact hi
    · exact absurd h.2.1 (h2 k hi)
  · rintro rfl; exact h.2

theorem highestSet_eq {x : U64} {k} (h : HighestOne x k) : highestSet x = BitVec.twoPow 64 k := by
  apply eq_of_bits; intro i
  rw [bit_highestSet, bit_twoPow k i h.1]
  constructor
  · rintro ⟨h1, h2⟩
    rcases Nat.lt_trichotomy i k with hi | hi | hi
    · exact absurd h.2.1 (h2 k hi)
    · exact hi
    · exact absurd h1 (h.2.2 i hi)
  · rintro rfl; exact h.2

theorem mask_toNat {x : U64} {k} (h : HighestOne x k) : (maskForValue x).toNat = 2 ^ (k + 1) - 1 := by
  have hk := h.1
  have : maskForValue x = BitVec.ofNat 64 (2 ^ (k + 1) - 1) := by
    apply eq_of_bits; intro i
    rw [bit_mask]
    simp only [bit, BitVec.getLsbD_ofNat, Nat.testBit_two_pow_sub_one, Bool.and_eq_true, decide_eq_true_eq]
    constructor
    · rintro ⟨j, hj, hb⟩
      have : ¬ j > k := fun hj => h.2.2 j hj hb
      omega
    · rintro ⟨_, hi⟩; exact ⟨k, by omega, h.2.1⟩
  rw [this, BitVec.toNat_ofNat, Nat.mod_eq_of_lt]
  have := Nat.pow_le_pow_right (n := 2) (by omega) (show k + 1 ≤ 64 by omega)
  have := Nat.two_pow_pos (k + 1)
  omega

theorem highest_bounds {x : U64} {k} (h : HighestOne x k) : 2 ^ k ≤ x.toNat ∧ x.toNat < 2 ^ (k + 1) := by
  constructor
  · exact Nat.ge_two_pow_of_testBit (by have := h.2.1; simpa [bit, BitVec.getLsbD] using this)
  · apply Nat.lt_pow_two_of_testBit
    intro i hi
    have := h.2.2 i (by omega)
    simpa [bit, BitVec.getLsbD] using this

theorem mask_zero : maskForValue 0 = 0 := by decide

/-- The mask is all ones below some bit, covers the value, and is the least such. -/
theorem mask_spec (x : U64) : ∃ n ≤ 64, (maskForValue x).toNat = 2 ^ n - 1 ∧ x.toNat < 2 ^ n ∧ ∀ m, x.toNat < 2 ^ m → n ≤ m := by
  by_cases h : x = 0
  · subst h; exact ⟨0, by omega, by decide, by decide, fun m _ => Nat.zero_le m⟩
  · obtain ⟨k, hk⟩ := exists_highest h
    obtain ⟨h1, h2⟩ := highest_bounds hk
    refine ⟨k + 1, by have := hk.1; omega, mask_toNat hk, h2, fun m hm => ?_⟩
    have : 2 ^ k < 2 ^ m := by omega
    exact (Nat.pow_lt_pow_iff_right (by omega)).1 this

theorem bit_notneg (x : U64) (i : Nat) (hi : i < 64) : bit (~~~(-x)) i ↔ (bit x i ↔ ∃ j < i, bit x j) := by
  simp only [bit, BitVec.getLsbD_not, BitVec.getLsbD_neg, hi]
  by_cases h1 : x.getLsbD i <;> by_cases h2 : ∃ j < i, x.getLsbD j = true <;> simp [h1, h2]

theorem isPow2_iff (x : U64) : isPowerOf2 x = true ↔ ∃ k, x.toNat = 2 ^ k := by
  have key : isPowerOf2 x = true ↔ x ≠ 0 ∧ ∀ i, bit x i → ∀ j < i, ¬ bit x j := by
    simp only [isPowerOf2, Bool.and_eq_true, bne_iff_ne, beq_iff_eq]
    constructor
    · rintro ⟨h1, h2⟩
      refine ⟨h1, fun i hi j hj hb => ?_⟩
      have hlt := bit_lt hi
      have h3 : bit (x &&& ~~~(-x)) i := by
        have : bit (x &&& ~~~(-x)) i ↔ bit x i ∧ bit (~~~(-x)) i := by simp [bit]
        rw [this, bit_notneg x i hlt]; exact ⟨hi, fun _ => ⟨j, hj, hb⟩, fun _ => hi⟩
      rw [h2] at h3; simp [bit] at h3
    · rintro ⟨h1, h2⟩
      refine ⟨h1, ?_⟩
      apply eq_of_bits; intro i
      have : bit (x &&& ~~~(-x)) i ↔ bit x i ∧ bit (~~~(-x)) i := by simp [bit]
      rw [this]
      constructor
      · rintro ⟨h3, h4⟩
        rw [bit_notneg x i (bit_lt h3)] at h4
        obtain ⟨j, hj, hb⟩ := h4.1 h3
        exact absurd hb (h2 i h3 j hj)
      · intro h; simp [bit] at h
  rw [key]
  constructor
  · rintro ⟨h1, h2⟩
    obtain ⟨k, hk⟩ := exists_highest h1
    refine ⟨k, ?_⟩
    rw [← twoPow_toNat hk.1]; congr 1
    apply eq_of_bits; intro i; rw [bit_twoPow k i hk.1]
    constructor
    · intro hi
      rcases Nat.lt_trichotomy i k with h | h | h
      · exact absurd hi (h2 k hk.2.1 i h)
      · exact h
      · exact absurd hi (hk.2.2 i h)
    · rintro rfl; exact hk.2.1
  · rintro ⟨k, hk⟩
    have hlt : k < 64 := by
      have := x.isLt; rw [hk] at this
      exact (Nat.pow_lt_pow_iff_right (by omega)).1 this
    have : x = BitVec.twoPow 64 k := by apply BitVec.eq_of_toNat_eq; rw [twoPow_toNat hlt, hk]
    subst this
    refine ⟨ne_zero_iff.2 ⟨k, (bit_twoPow k k hlt).2 rfl⟩, fun i hi j hj hb => ?_⟩
    rw [bit_twoPow k _ hlt] at hi hb; omega

/-! ### Population count -/

theorem and_bytes (a b c d : Nat) (hb : b < 256) (hd : d < 256) : (b + 256 * a) &&& (d + 256 * c) = (b &&& d) + 256 * (a &&& c) := by
  have hbd : (b &&& d) < 2 ^ 8 := Nat.and_lt_two_pow b (by omega)
  apply Nat.eq_of_testBit_eq; intro i
  rw [Nat.testBit_and, Nat.add_comm b, Nat.add_comm d, Nat.add_comm (b &&& d), show (256:Nat) = 2 ^ 8 by rfl,
    Nat.testBit_two_pow_mul_add _ hb, Nat.testBit_two_pow_mul_add _ hd, Nat.testBit_two_pow_mul_add _ hbd]
  split <;> simp

theorem and_small (a d k : Nat) (hd : d < 2 ^ k) : a &&& d = (a % 2 ^ k) &&& d := by
  have h1 : (a &&& d) < 2 ^ k := Nat.and_lt_two_pow a hd
  have h2 := Nat.and_mod_two_pow (a := a) (b := d) (n := k)
  rw [Nat.mod_eq_of_lt h1, Nat.mod_eq_of_lt hd] at h2
  exact h2

/-- Value of a list of bytes, lowest first. -/
def val : List Nat → Nat
  | [] => 0
  | b :: bs => b + 256 * val bs

theorem shr1 (bs : List Nat) (h : ∀ b ∈ bs, b < 256) : val bs / 2 &&& val (bs.map fun _ => 0x55) = val (bs.map fun b => b / 2 &&& 0x55) := by
  induction bs with
  | nil => rfl
  | cons l bs ih =>
    have ih := ih fun b hb => h b (by simp [hb])
    have hl := h l (by simp)
    simp only [List.map_cons, val]
    rw [show (l + 256 * val bs) / 2 = (l / 2 + 128 * (val bs % 2)) + 256 * (val bs / 2) by omega]
    rw [and_bytes _ _ _ _ (by omega) (by omega), ih, and_small _ 0x55 7 (by omega)]
    rw [show (l / 2 + 128 * (val bs % 2)) % 2 ^ 7 = l / 2 by omega]

theorem shr2 (bs : List Nat) (h : ∀ b ∈ bs, b < 256) : val bs / 4 &&& val (bs.map fun _ => 0x33) = val (bs.map fun b => b / 4 &&& 0x33) := by
  induction bs with
  | nil => rfl
  | cons l bs ih =>
    have ih := ih fun b hb => h b (by simp [hb])
    have hl := h l (by simp)
    simp only [List.map_cons, val]
    rw [show (l + 256 * val bs) / 4 = (l / 4 + 64 * (val bs % 4)) + 256 * (val bs / 4) by omega]
    rw [and_bytes _ _ _ _ (by omega) (by omega), ih, and_small _ 0x33 6 (by omega)]
    rw [show (l / 4 + 64 * (val bs % 4)) % 2 ^ 6 = l / 4 by omega]

theorem and2 (bs : List Nat) (h : ∀ b ∈ bs, b < 256) : val bs &&& val (bs.map fun _ => 0x33) = val (bs.map fun b => b &&& 0x33) := by
  induction bs with
  | nil => rfl
  | cons l bs ih =>
    have ih := ih fun b hb => h b (by simp [hb])
    have hl := h l (by simp)
    simp only [List.map_cons, val]
    rw [and_bytes _ _ _ _ hl (by omega), ih]

theorem shr4 (bs : List Nat) (h : ∀ b ∈ bs, b ≤ 0x44 ∧ b % 16 ≤ 4) :
    (val bs + val bs / 16) &&& val (bs.map fun _ => 0x0f) = val (bs.map fun b => (b + b / 16) &&& 0x0f) := by
  induction bs with
  | nil => rfl
  | cons l bs ih =>
    have ih := ih fun b hb => h b (by simp [hb])
    have hl := h l (by simp)
    have hv : val bs % 16 ≤ 4 := by
      cases bs with
      | nil => simp [val]
      | cons b bs => have := (h b (by simp)).2; simp only [val]; omega
    simp only [List.map_cons, val]
    rw [show l + 256 * val bs + (l + 256 * val bs) / 16 = (l + l / 16 + 16 * (val bs % 16)) + 256 * (val bs + val bs / 16) by omega]
    rw [and_bytes _ _ _ _ (by omega) (by omega), ih, and_small _ 0x0f 4 (by omega), and_small (l + l / 16) 0x0f 4 (by omega)]
    rw [show (l + l / 16 + 16 * (val bs % 16)) % 2 ^ 4 = (l + l / 16) % 2 ^ 4 by omega]

theorem val_sub (bs : List Nat) (f : Nat → Nat) (h : ∀ b ∈ bs, f b ≤ b) : val (bs.map f) ≤ val bs ∧ val bs - val (bs.map f) = val (bs.map fun b => b - f b) := by
  induction bs with
  | nil => exact ⟨Nat.le_refl _, rfl⟩
  | cons l bs ih =>
    have ih := ih fun b hb => h b (by simp [hb])
    have hl := h l (by simp)
    simp only [List.map_cons, val]
    omega

theorem val_add (bs : List Nat) (f g : Nat → Nat) : val (bs.map f) + val (bs.map g) = val (bs.map fun b => f b + g b) := by
  induction bs with
  | nil => rfl
  | cons l bs ih => simp only [List.map_cons, val]; omega

theorem val_lt (bs : List Nat) (h : ∀ b ∈ bs, b < 256) : val bs < 256 ^ bs.length := by
  induction bs with
  | nil => simp [val]
  | cons l bs ih =>
    have ih := ih fun b hb => h b (by simp [hb])
    have hl := h l (by simp)
    simp only [val, List.length_cons, Nat.pow_succ]; omega

/-- Ones in a byte. -/
def popByte (b : Nat) : Nat := (List.range 8).countP (fun i => b.testBit i)

set_option maxRecDepth 20000 in
theorem byte_facts : ∀ b < 256, (b / 2 &&& 0x55) ≤ b ∧
    ((b - (b / 2 &&& 0x55)) &&& 0x33) + ((b - (b / 2 &&& 0x55)) / 4 &&& 0x33) ≤ 0x44 ∧
    (((b - (b / 2 &&& 0x55)) &&& 0x33) + ((b - (b / 2 &&& 0x55)) / 4 &&& 0x33)) % 16 ≤ 4 ∧
    ((((b - (b / 2 &&& 0x55)) &&& 0x33) + ((b - (b / 2 &&& 0x55)) / 4 &&& 0x33)) +
      (((b - (b / 2 &&& 0x55)) &&& 0x33) + ((b - (b / 2 &&& 0x55)) / 4 &&& 0x33)) / 16) &&& 0x0f = popByte b ∧ popByte b ≤ 8 := by
  decide

theorem popByte_sum (n : Nat) (p : Nat → Bool) : (List.range (8 * (n + 1))).countP p = (List.range (8 * n)).countP p + (List.range 8).countP (fun i => p (8 * n + i)) := by
  rw [show 8 * (n + 1) = 8 * n + 8 by omega, List.range_add, List.countP_append, List.countP_map]; rfl

def bytes (x : U64) : List Nat := (List.range 8).map fun k => x.toNat / 256 ^ k % 256

theorem val_bytes (x : U64) : val (bytes x) = x.toNat := by
  have := x.isLt
  simp only [bytes, List.range, List.range.loop, List.map, val]; omega

theorem bytes_lt (x : U64) : ∀ b ∈ bytes x, b < 256 := by
  simp only [bytes, List.mem_map]; rintro _ ⟨k, -, rfl⟩; omega

theorem pop_byte_eq (x : U64) (k : Nat) : (List.range 8).countP (fun i => x.getLsbD (8 * k + i)) = popByte (x.toNat / 256 ^ k % 256) := by
  apply List.countP_congr
  intro i hi
  have hi : i < 8 := by simpa using hi
  rw [show (256 : Nat) ^ k = 2 ^ (8 * k) by rw [Nat.pow_mul], show (256 : Nat) = 2 ^ 8 by rfl, Nat.testBit_mod_two_pow, Nat.testBit_div_two_pow, BitVec.getLsbD]
  simp [hi, Nat.add_comm]

theorem ones_eq (x : U64) : ones x = ((bytes x).map popByte).sum := by
  simp only [ones, bytes]
  have h : ∀ p : Nat → Bool, (List.range 64).countP p = (List.range (8 * (7 + 1))).countP p := fun _ => rfl
  rw [h]
  simp only [popByte_sum, pop_byte_eq]
  simp [List.range, List.range.loop]; omega

theorem sum_bytes (c0 c1 c2 c3 c4 c5 c6 c7 : Nat) (p0 : c0 ≤ 8) (p1 : c1 ≤ 8) (p2 : c2 ≤ 8) (p3 : c3 ≤ 8) (p4 : c4 ≤ 8) (p5 : c5 ≤ 8) (p6 : c6 ≤ 8)
    (p7 : c7 ≤ 8) : val [c0, c1, c2, c3, c4, c5, c6, c7] * 0x0101010101010101 % 2 ^ 64 / 2 ^ 56 = [c0, c1, c2, c3, c4, c5, c6, c7].sum := by
  have h : val [c0, c1, c2, c3, c4, c5, c6, c7] * 0x0101010101010101 =
      ((256^0 * (c0) + 256^1 * (c0 + c1) + 256^2 * (c0 + c1 + c2) + 256^3 * (c0 + c1 + c2 + c3) + 256^4 * (c0 + c1 + c2 + c3 + c4) + 256^5 * (c0 + c1 + c2 + c3 + c4 + c5) + 256^6 * (c0 + c1 + c2 + c3 + c4 + c5 + c6)) + 2 ^ 56 * (c0 + c1 + c2 + c3 + c4 + c5 + c6 + c7)) + 2 ^ 64 * (256^0 * (c1 + c2 + c3 + c4 + c5 + c6 + c7) + 256^1 * (c2 + c3 + c4 + c5 + c6 + c7) + 256^2 * (c3 + c4 + c5 + c6 + c7) + 256^3 * (c4 + c5 + c6 + c7) + 256^4 * (c5 + c6 + c7) + 256^5 * (c6 + c7) + 256^6 * (c7)) := by
    simp only [val]; omega
  have hlow : 256^0 * (c0) + 256^1 * (c0 + c1) + 256^2 * (c0 + c1 + c2) + 256^3 * (c0 + c1 + c2 + c3) + 256^4 * (c0 + c1 + c2 + c3 + c4) + 256^5 * (c0 + c1 + c2 + c3 + c4 + c5) + 256^6 * (c0 + c1 + c2 + c3 + c4 + c5 + c6) < 2 ^ 56 := by omega
  rw [h, Nat.add_mul_mod_self_left, Nat.mod_eq_of_lt (by omega), Nat.add_mul_div_left _ _ (by decide), Nat.div_eq_of_lt hlow]
  simp only [List.sum_cons, List.sum_nil]; omega

theorem map_const8 {bs : List Nat} (h : bs.length = 8) (c : Nat) : (bs.map fun _ => c) = List.replicate 8 c := by
  rw [List.map_const', h]

theorem countSet_toNat (x : U64) : (countSet x).toNat = ones x := by
  have hb := bytes_lt x
  have hv := val_bytes x
  rw [ones_eq]
  generalize hbs : bytes x = bs at hb hv
  have hlen : bs.length = 8 := by rw [← hbs]; simp [bytes]
  have e55 : val (bs.map fun _ => 0x55) = 0x5555555555555555 := by
    rw [map_const8 hlen]; decide
  have e33 : val (bs.map fun _ => 0x33) = 0x3333333333333333 := by
    rw [map_const8 hlen]; decide
  have e0f : val (bs.map fun _ => 0x0f) = 0x0f0f0f0f0f0f0f0f := by
    rw [map_const8 hlen]; decide
  have c55 : (0x5555555555555555#64).toNat = 0x5555555555555555 := by decide
  have c33 : (0x3333333333333333#64).toNat = 0x3333333333333333 := by decide
  have c0f : (0x0f0f0f0f0f0f0f0f#64).toNat = 0x0f0f0f0f0f0f0f0f := by decide
  let g1 : Nat → Nat := fun b => b - (b / 2 &&& 0x55)
  let g2 : Nat → Nat := fun b => (b &&& 0x33) + (b / 4 &&& 0x33)
  let g3 : Nat → Nat := fun b => (b + b / 16) &&& 0x0f
  have hg1 : ∀ b ∈ bs.map g1, b < 256 := by
    intro c hc; obtain ⟨b, hb', rfl⟩ := List.mem_map.1 hc
    have := hb b hb'; simp only [g1]; omega
  have hg2 : ∀ b ∈ (bs.map g1).map g2, b ≤ 0x44 ∧ b % 16 ≤ 4 := by
    intro c hc; rw [List.map_map] at hc; obtain ⟨b, hb', rfl⟩ := List.mem_map.1 hc
    have := byte_facts b (hb b hb'); exact ⟨this.2.1, this.2.2.1⟩
  have hg3 : ((bs.map g1).map g2).map g3 = bs.map popByte := by
    rw [List.map_map, List.map_map]; apply List.map_congr_left
    intro b hb'; exact (byte_facts b (hb b hb')).2.2.2.1
  have s1 : (x - (x >>> 1 &&& 0x5555555555555555#64)).toNat = val (bs.map g1) := by
    have hs := val_sub bs (fun b => b / 2 &&& 0x55) (fun b hb' => (byte_facts b (hb b hb')).1)
    have hy : (x >>> 1 &&& 0x5555555555555555#64).toNat = val (bs.map fun b => b / 2 &&& 0x55) := by
      rw [BitVec.toNat_and, BitVec.toNat_ushiftRight, Nat.shiftRight_eq_div_pow, ← hv, ← shr1 bs hb, e55, c55, Nat.pow_one]
    rw [BitVec.toNat_sub_of_le (by rw [BitVec.le_def, hy, ← hv]; exact hs.1), hy, ← hv]; exact hs.2
  have len1 : (bs.map g1).length = 8 := by simpa using hlen
  generalize h1 : x - (x >>> 1 &&& 0x5555555555555555#64) = y at s1
  have s2 : ((y &&& 0x3333333333333333#64) + (y >>> 2 &&& 0x3333333333333333#64)).toNat = val ((bs.map g1).map g2) := by
    have ha : (y &&& 0x3333333333333333#64).toNat = val ((bs.map g1).map fun b => b &&& 0x33) := by
      rw [BitVec.toNat_and, s1, ← and2 _ hg1, c33]; simp only [List.map_map, Function.comp_def, e33]
    have hc : (y >>> 2 &&& 0x3333333333333333#64).toNat = val ((bs.map g1).map fun b => b / 4 &&& 0x33) := by
      rw [BitVec.toNat_and, BitVec.toNat_ushiftRight, Nat.shiftRight_eq_div_pow, s1, ← shr2 _ hg1, c33, show 2 ^ 2 = 4 by decide]; simp only [List.map_map, Function.comp_def, e33]
    rw [BitVec.toNat_add, ha, hc, val_add, Nat.mod_eq_of_lt]
    have := val_lt ((bs.map g1).map g2) (fun b hb' => by have := hg2 b hb'; omega)
    simpa [hlen] using this
  generalize h2 : (y &&& 0x3333333333333333#64) + (y >>> 2 &&& 0x3333333333333333#64) = z at s2
  have s3 : ((z + z >>> 4) &&& 0x0f0f0f0f0f0f0f0f#64).toNat = val (bs.map popByte) := by
    have hz : val ((bs.map g1).map g2) ≤ 0x4444444444444444 := by
      have key : ∀ cs : List Nat, (∀ b ∈ cs, b ≤ 0x44) → val cs ≤ val (cs.map fun _ => 0x44) := by
        intro cs; induction cs with
        | nil => simp [val]
        | cons c cs ih => intro h; have := h c (by simp); have := ih fun b hb => h b (by simp [hb]); simp only [List.map_cons, val]; omega
      have := key _ (fun b hb' => (hg2 b hb').1)
      refine Nat.le_trans this (Nat.le_of_eq ?_)
      simp only [List.map_map, Function.comp_def]; rw [map_const8 hlen]; decide
    rw [← hg3, BitVec.toNat_and, BitVec.toNat_add, BitVec.toNat_ushiftRight, Nat.shiftRight_eq_div_pow, s2, Nat.mod_eq_of_lt (by omega), ← shr4 _ hg2]
    rw [c0f, show 2 ^ 4 = 16 by decide]; simp only [List.map_map, Function.comp_def, e0f]
  have final : countSet x = (((z + z >>> 4) &&& 0x0f0f0f0f0f0f0f0f#64) * 0x0101010101010101#64) >>> 56 := by
    rw [← h2, ← h1]; rfl
  rw [final, BitVec.toNat_ushiftRight, Nat.shiftRight_eq_div_pow, BitVec.toNat_mul, s3]
  have hp : ∀ c ∈ bs.map popByte, c ≤ 8 := by
    intro c hc; obtain ⟨b, hb', rfl⟩ := List.mem_map.1 hc
    exact (byte_facts b (hb b hb')).2.2.2.2
  have hl : (bs.map popByte).length = 8 := by simpa using hlen
  rw [show (0x0101010101010101#64).toNat = 0x0101010101010101 by decide]
  generalize bs.map popByte = cs at hp hl
  match cs, hl with
  | [c0, c1, c2, c3, c4, c5, c6, c7], _ => exact sum_bytes _ _ _ _ _ _ _ _ (hp _ (by simp)) (hp _ (by simp)) (hp _ (by simp)) (hp _ (by simp)) (hp _ (by simp)) (hp _ (by simp)) (hp _ (by simp)) (hp _ (by simp))

end Verif.BitTricks
