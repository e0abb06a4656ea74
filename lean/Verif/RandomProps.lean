import Verif.Random
import Mathlib.Data.Fintype.Pigeonhole
import Mathlib.Logic.Function.Iterate
import Mathlib.Data.Fintype.EquivFin
import Mathlib.Data.Fin.Basic
import Mathlib.Data.Finite.Prod
/-!
# C26: the generators never get stuck and ranged numbers stay in range
-/
namespace Verif.Random

/-! ## One xor-shift stage is injective -/

theorem shl_stage_zero (x : U32) (k : Nat) (hk : 0 < k) (h : x ^^^ x <<< k = 0#32) : x = 0#32 := by
  have hb : ∀ i, i < 32 → x.getLsbD i = (x <<< k).getLsbD i := by
    intro i hi
    have := congrArg (fun y => y.getLsbD i) h
    simp only [BitVec.getLsbD_xor, BitVec.getLsbD_zero] at this
    cases h1 : x.getLsbD i <;> cases h2 : (x <<< k).getLsbD i <;> rw [h1, h2] at this <;> simp_all
  have : ∀ i, x.getLsbD i = false := by
    intro i
    induction i using Nat.strongRecOn with
    | ind i ih =>
      by_cases hi : i < 32
      · rw [hb i hi, BitVec.getLsbD_shiftLeft]
        by_cases c : i < k
        · simp [c]
        · rw [ih (i - k) (by omega)]; simp
      · exact BitVec.getLsbD_of_ge _ _ (by omega)
  apply BitVec.eq_of_getLsbD_eq
  intro i _
  rw [this i]; simp

theorem shr_stage_zero (x : U32) (k : Nat) (hk : 0 < k) (h : x ^^^ x >>> k = 0#32) : x = 0#32 := by
  have hb : ∀ i, x.getLsbD i = (x >>> k).getLsbD i := by
    intro i
    have := congrArg (fun y => y.getLsbD i) h
    simp only [BitVec.getLsbD_xor, BitVec.getLsbD_zero] at this
    cases h1 : x.getLsbD i <;> cases h2 : (x >>> k).getLsbD i <;> rw [h1, h2] at this <;> simp_all
  have : ∀ n i, 32 ≤ i + n → x.getLsbD i = false := by
    intro n
    induction n with
    | zero => intro i hi; exact BitVec.getLsbD_of_ge _ _ (by omega)
    | succ n ih =>
      intro i hi
      rw [hb i, BitVec.getLsbD_ushiftRight]
      exact ih _ (by omega)
  apply BitVec.eq_of_getLsbD_eq
  intro i _
  rw [this 32 i (by omega)]; simp

theorem shl_stage_inj (x y : U32) (k : Nat) (hk : 0 < k) (h : x ^^^ x <<< k = y ^^^ y <<< k) : x = y := by
  have : (x ^^^ y) ^^^ (x ^^^ y) <<< k = 0#32 := by
    rw [BitVec.shiftLeft_xor_distrib]
    have e : (x ^^^ y) ^^^ (x <<< k ^^^ y <<< k) = (x ^^^ x <<< k) ^^^ (y ^^^ y <<< k) := by
      rw [BitVec.xor_assoc, BitVec.xor_assoc]; congr 1
      rw [← BitVec.xor_assoc, BitVec.xor_comm y, BitVec.xor_assoc]
    rw [e, h, BitVec.xor_self]
  have := shl_stage_zero _ k hk this
  exact BitVec.xor_eq_zero_iff.1 this

theorem shr_stage_inj (x y : U32) (k : Nat) (hk : 0 < k) (h : x ^^^ x >>> k = y ^^^ y >>> k) : x = y := by
  have : (x ^^^ y) ^^^ (x ^^^ y) >>> k = 0#32 := by
    rw [BitVec.ushiftRight_xor_distrib]
    have e : (x ^^^ y) ^^^ (x >>> k ^^^ y >>> k) = (x ^^^ x >>> k) ^^^ (y ^^^ y >>> k) := by
      rw [BitVec.xor_assoc, BitVec.xor_assoc]; congr 1
      rw [← BitVec.xor_assoc, BitVec.xor_comm y, BitVec.xor_assoc]
    rw [e, h, BitVec.xor_self]
  have := shr_stage_zero _ k hk this
  exact BitVec.xor_eq_zero_iff.1 this

/-! ## C26 for xorshift -/

/-- Distinct states have distinct successors. -/
theorem C26_xorshift_injective : Function.Injective xorshift := by
  intro x y h
  unfold xorshift at h
  exact shl_stage_inj _ _ 13 (by omega) (shr_stage_inj _ _ 17 (by omega) (shl_stage_inj _ _ 5 (by omega) h))

theorem iterate_ne_zero (n : Nat) (s : U32) (h : s ≠ 0#32) : xorshift^[n] s ≠ 0#32 := by
  induction n with
  | zero => exact h
  | succ n ih =>
    rw [Function.iterate_succ_apply']
    intro e
    have : xorshift 0#32 = 0#32 := by decide
    exact ih (C26_xorshift_injective (e.trans this.symm))

/-- From every seed, after every number of steps, the state is not zero. -/
theorem C26_xorshift_never_zero (seed : U32) (n : Nat) : xorshift^[n] (seedXorshift seed) ≠ 0#32 := by
  apply iterate_ne_zero
  unfold seedXorshift
  split
  · assumption
  · decide

theorem returns {α : Type} [Finite α] (f : α → α) (hf : Function.Injective f) (s : α) : ∃ n, 0 < n ∧ f^[n] s = s := by
  obtain ⟨i, j, hij, h⟩ := Finite.exists_ne_map_eq_of_infinite (fun n : ℕ => f^[n] s)
  rcases Nat.lt_or_gt_of_ne hij with c | c
  · refine ⟨j - i, by omega, ?_⟩
    have e : f^[j] s = f^[i] (f^[j - i] s) := by
      rw [← Function.iterate_add_apply]; congr 2; omega
    rw [e] at h
    exact ((hf.iterate i) h).symm
  · refine ⟨i - j, by omega, ?_⟩
    have e : f^[i] s = f^[j] (f^[i - j] s) := by
      rw [← Function.iterate_add_apply]; congr 2; omega
    rw [e] at h
    exact (hf.iterate j) h

instance : Finite U32 := Finite.of_injective (fun x : U32 => (⟨x.toNat, x.isLt⟩ : Fin (2 ^ 32))) (by
  intro a b h
  exact BitVec.eq_of_toNat_eq (congrArg Fin.val h))

/-- The sequence comes back to its starting state: there is no cycle it did not start on. -/
theorem C26_xorshift_periodic (s : U32) : ∃ n, 0 < n ∧ xorshift^[n] s = s := returns xorshift C26_xorshift_injective s

/-! ## C26 for xorwow -/

theorem C26_xorwow_injective : Function.Injective (fun st => (xorwow st).1) := by
  intro x y h
  obtain ⟨a, b, c, d, k⟩ := x
  obtain ⟨a', b', c', d', k'⟩ := y
  simp only [xorwow, Wow.mk.injEq] at h
  obtain ⟨h1, rfl, rfl, rfl, h5⟩ := h
  have hk : k = k' := by
    have := congrArg (fun z => z - 362437#32) h5
    simpa [BitVec.add_sub_cancel] using this
  have hd := (BitVec.xor_left_inj _).1 h1
  have := shr_stage_inj _ _ 2 (by omega) (shl_stage_inj _ _ 1 (by omega) hd)
  rw [hk, this]

/-- Not all of the shift register words are zero. -/
def Live (st : Wow) : Prop := ¬ (st.a = 0#32 ∧ st.b = 0#32 ∧ st.c = 0#32 ∧ st.d = 0#32)

theorem xorwow_live (st : Wow) (h : Live st) : Live (xorwow st).1 := by
  rintro ⟨h1, h2, h3, h4⟩
  apply h
  obtain ⟨a, b, c, d, k⟩ := st
  simp only [xorwow] at h1 h2 h3 h4
  subst h2 h3 h4
  refine ⟨rfl, rfl, rfl, ?_⟩
  have e : (0#32 ^^^ 0#32 <<< 4) = 0#32 := by decide
  rw [e, BitVec.xor_zero] at h1
  exact shr_stage_zero _ 2 (by omega) (shl_stage_zero _ 1 (by omega) h1)

/-- Whatever the order in which the seed fields are computed, after every number of steps the shift
register is not all zero. -/
theorem C26_xorwow_never_zero (perm : Fin 5 → Fin 5) (seed : U32) (n : Nat) :
    Live ((fun st => (xorwow st).1)^[n] (seedXorwow perm seed)) := by
  induction n with
  | zero =>
    rintro ⟨h, -⟩
    have hrep : ∀ (k : Nat) (s : U32), Nat.repeat xorshift k s = xorshift^[k] s := by
      intro k s
      induction k with
      | zero => rfl
      | succ k ih => rw [Function.iterate_succ_apply', ← ih]; rfl
    have h : Nat.repeat xorshift ((perm 0).1 + 1) (seedXorshift seed) = 0#32 := h
    rw [hrep] at h
    exact C26_xorshift_never_zero seed _ h
  | succ n ih => rw [Function.iterate_succ_apply']; exact xorwow_live _ ih

instance : Finite Wow := Finite.of_injective (fun s : Wow => (s.a, s.b, s.c, s.d, s.counter)) (by
  rintro ⟨⟩ ⟨⟩ h
  simp only [Prod.mk.injEq] at h
  obtain ⟨rfl, rfl, rfl, rfl, rfl⟩ := h
  rfl)

theorem C26_xorwow_periodic (s : Wow) : ∃ n, 0 < n ∧ (fun st => (xorwow st).1)^[n] s = s := returns _ C26_xorwow_injective s

/-! ## C26 for ranged integers -/

/-- For bounds in order whose range size is representable, every drawn number gives a result inside
the inclusive bounds, without overflow. -/
theorem C26_range (draw : U32) (min max : Int) (h : min ≤ max) (h1 : -2 ^ 31 ≤ min) (h2 : max < 2 ^ 31) (hs : max - min + 1 < 2 ^ 31) :
    ∃ v, rangei draw min max = some v ∧ min ≤ v ∧ v ≤ max := by
  have hd : int32 (max - min) = some (max - min) := by unfold int32; rw [if_pos]; omega
  have hn : int32 (max - min + 1) = some (max - min + 1) := by unfold int32; rw [if_pos]; omega
  have hne : ¬ (max - min + 1 = 0) := by omega
  have hpos : 0 < max - min + 1 := by omega
  simp only [rangei, hd, hn, Option.bind_eq_bind, Option.bind_some, if_neg hne]
  by_cases c : draw.toInt < 0
  · rw [if_pos c]
    have b1 := Int.lt_tmod_of_pos draw.toInt hpos
    have b2 : draw.toInt.tmod (max - min + 1) ≤ 0 := by
      have := Int.tmod_nonneg (a := -draw.toInt) (max - min + 1) (by omega)
      rw [Int.neg_tmod] at this; omega
    refine ⟨_, by unfold int32; rw [if_pos]; omega, by omega, by omega⟩
  · rw [if_neg c]
    have b1 := Int.tmod_lt_of_pos draw.toInt hpos
    have b2 : 0 ≤ draw.toInt.tmod (max - min + 1) := Int.tmod_nonneg _ (by omega)
    refine ⟨_, by unfold int32; rw [if_pos]; omega, by omega, by omega⟩

/-- Every value in the bounds is drawn by some state, so none is unreachable. -/
theorem C26_range_onto (min max v : Int) (h1 : -2 ^ 31 ≤ min) (h2 : max < 2 ^ 31) (hs : max - min + 1 < 2 ^ 31)
    (hv : min ≤ v) (hv2 : v ≤ max) : ∃ draw, rangei draw min max = some v := by
  have hd : int32 (max - min) = some (max - min) := by unfold int32; rw [if_pos]; omega
  have hn : int32 (max - min + 1) = some (max - min + 1) := by unfold int32; rw [if_pos]; omega
  have hne : ¬ (max - min + 1 = 0) := by omega
  refine ⟨BitVec.ofInt 32 (v - min), ?_⟩
  have ht : (BitVec.ofInt 32 (v - min)).toInt = v - min := by
    rw [BitVec.toInt_ofInt]
    apply Int.bmod_eq_of_le <;> omega
  simp only [rangei, hd, hn, Option.bind_eq_bind, Option.bind_some, if_neg hne, ht]
  rw [if_neg (by omega), Int.tmod_eq_of_lt (by omega) (by omega)]
  unfold int32; rw [if_pos (by omega)]
  congr 1; omega

/-- Outside the stated condition the expression overflows: the full range of `int32_t`. -/
theorem C26_range_overflow : rangei 5#32 (-2 ^ 31) (2 ^ 31 - 1) = none := by decide

/-- Exactly outside the stated condition: bounds in order give a number if and only if their range size is representable. -/
theorem C26_range_defined (draw : U32) (min max : Int) (h : min ≤ max) (h1 : -2 ^ 31 ≤ min) (h2 : max < 2 ^ 31) :
    (rangei draw min max).isSome = true ↔ max - min + 1 < 2 ^ 31 := by
  constructor
  · intro e
    apply Decidable.byContradiction; intro c
    by_cases d : max - min < 2 ^ 31
    · have hd : int32 (max - min) = some (max - min) := by unfold int32; rw [if_pos]; omega
      have hn : int32 (max - min + 1) = none := by unfold int32; rw [if_neg]; omega
      simp [rangei, hd, hn] at e
    · have hd : int32 (max - min) = none := by unfold int32; rw [if_neg]; omega
      simp [rangei, hd] at e
  · intro hs
    obtain ⟨v, e, _⟩ := C26_range draw min max h h1 h2 hs
    rw [e]; rfl

/-- `CCRandomi` gives the numbers from 0 to `RAND_MAX`, each of them, for a `RAND_MAX` that is an `int`. -/
theorem C26_randomi (randMax : Nat) (h : randMax < 2 ^ 31) : (∀ draw, randomi draw randMax ≤ randMax) ∧ ∀ v, v ≤ randMax → ∃ draw, randomi draw randMax = v := by
  have e : (randMax + 1) % 2 ^ 32 = randMax + 1 := Nat.mod_eq_of_lt (by omega)
  constructor
  · intro draw
    rw [randomi, e]
    have := Nat.mod_lt draw.toNat (Nat.succ_pos randMax)
    simp only [Nat.succ_eq_add_one] at this
    omega
  · intro v hv
    refine ⟨BitVec.ofNat 32 v, ?_⟩
    rw [randomi, e, BitVec.toNat_ofNat, Nat.mod_eq_of_lt (a := v) (by omega), Nat.mod_eq_of_lt (by omega)]

example : randomi 0xffffffff#32 (2 ^ 31 - 1) = 2 ^ 31 - 1 := by decide

/-- The initial global xorwow state (`Random.c` 49) is the one seeded with zero or one, fields in order. -/
theorem C26_global_state : (⟨270369#32, 67634689#32, 2647435461#32, 307599695#32, 2398689233#32⟩ : Wow) = seedXorwow id 0#32 ∧
    seedXorwow id 0#32 = seedXorwow id 1#32 := by decide

example : rangei 0xfffffff0#32 (-3) 10 = some 8 := by decide
example : (xorshift^[3] (seedXorshift 0#32)) = 2647435461#32 := by decide

#print axioms C26_xorshift_never_zero
#print axioms C26_xorshift_periodic
#print axioms C26_xorwow_never_zero
#print axioms C26_xorwow_periodic
#print axioms C26_range
#print axioms C26_range_onto
#print axioms C26_range_defined
#print axioms C26_randomi

end Verif.Random
