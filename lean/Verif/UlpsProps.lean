import Verif.Ulps

/-!
# C82: comparing by units in the last place
-/
namespace Verif.Ulps

open Verif.Vec (V4 Level)

/-! ## Specification -/

/-- The next number up (`nextafterf(a, INFINITY)`), given by bits: past a zero comes the least positive number, past a negative number the
one of lesser magnitude, and past infinity nothing. -/
def nextUp (a : Nat) : Nat := if a = 2 ^ 31 then 1 else if a = 0x7f800000 then a else if a < 2 ^ 31 then a + 1 else a - 1

/-- So many steps up. -/
def stepsUp : Nat → Nat → Nat
  | 0, a => a
  | n + 1, a => stepsUp n (nextUp a)

/-- At most `n` steps from one number to the other (the two zeros being the same). -/
def Within (n a b : Nat) : Prop := ∃ k ≤ n, feq (stepsUp k a) b = true ∨ feq (stepsUp k b) a = true

/-! ## Lemmas -/

theorem nan_false {a : Nat} : nan a = false ↔ a % 2 ^ 31 ≤ 0x7f800000 := by
  unfold nan mag
  constructor
  · intro h
    have := of_decide_eq_false h
    omega
  · intro h
    exact decide_eq_false (by omega)

theorem place_nextUp {a : Nat} (ha : a < 2 ^ 32) (hn : nan a = false) :
    place (nextUp a) = min (place a + 1) 0x7f800000 ∧ nextUp a < 2 ^ 32 ∧ nan (nextUp a) = false := by
  rw [nan_false] at hn
  rw [nan_false]
  unfold nextUp place sign mag
  refine ⟨?_, ?_, ?_⟩
  · simp only [decide_eq_true_eq]
    (repeat' split) <;> omega
  · (repeat' split) <;> omega
  · (repeat' split) <;> omega

theorem place_stepsUp (n : Nat) : ∀ {a : Nat}, a < 2 ^ 32 → nan a = false →
    place (stepsUp n a) = min (place a + n) 0x7f800000 ∧ nan (stepsUp n a) = false := by
  induction n with
  | zero =>
    intro a ha hn
    refine ⟨?_, hn⟩
    have : place a ≤ 0x7f800000 := by
      rw [nan_false] at hn
      unfold place mag
      split <;> omega
    simp only [stepsUp]
    omega
  | succ n ih =>
    intro a ha hn
    obtain ⟨h1, h2, h3⟩ := place_nextUp ha hn
    obtain ⟨h4, h5⟩ := ih h2 h3
    refine ⟨?_, h5⟩
    rw [stepsUp, h4, h1]
    push_cast
    omega

theorem place_le {a : Nat} (hn : nan a = false) : place a ≤ 0x7f800000 := by
  rw [nan_false] at hn
  unfold place mag
  split <;> omega

theorem feq_iff {a b : Nat} : feq a b = true ↔ nan a = false ∧ nan b = false ∧ place a = place b := by
  simp [feq, and_assoc]

theorem within_iff {n a b : Nat} (ha : a < 2 ^ 32) (hb : b < 2 ^ 32) (hna : nan a = false) (hnb : nan b = false) :
    Within n a b ↔ (place a - place b).natAbs ≤ n := by
  have pa := place_le hna
  have pb := place_le hnb
  constructor
  · rintro ⟨k, hk, h | h⟩
    · have h1 := (feq_iff.mp h).2.2
      rw [(place_stepsUp k ha hna).1] at h1
      omega
    · have h1 := (feq_iff.mp h).2.2
      rw [(place_stepsUp k hb hnb).1] at h1
      omega
  · intro h
    refine ⟨(place a - place b).natAbs, h, ?_⟩
    by_cases hlt : place a ≤ place b
    · left
      obtain ⟨h1, h2⟩ := place_stepsUp (place a - place b).natAbs ha hna
      refine feq_iff.mpr ⟨h2, hnb, ?_⟩
      rw [h1]
      omega
    · right
      obtain ⟨h1, h2⟩ := place_stepsUp (place a - place b).natAbs hb hnb
      refine feq_iff.mpr ⟨h2, hna, ?_⟩
      rw [h1]
      omega

/-! ## One number -/

/-- **C82, what holds.** `CCFloatEqualUlps` of two numbers says whether they are equal or, *if their signs agree*, whether there are at most
`MaxUlps` steps between them.  Missing is the claim for numbers of different signs: see `C82_zero_refuted`. -/
theorem C82_number_partial {a b n : Nat} (ha : a < 2 ^ 32) (hb : b < 2 ^ 32) (hna : nan a = false) (hnb : nan b = false) :
    equalUlps a b n = true ↔ feq a b = true ∨ sign a = sign b ∧ Within n a b := by
  rw [within_iff ha hb hna hnb, feq_iff]
  simp only [hna, hnb, true_and]
  unfold equalUlps getUlps
  by_cases h : sign a = sign b
  · simp only [h, bne_self_eq_false, Bool.false_eq_true, if_false, decide_eq_true_eq, true_and]
    have e : ∀ {x : Nat}, place x = if 2 ^ 31 ≤ x then -((x % 2 ^ 31 : Nat) : Int) else ((x % 2 ^ 31 : Nat) : Int) := by
      intro x
      simp only [place, sign, mag, decide_eq_true_eq]
    have h' : 2 ^ 31 ≤ a ↔ 2 ^ 31 ≤ b := decide_eq_decide.mp h
    rw [e, e]
    (repeat' split) <;> omega
  · have h' : (sign a != sign b) = true := by simpa using h
    rw [if_pos h', feq_iff]
    simp [hna, hnb, h]

/-- **C82.** `CCFloatEqualUlps` does not care for the order, every number equals itself, and what is equal with fewer steps is with more. -/
theorem C82_number_laws (a b m n : Nat) (hmn : m ≤ n) :
    equalUlps a b n = equalUlps b a n ∧ equalUlps a a n = true ∧ (equalUlps a b m = true → equalUlps a b n = true) := by
  refine ⟨?_, ?_, ?_⟩
  · have h1 : feq a b = feq b a := by
      rw [Bool.eq_iff_iff, feq_iff, feq_iff]
      constructor
      · rintro ⟨p, q, r⟩
        exact ⟨q, p, r.symm⟩
      · rintro ⟨p, q, r⟩
        exact ⟨q, p, r.symm⟩
    have h2 : getUlps a b = getUlps b a := by
      unfold getUlps
      split <;> split <;> omega
    have h3 : (sign a != sign b) = (sign b != sign a) := by cases sign a <;> cases sign b <;> rfl
    unfold equalUlps
    rw [h1, h2, h3]
  · simp [equalUlps, getUlps]
  · unfold equalUlps
    split
    · exact id
    · simp only [decide_eq_true_eq]
      omega

/-- **C82, refuted around zero.** The least positive and the greatest negative number are two steps apart, yet no number of steps makes them
equal. -/
theorem C82_zero_refuted : Within 2 1 0x80000001 ∧ ∀ n, equalUlps 1 0x80000001 n = false := by
  refine ⟨⟨2, Nat.le_refl _, Or.inr (by decide)⟩, fun n => ?_⟩
  rw [equalUlps, if_pos (by decide)]
  decide

/-- **C82, refuted for not-a-number.** It equals itself, and infinity when one step is allowed. -/
theorem C82_nan_refuted : nan 0x7f800001 = true ∧ equalUlps 0x7f800001 0x7f800001 0 = true ∧ equalUlps 0x7f800000 0x7f800001 1 = true := by
  decide

/-! ## Vectors -/

/-- **C82, what holds of the vectorised comparison with SSE 2.** In a lane whose numbers are both non-negative, and with `MaxUlps` below
`2 ^ 31`, it says what `CCFloatEqualUlps` says. -/
theorem C82_lane_partial {a b n : Nat} (ha : a ≤ 0x7f800000) (hb : b ≤ 0x7f800000) (hn : n < 2 ^ 31) : laneUlps a b n = lanePlain a b n := by
  have sa : sign a = false := by simp [sign]; omega
  have sb : sign b = false := by simp [sign]; omega
  have ma : mag a = a := Nat.mod_eq_of_lt (by omega)
  have mb : mag b = b := Nat.mod_eq_of_lt (by omega)
  have na : nan a = false := by simp [nan, ma]; omega
  have nb : nan b = false := by simp [nan, mb]; omega
  have pa : place a = a := by simp [place, sa, ma]
  have pb : place b = b := by simp [place, sb, mb]
  have h1 : subEpi (maxPs a b) (minPs a b) = getUlps a b := by
    unfold subEpi maxPs minPs getUlps flt
    simp only [na, nb, pa, pb, Bool.not_false, Bool.true_and, decide_eq_true_eq]
    (repeat' split) <;> omega
  have h2 : getUlps a b ≤ 0x7f800000 := by
    unfold getUlps
    split <;> omega
  unfold laneUlps lanePlain equalUlps
  rw [h1, sa, sb]
  simp only [bne_self_eq_false, Bool.false_eq_true, if_false, decide_eq_true_eq]
  generalize getUlps a b = d at h2
  have sd : sign d = false := by simp [sign]; omega
  have sn : sign n = false := by simp [sign]; omega
  have md : mag d = d := Nat.mod_eq_of_lt (by omega)
  have mn : mag n = n := Nat.mod_eq_of_lt (by omega)
  have nd : nan d = false := by simp [nan, md]; omega
  have pd : place d = d := by simp [place, sd, md]
  have pn : place n = n := by simp [place, sn, mn]
  have h3 : maxPs d n = n ↔ d ≤ n := by
    unfold maxPs flt
    rw [nd, pd, pn]
    by_cases hnn : nan n = true
    · simp only [hnn, Bool.not_true, Bool.false_and, Bool.false_eq_true, if_false, true_iff]
      simp only [nan, mn, decide_eq_true_eq] at hnn
      omega
    · rw [Bool.not_eq_true] at hnn
      simp only [hnn, Bool.not_false, Bool.true_and, decide_eq_true_eq]
      split <;> omega
  by_cases h : d ≤ n
  · rw [if_pos (h3.mpr h), if_pos h]
  · rw [if_neg (fun h' => h (h3.mp h')), if_neg h]

/-- **C82, refuted for negative numbers.** With SSE 2, in a lane whose numbers are both negative the comparison says they are equal,
*whatever they are*. -/
theorem C82_lane_negative_refuted {a b n : Nat} (ha : 0x80000000 ≤ a) (ha' : a ≤ 0xff800000) (hb : 0x80000000 ≤ b) (hb' : b ≤ 0xff800000) (hn : n < 2 ^ 31) :
    laneUlps a b n = one := by
  have sa : sign a = true := by simp [sign]; omega
  have sb : sign b = true := by simp [sign]; omega
  have ma : mag a = a - 2 ^ 31 := by unfold mag; omega
  have mb : mag b = b - 2 ^ 31 := by unfold mag; omega
  have na : nan a = false := by simp [nan, ma]; omega
  have nb : nan b = false := by simp [nan, mb]; omega
  have pa : place a = -((a - 2 ^ 31 : Nat) : Int) := by simp only [place, sa, ma, if_true]
  have pb : place b = -((b - 2 ^ 31 : Nat) : Int) := by simp only [place, sb, mb, if_true]
  have h1 : subEpi (maxPs a b) (minPs a b) = 0 ∨ 2 ^ 31 ≤ subEpi (maxPs a b) (minPs a b) := by
    unfold subEpi maxPs minPs flt
    simp only [na, nb, pa, pb, Bool.not_false, Bool.true_and, decide_eq_true_eq]
    (repeat' split) <;> omega
  have sn : sign n = false := by simp [sign]; omega
  have pn : place n = n := by
    have mn : mag n = n := Nat.mod_eq_of_lt hn
    simp [place, sn, mn]
  unfold laneUlps
  generalize subEpi (maxPs a b) (minPs a b) = d at h1
  have hd : place d ≤ 0 := by
    rcases h1 with h1 | h1
    · subst h1; decide
    · have : sign d = true := by simp [sign]; omega
      simp only [place, this, if_true]
      omega
  have hf : flt n d = false := by
    unfold flt
    rw [pn]
    simp
    intros
    omega
  rw [if_pos]
  unfold maxPs
  rw [hf]
  simp

/-- **C82, refuted for numbers of different signs.** With SSE 2, if only some of the lanes have numbers of different signs, those lanes are not
compared by `==`: a number and a negative number of no greater magnitude are equal, *whatever they are* (so 1 and -1). -/
theorem C82_lane_signs_refuted {a b n : Nat} (ha : a ≤ 0x7f800000) (hb : b ≤ a) (h0 : 0 < b) (hn : n < 2 ^ 31) :
    laneUlps a (2 ^ 31 + b) n = one ∧ equalUlps a (2 ^ 31 + b) n = false := by
  have sa : sign a = false := by simp [sign]; omega
  have sb : sign (2 ^ 31 + b) = true := by simp [sign]
  have ma : mag a = a := Nat.mod_eq_of_lt (by omega)
  have mb : mag (2 ^ 31 + b) = b := by unfold mag; omega
  have na : nan a = false := by simp [nan, ma]; omega
  have nb : nan (2 ^ 31 + b) = false := by simp [nan, mb]; omega
  have pa : place a = a := by simp [place, sa, ma]
  have pb : place (2 ^ 31 + b) = -(b : Int) := by simp only [place, sb, mb, if_true]
  constructor
  · have h1 : 2 ^ 31 ≤ subEpi (maxPs a (2 ^ 31 + b)) (minPs a (2 ^ 31 + b)) := by
      unfold subEpi maxPs minPs flt
      simp only [na, nb, pa, pb, Bool.not_false, Bool.true_and, decide_eq_true_eq]
      (repeat' split) <;> omega
    have sn : sign n = false := by simp [sign]; omega
    have pn : place n = n := by
      have mn : mag n = n := Nat.mod_eq_of_lt hn
      simp [place, sn, mn]
    unfold laneUlps
    generalize subEpi (maxPs a (2 ^ 31 + b)) (minPs a (2 ^ 31 + b)) = d at h1
    have hd : place d ≤ 0 := by
      have : sign d = true := by simp [sign]; omega
      simp only [place, this, if_true]
      omega
    have hf : flt n d = false := by
      unfold flt
      rw [pn]
      simp
      intros
      omega
    rw [if_pos]
    unfold maxPs
    rw [hf]
    simp
  · unfold equalUlps
    rw [sa, sb]
    simp only [Bool.false_bne, if_true, feq, pa, pb]
    simp
    intros
    omega

/-- **C82.** Without SSE 2, and for packed vectors of two always, every lane says what `CCFloatEqualUlps` says.  With SSE 2 they do if all the numbers
compared are non-negative. -/
theorem C82_vectors_partial (l : Level) (a b m : V4 Nat) (f : Nat → Nat → Nat → Nat) (hf : f = fun a b n => if equalUlps a b n then one else 0)
    (h : l.hasSse2 = true → ∀ i, a.lane i ≤ 0x7f800000 ∧ b.lane i ≤ 0x7f800000 ∧ m.lane i < 2 ^ 31) :
    (z2 l a b m).x = f a.x b.x m.x ∧ (z2 l a b m).y = f a.y b.y m.y ∧
      (z3 l a b m).x = f a.x b.x m.x ∧ (z3 l a b m).y = f a.y b.y m.y ∧ (z3 l a b m).z = f a.z b.z m.z ∧
      z4 l a b m = ⟨f a.x b.x m.x, f a.y b.y m.y, f a.z b.z m.z, f a.w b.w m.w⟩ ∧
      p2 a b m = ⟨f a.x b.x m.x, f a.y b.y m.y, f a.z b.z m.z, f a.w b.w m.w⟩ := by
  have hfl : f = lanePlain := hf
  rw [hfl]
  by_cases hs : l.hasSse2 = true
  · have h := h hs
    have s : ∀ {x : Nat}, x ≤ 0x7f800000 → sign x = false := by
      intro x hx
      simp [sign]
      omega
    have sx : (sign a.x != sign b.x) = false := by
      have h1 : sign a.x = false := s (h 0).1
      have h2 : sign b.x = false := s (h 0).2.1
      rw [h1, h2]
      rfl
    have e0 := C82_lane_partial (h 0).1 (h 0).2.1 (h 0).2.2
    have e1 := C82_lane_partial (h 1).1 (h 1).2.1 (h 1).2.2
    have e2 := C82_lane_partial (h 2).1 (h 2).2.1 (h 2).2.2
    have e3 := C82_lane_partial (h 3).1 (h 3).2.1 (h 3).2.2
    simp only [Verif.Vec.V4.lane] at e0 e1 e2 e3
    simp only [z2, z3, z4, p2, hs, if_true, sx, Bool.false_and, Bool.false_eq_true, if_false, e0, e1, e2, e3, and_self]
  · rw [Bool.not_eq_true] at hs
    simp only [z2, z3, z4, p2, hs, Bool.false_eq_true, if_false, and_self]

/-! The hypotheses can be met: 1 and the number after it, 1 and 2, -1 and -2, 1 and -1. -/

example : equalUlps 0x3f800000 0x3f800001 1 = true ∧ equalUlps 0x3f800000 0x40000000 1 = false := by decide

example : laneUlps 0xbf800000 0xc0000000 0 = one ∧ equalUlps 0xbf800000 0xc0000000 0 = false := by decide

example : (z2 .sse2 ⟨0x3f800000, 0, 0, 0⟩ ⟨0xbf800000, 0, 0, 0⟩ ⟨0, 0, 0, 0⟩).x = one ∧
    (z2 .plain ⟨0x3f800000, 0, 0, 0⟩ ⟨0xbf800000, 0, 0, 0⟩ ⟨0, 0, 0, 0⟩).x = 0 := by decide

#print axioms C82_number_partial
#print axioms C82_number_laws
#print axioms C82_zero_refuted
#print axioms C82_nan_refuted
#print axioms C82_lane_partial
#print axioms C82_lane_negative_refuted
#print axioms C82_lane_signs_refuted
#print axioms C82_vectors_partial

end Verif.Ulps
