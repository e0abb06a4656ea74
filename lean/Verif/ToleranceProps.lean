import Verif.Tolerance
import Mathlib.Data.Finset.Max
import Mathlib.Data.Finset.Prod
import Mathlib.Tactic.Positivity
import Mathlib.Tactic.Linarith
import Mathlib.Tactic.NormNum

/-!
C145: the comparisons of floats that allow for a difference accept what is within it and reject what is clearly beyond it.
-/

namespace Verif.Tolerance

/-! ## What rounding does -/

theorem le_trans' {a b c : F} (h : le a b = true) (k : le b c = true) : le a c = true := by
  rcases a with _ | s | a <;> rcases b with _ | t | b <;> rcases c with _ | u | c <;> (try cases s) <;> (try cases t) <;> (try cases u) <;> simp_all [le]
  exact h.trans k

theorem le_neg {a b : F} (h : le a b = true) : le (neg b) (neg a) = true := by
  rcases a with _ | s | a <;> rcases b with _ | t | b <;> (try cases s) <;> (try cases t) <;> simp_all [le, neg]

theorem neg_neg' (a : F) : neg (neg a) = a := by rcases a with _ | s | a <;> simp [neg]

theorem fabs_neg (a : F) : fabs (neg a) = fabs a := by rcases a with _ | s | a <;> simp [neg, fabs]

theorem fabs_of_nonneg {a : F} (h : le (.fin 0) a = true) : fabs a = a := by
  rcases a with _ | s | a <;> (try cases s) <;> simp_all [le, fabs]

theorem fabs_rnd (R : Rounding) (q : ℚ) : fabs (R.rnd q) = R.rnd |q| := by
  have key : ∀ p, 0 ≤ p → fabs (R.rnd p) = R.rnd p := fun p hp => fabs_of_nonneg (by
    have := R.mono 0 p hp
    rwa [R.exact 0 R.zero] at this)
  rcases le_total 0 q with h | h
  · rw [abs_of_nonneg h, key q h]
  · rw [abs_of_nonpos h, ← key (-q) (by linarith), R.odd, fabs_neg]

/-! ## Absolute -/

/-- C145: numbers that are at most `d` apart are accepted, and numbers that are further apart than some float beyond `d` are not. -/
theorem C145_absolute (R : Rounding) (a b d : ℚ) (hd : R.float d) :
    (|a - b| ≤ d → equalAbsolute R (.fin a) (.fin b) (.fin d) = true) ∧
      ((∃ f, R.float f ∧ d < f ∧ f ≤ |a - b|) → equalAbsolute R (.fin a) (.fin b) (.fin d) = false) := by
  have e : equalAbsolute R (.fin a) (.fin b) (.fin d) = le (R.rnd |a - b|) (.fin d) := by
    simp only [equalAbsolute, sub, fabs_rnd]
  rw [e]
  refine ⟨fun h => ?_, fun ⟨f, hf, h1, h2⟩ => ?_⟩
  · have := R.mono _ _ h
    rwa [R.exact d hd] at this
  · have m := R.mono _ _ h2
    rw [R.exact f hf] at m
    cases k : le (R.rnd |a - b|) (.fin d)
    · rfl
    · have := le_trans' m k
      simp only [le, decide_eq_true_eq] at this
      exact absurd this (not_le.mpr h1)

/-- C145: if the difference of the numbers is a float, the answer is exact. -/
theorem C145_absolute_exact (R : Rounding) (a b d : ℚ) (hs : R.float |a - b|) : equalAbsolute R (.fin a) (.fin b) (.fin d) = true ↔ |a - b| ≤ d := by
  simp only [equalAbsolute, sub, fabs_rnd, R.exact _ hs, le, decide_eq_true_eq]

/-! ## Relative -/

theorem greater (a b : ℚ) : (if gt (fabs (.fin a)) (fabs (.fin b)) then fabs (.fin a) else fabs (.fin b)) = .fin (max |a| |b|) := by
  rcases le_or_gt |a| |b| with h | h
  · rw [max_eq_right h]; simp [gt, le, fabs, h]
  · rw [max_eq_left h.le]; simp [gt, le, fabs, h]

theorem equalRelative_fin (R : Rounding) (a b r : ℚ) : equalRelative R (.fin a) (.fin b) (.fin r) = le (R.rnd |a - b|) (R.rnd (max |a| |b| * r)) := by
  simp only [equalRelative, greater, sub, fabs_rnd, mul]

/-- C145: numbers that are at most the given part of the greater one apart are accepted, and numbers are not between whose difference and that part there are two floats. -/
theorem C145_relative (R : Rounding) (a b r : ℚ) :
    (|a - b| ≤ max |a| |b| * r → equalRelative R (.fin a) (.fin b) (.fin r) = true) ∧
      ((∃ f g, R.float f ∧ R.float g ∧ max |a| |b| * r ≤ f ∧ f < g ∧ g ≤ |a - b|) → equalRelative R (.fin a) (.fin b) (.fin r) = false) := by
  rw [equalRelative_fin]
  refine ⟨fun h => R.mono _ _ h, fun ⟨f, g, hf, hg, h1, h2, h3⟩ => ?_⟩
  have m1 := R.mono _ _ h1
  have m2 := R.mono _ _ h3
  rw [R.exact f hf] at m1
  rw [R.exact g hg] at m2
  cases k : le (R.rnd |a - b|) (R.rnd (max |a| |b| * r))
  · rfl
  · have := le_trans' m2 (le_trans' k m1)
    simp only [le, decide_eq_true_eq] at this
    exact absurd this (not_le.mpr h2)

/-- C145: with a part of two or more all numbers are accepted. -/
theorem C145_relative_all (R : Rounding) (a b r : ℚ) (hr : 2 ≤ r) : equalRelative R (.fin a) (.fin b) (.fin r) = true := by
  refine (C145_relative R a b r).1 ?_
  have h1 : |a - b| ≤ |a| + |b| := abs_sub a b
  have h2 := le_max_left |a| |b|
  have h3 := le_max_right |a| |b|
  have h4 : 0 ≤ max |a| |b| := le_trans (abs_nonneg a) h2
  nlinarith

/-! ## Both -/

theorem sub_comm' (R : Rounding) (a b : F) : fabs (sub R a b) = fabs (sub R b a) := by
  rcases a with _ | s | a <;> rcases b with _ | t | b
  case fin.fin => simp only [sub, fabs_rnd, abs_sub_comm a b]
  all_goals (try cases s) <;> (try cases t) <;> rfl

theorem greater_comm {a b : F} (ha : a ≠ .nan) (hb : b ≠ .nan) : (if gt (fabs a) (fabs b) then fabs a else fabs b) = if gt (fabs b) (fabs a) then fabs b else fabs a := by
  rcases a with _ | s | a
  · exact absurd rfl ha
  · rcases b with _ | t | b
    · exact absurd rfl hb
    · simp [gt, fabs]
    · simp [gt, fabs, le]
  · rcases b with _ | t | b
    · exact absurd rfl hb
    · simp [gt, fabs, le]
    · rw [greater, greater, max_comm]

/-- C145: what is not a number is equal to nothing, whatever is allowed for. -/
theorem C145_nan (R : Rounding) (a b d : F) (h : a = .nan ∨ b = .nan ∨ d = .nan) : equalRelative R a b d = false ∧ equalAbsolute R a b d = false := by
  have n : ∀ x, le x .nan = false := fun x => by rcases x with _ | s | x <;> (try cases s) <;> rfl
  have m : ∀ x, mul R x .nan = .nan := fun x => by rcases x with _ | s | x <;> rfl
  have s : a = .nan ∨ b = .nan → sub R a b = .nan := by
    rintro (h | h) <;> subst h
    · rfl
    · rcases a with _ | s | x <;> rfl
  rcases h with h | h | h
  · simp only [equalRelative, equalAbsolute, s (.inl h), fabs, le, and_self]
  · simp only [equalRelative, equalAbsolute, s (.inr h), fabs, le, and_self]
  · subst h; simp only [equalRelative, equalAbsolute, m, n, and_self]

/-- C145: the order does not matter. -/
theorem C145_symmetric (R : Rounding) (a b d : F) : equalRelative R a b d = equalRelative R b a d ∧ equalAbsolute R a b d = equalAbsolute R b a d := by
  refine ⟨?_, by simp only [equalAbsolute, sub_comm' R a b]⟩
  by_cases ha : a = .nan
  · rw [(C145_nan R a b d (.inl ha)).1, (C145_nan R b a d (.inr (.inl ha))).1]
  by_cases hb : b = .nan
  · rw [(C145_nan R a b d (.inr (.inl hb))).1, (C145_nan R b a d (.inl hb)).1]
  simp only [equalRelative, sub_comm' R a b, greater_comm ha hb]

/-- C145: every number is equal to itself. -/
theorem C145_reflexive (R : Rounding) (a d : ℚ) (hd : 0 ≤ d) : equalRelative R (.fin a) (.fin a) (.fin d) = true ∧ equalAbsolute R (.fin a) (.fin a) (.fin d) = true := by
  refine ⟨(C145_relative R a a d).1 ?_, (C145_absolute_exact R a a d ?_).mpr ?_⟩
  · rw [sub_self, abs_zero, max_self]; exact mul_nonneg (abs_nonneg a) hd
  · rw [sub_self, abs_zero]; exact R.zero
  · rwa [sub_self, abs_zero]

/-- C145: a greater allowance accepts no less. -/
theorem C145_monotone (R : Rounding) (a b d e : ℚ) (h : d ≤ e) :
    (equalRelative R (.fin a) (.fin b) (.fin d) = true → equalRelative R (.fin a) (.fin b) (.fin e) = true) ∧
      (equalAbsolute R (.fin a) (.fin b) (.fin d) = true → equalAbsolute R (.fin a) (.fin b) (.fin e) = true) := by
  refine ⟨fun k => ?_, fun k => le_trans' k (by simp [le, h])⟩
  rw [equalRelative_fin] at k ⊢
  exact le_trans' k (R.mono _ _ (mul_le_mul_of_nonneg_left h (le_trans (abs_nonneg a) (le_max_left _ _))))

/-- C145, refuted for the infinities: an infinity is not equal to itself, whatever is allowed for, though `==` says it is; with an infinite part allowed zero is not equal to itself; and an infinity is equal to every number, and to the other infinity, if an infinite difference or any positive part is allowed for. -/
theorem C145_infinite_refuted (R : Rounding) (s : Bool) (q r : ℚ) (hr : 0 < r) (d : F) :
    equalRelative R (.inf s) (.inf s) d = false ∧ equalAbsolute R (.inf s) (.inf s) d = false ∧ equalRelative R (.fin 0) (.fin 0) (.inf false) = false ∧
      equalAbsolute R (.inf s) (.fin q) (.inf false) = true ∧ equalRelative R (.inf s) (.fin q) (.fin r) = true ∧ equalRelative R (.inf s) (.inf !s) (.fin r) = true := by
  have r0 : r ≠ 0 := ne_of_gt hr
  have r1 : ¬ r < 0 := not_lt.mpr hr.le
  refine ⟨?_, ?_, ?_, ?_, ?_, ?_⟩
  · simp [equalRelative, sub, fabs, le]
  · simp [equalAbsolute, sub, fabs, le]
  · have := R.exact 0 R.zero
    simp [equalRelative, sub, fabs, mul, gt, le, this]
  · cases s <;> simp [equalAbsolute, sub, fabs, le]
  · cases s <;> simp [equalRelative, sub, fabs, mul, gt, le, r0, r1]
  · cases s <;> simp [equalRelative, sub, fabs, mul, gt, le, r0, r1]

/-! ## A rounding that has the laws -/

open Classical in
/-- The greatest of the numbers `S` that are admitted at `q`, zero if there are none. -/
noncomputable def top (S : Finset ℚ) (_h0 : 0 ∈ S) (A : ℚ → ℚ → Prop) (q : ℚ) : ℚ :=
  (insert 0 (S.filter fun f => A f q)).max' ⟨0, Finset.mem_insert_self _ _⟩

open Classical in
theorem top_mem {S : Finset ℚ} (h0 : 0 ∈ S) (A : ℚ → ℚ → Prop) (q : ℚ) : top S h0 A q ∈ S ∧ (top S h0 A q = 0 ∨ A (top S h0 A q) q) := by
  have h := Finset.max'_mem (insert 0 (S.filter fun f => A f q)) ⟨0, Finset.mem_insert_self _ _⟩
  rcases Finset.mem_insert.mp h with h | h
  · exact ⟨by rw [top, h]; exact h0, .inl h⟩
  · exact ⟨(Finset.mem_filter.mp h).1, .inr (Finset.mem_filter.mp h).2⟩

open Classical in
theorem le_top {S : Finset ℚ} (h0 : 0 ∈ S) (A : ℚ → ℚ → Prop) (q f : ℚ) (hf : f ∈ S) (h : f = 0 ∨ A f q) : f ≤ top S h0 A q := by
  refine Finset.le_max' _ _ ?_
  rcases h with h | h
  · exact h ▸ Finset.mem_insert_self _ _
  · exact Finset.mem_insert_of_mem (Finset.mem_filter.mpr ⟨hf, h⟩)

theorem top_mono {S : Finset ℚ} (h0 : 0 ∈ S) {A : ℚ → ℚ → Prop} (hA : ∀ f p q, p ≤ q → A f p → A f q) {p q : ℚ} (h : p ≤ q) : top S h0 A p ≤ top S h0 A q := by
  obtain ⟨h1, h2⟩ := top_mem h0 A p
  exact le_top h0 A q _ h1 (h2.imp id (hA _ _ _ h))

open Classical in
/-- The rounding of a number that is not negative: infinite from some number on. -/
noncomputable def up (S : Finset ℚ) (h0 : 0 ∈ S) (A : ℚ → ℚ → Prop) (O : ℚ → Prop) (q : ℚ) : F := if O q then .inf false else .fin (top S h0 A q)

theorem up_mono {S : Finset ℚ} (h0 : 0 ∈ S) {A : ℚ → ℚ → Prop} {O : ℚ → Prop} (hA : ∀ f p q, p ≤ q → A f p → A f q) (hO : ∀ p q, p ≤ q → O p → O q) {p q : ℚ} (h : p ≤ q) : le (up S h0 A O p) (up S h0 A O q) = true := by
  unfold up
  by_cases hp : O p
  · rw [if_pos hp, if_pos (hO p q h hp)]; rfl
  · rw [if_neg hp]
    split
    · rfl
    · simp [le, top_mono h0 hA h]

theorem up_nonneg {S : Finset ℚ} (h0 : 0 ∈ S) (A : ℚ → ℚ → Prop) (O : ℚ → Prop) (q : ℚ) : le (.fin 0) (up S h0 A O q) = true := by
  unfold up
  split
  · rfl
  · simp [le, le_top h0 A q 0 h0 (.inl rfl)]

/-- A rounding by a rule for the numbers that are not negative: `A f q` if `q` is rounded to `f` or further from zero, `O q` if it is rounded to infinity. -/
noncomputable def rounding (S : Finset ℚ) (h0 : 0 ∈ S) (hS : ∀ f ∈ S, 0 ≤ f) (A : ℚ → ℚ → Prop) (O : ℚ → Prop) (hA : ∀ f p q, p ≤ q → A f p → A f q) (hO : ∀ p q, p ≤ q → O p → O q)
    (h1 : ∀ f ∈ S, f = 0 ∨ A f f) (h2 : ∀ f ∈ S, ∀ g ∈ S, f < g → ¬ A g f) (h3 : ∀ f ∈ S, ¬ O f) : Rounding where
  float q := |q| ∈ S
  rnd q := if 0 ≤ q then up S h0 A O q else neg (up S h0 A O (-q))
  zero := by rwa [abs_zero]
  exact q hq := by
    have key : ∀ f ∈ S, up S h0 A O f = .fin f := fun f hf => by
      unfold up
      rw [if_neg (h3 f hf)]
      congr 1
      refine le_antisymm ?_ (le_top h0 A f f hf (h1 f hf))
      obtain ⟨k1, k2⟩ := top_mem h0 A f
      refine not_lt.mp fun k => ?_
      rcases k2 with k2 | k2
      · rw [k2] at k; exact absurd (hS f hf) (not_le.mpr k)
      · exact h2 f hf _ k1 k k2
    split
    · rename_i h; rw [abs_of_nonneg h] at hq; exact key q hq
    · rename_i h; rw [abs_of_neg (not_le.mp h)] at hq; rw [key _ hq, neg, neg_neg]
  mono p q h := by
    split <;> split
    · exact up_mono h0 hA hO h
    · rename_i a b; exact absurd (a.trans h) b
    · exact le_trans' (b := .fin 0) (by simpa [neg] using le_neg (up_nonneg h0 A O (-p))) (up_nonneg h0 A O q)
    · exact le_neg (up_mono h0 hA hO (neg_le_neg h))
  odd q := by
    have z : up S h0 A O 0 = .fin 0 := by
      unfold up
      rw [if_neg (h3 0 h0)]
      congr 1
      obtain ⟨k1, k2⟩ := top_mem h0 A 0
      rcases k2 with k2 | k2
      · exact k2
      · rcases eq_or_lt_of_le (hS _ k1) with k | k
        · exact k.symm
        · exact absurd k2 (h2 0 h0 _ k1 k)
    rcases lt_trichotomy q 0 with h | h | h
    · rw [if_pos (by linarith), if_neg (by linarith), neg_neg']
    · subst h; simp [z, neg]
    · rw [if_neg (by linarith), if_pos h.le, neg_neg]

theorem finite_floats (M n k : Nat) : ∃ S : Finset ℚ, ∀ q, q ∈ S ↔ ∃ m e : Nat, m < M ∧ e < n ∧ (m : ℚ) * 2 ^ e / 2 ^ k = q := by
  refine ⟨(Finset.range M ×ˢ Finset.range n).image fun x => (x.1 : ℚ) * 2 ^ x.2 / 2 ^ k, fun q => ?_⟩
  simp only [Finset.mem_image, Finset.mem_product, Finset.mem_range, Prod.exists, and_assoc]

/-- The numbers of `float` (binary32) that are not negative: a significand of 24 bits times a power of two from -149 to 104. -/
noncomputable def floats : Finset ℚ := Classical.choose (finite_floats (2 ^ 24) 254 149)

theorem floats_spec (q : ℚ) : q ∈ floats ↔ ∃ m e : Nat, m < 2 ^ 24 ∧ e < 254 ∧ (m : ℚ) * 2 ^ e / 2 ^ 149 = q := Classical.choose_spec (finite_floats (2 ^ 24) 254 149) q

theorem floats_zero : (0 : ℚ) ∈ floats := (floats_spec 0).mpr ⟨0, 0, by norm_num, by norm_num, by simp⟩

theorem mem_floats (m e : Nat) (hm : m < 2 ^ 24) (he : e < 254) : (m : ℚ) * 2 ^ e / 2 ^ 149 ∈ floats := (floats_spec _).mpr ⟨m, e, hm, he, rfl⟩

theorem floats_nonneg (f : ℚ) (h : f ∈ floats) : 0 ≤ f := by
  obtain ⟨m, e, _, _, rfl⟩ := (floats_spec f).mp h
  positivity

/-- All of them are below the number from which on rounding to nearest overflows. -/
theorem floats_lt (f : ℚ) (h : f ∈ floats) : f < 2 ^ 128 - 2 ^ 103 := by
  obtain ⟨m, e, h1, h2, rfl⟩ := (floats_spec f).mp h
  have a : (m : ℚ) ≤ 2 ^ 24 - 1 := by
    have : m + 1 ≤ 2 ^ 24 := h1
    have : ((m + 1 : ℕ) : ℚ) ≤ ((2 ^ 24 : ℕ) : ℚ) := by exact_mod_cast this
    push_cast at this
    linarith
  have b : (2 : ℚ) ^ e ≤ 2 ^ 253 := pow_le_pow_right₀ (by norm_num) (by omega)
  have c : (m : ℚ) * 2 ^ e ≤ (2 ^ 24 - 1) * 2 ^ 253 := mul_le_mul a b (by positivity) (by norm_num)
  have d : (m : ℚ) * 2 ^ e / 2 ^ 149 ≤ (2 ^ 24 - 1) * 2 ^ 253 / 2 ^ 149 := div_le_div_of_nonneg_right c (by positivity)
  exact lt_of_le_of_lt d (by norm_num)

open Classical in
/-- The next float toward zero. -/
noncomputable def before (S : Finset ℚ) (g : ℚ) : ℚ := if h : (S.filter (· < g)).Nonempty then (S.filter (· < g)).max' h else g

theorem before_le {S : Finset ℚ} {f g : ℚ} (hf : f ∈ S) (h : f < g) : f ≤ before S g ∧ before S g < g ∧ before S g ∈ S := by
  have m : f ∈ S.filter (· < g) := Finset.mem_filter.mpr ⟨hf, h⟩
  have n : (S.filter (· < g)).Nonempty := ⟨f, m⟩
  rw [before, dif_pos n]
  have k := Finset.mem_filter.mp (Finset.max'_mem _ n)
  exact ⟨Finset.le_max' _ _ m, k.2, k.1⟩

/-- Rounding to nearest of binary32; `even` says which of two floats equally near is taken. -/
noncomputable def nearest (even : ℚ → Prop) : Rounding :=
  rounding floats floats_zero floats_nonneg (fun g q => (g + before floats g) / 2 < q ∨ ((g + before floats g) / 2 = q ∧ even g)) (fun q => 2 ^ 128 - 2 ^ 103 ≤ q)
    (fun f p q h k => by
      rcases eq_or_lt_of_le h with rfl | h
      · exact k
      · rcases k with k | k
        · exact .inl (k.trans h)
        · exact .inl (k.1 ▸ h))
    (fun p q h k => k.trans h)
    (fun f hf => by
      rcases eq_or_lt_of_le (floats_nonneg f hf) with h | h
      · exact .inl h.symm
      · have := (before_le floats_zero h).2.1
        exact .inr (.inl (by linarith)))
    (fun f hf g _ h k => by
      obtain ⟨k1, k2, _⟩ := before_le hf h
      rcases k with k | k
      · linarith
      · linarith [k.1])
    (fun f hf k => absurd (floats_lt f hf) (not_lt.mpr k))

open Classical in
/-- It is: below the number from which on it overflows, no float is nearer. -/
theorem nearest_spec (even : ℚ → Prop) (q : ℚ) (h0 : 0 ≤ q) (hq : q < 2 ^ 128 - 2 ^ 103) : ∃ r ∈ floats, (nearest even).rnd q = .fin r ∧ ∀ f ∈ floats, |q - r| ≤ |q - f| := by
  have e : (nearest even).rnd q = up floats floats_zero (fun g q => (g + before floats g) / 2 < q ∨ ((g + before floats g) / 2 = q ∧ even g)) (fun q => 2 ^ 128 - 2 ^ 103 ≤ q) q := if_pos h0
  rw [e, up, if_neg (not_le.mpr hq)]
  generalize hA : (fun g q : ℚ => (g + before floats g) / 2 < q ∨ ((g + before floats g) / 2 = q ∧ even g)) = A
  obtain ⟨k1, k2⟩ := top_mem floats_zero A q
  refine ⟨_, k1, rfl, fun f hf => ?_⟩
  generalize hr : top floats floats_zero A q = r at k1 k2 ⊢
  rcases lt_trichotomy f r with h | h | h
  · obtain ⟨b1, b2, b3⟩ := before_le hf h
    have k : (r + before floats r) / 2 ≤ q := by
      rcases k2 with k2 | k2
      · rw [k2] at h; exact absurd (floats_nonneg f hf) (not_le.mpr h)
      · rw [← hA] at k2; exact k2.elim (fun k => k.le) (fun k => k.1.le)
    refine le_trans ?_ (le_abs_self _)
    rw [abs_le]; constructor <;> linarith
  · rw [h]
  · have n : (floats.filter (r < ·)).Nonempty := ⟨f, Finset.mem_filter.mpr ⟨hf, h⟩⟩
    have g := Finset.mem_filter.mp (Finset.min'_mem _ n)
    have gf : (floats.filter (r < ·)).min' n ≤ f := Finset.min'_le _ _ (Finset.mem_filter.mpr ⟨hf, h⟩)
    generalize hg : (floats.filter (r < ·)).min' n = x at g gf
    obtain ⟨b1, b2, b3⟩ := before_le k1 g.2
    have b4 : before floats x ≤ r := by
      refine not_lt.mp fun b => ?_
      have := Finset.min'_le _ _ (Finset.mem_filter.mpr ⟨b3, b⟩ : before floats x ∈ floats.filter (r < ·))
      rw [hg] at this
      exact absurd b2 (not_lt.mpr this)
    have k : q ≤ (x + r) / 2 := by
      refine not_lt.mp fun b => ?_
      have : A x q := by
        rw [← hA]; exact .inl (by linarith)
      have := le_top floats_zero A q x g.1 (.inr this)
      rw [hr] at this
      exact absurd g.2 (not_lt.mpr this)
    refine le_trans ?_ (neg_le_abs _)
    rw [abs_le]; constructor <;> linarith

/-- Rounding toward zero of binary32. -/
noncomputable def towardZero : Rounding :=
  rounding floats floats_zero floats_nonneg (fun g q => g ≤ q) (fun _ => False) (fun _ _ _ h k => k.trans h) (fun _ _ _ k => k) (fun _ _ => .inr le_rfl) (fun _ _ _ _ h k => absurd h (not_lt.mpr k)) (fun _ _ => id)

/-- One and one and a bit, with a bit and a half allowed for, compare equal under rounding to nearest; with half a bit they do not. -/
example : equalAbsolute (nearest fun _ => True) (.fin 1) (.fin (1 + 1 / 2 ^ 23)) (.fin (3 / 2 ^ 24)) = true ∧ equalAbsolute (nearest fun _ => True) (.fin 1) (.fin (1 + 1 / 2 ^ 23)) (.fin (1 / 2 ^ 24)) = false := by
  have f : ∀ m e : Nat, m < 2 ^ 24 → e < 254 → (nearest fun _ => True).float ((m : ℚ) * 2 ^ e / 2 ^ 149) := fun m e hm he => by
    have := mem_floats m e hm he
    show |_| ∈ floats
    rwa [abs_of_nonneg (floats_nonneg _ this)]
  have f1 := f 3 125 (by norm_num) (by norm_num)
  have f2 := f 1 125 (by norm_num) (by norm_num)
  have f3 := f 1 126 (by norm_num) (by norm_num)
  refine ⟨(C145_absolute _ 1 _ _ ?_).1 ?_, (C145_absolute _ 1 _ _ ?_).2 ⟨1 / 2 ^ 23, ?_, ?_, ?_⟩⟩
  · convert f1 using 1; norm_num
  · rw [abs_le]; constructor <;> norm_num
  · convert f2 using 1; norm_num
  · convert f3 using 1; norm_num
  · norm_num
  · rw [abs_of_nonpos (by norm_num)]; norm_num

/-- A hundred and a hundred and one are within a hundredth of the greater one. -/
example : equalRelative (nearest fun _ => True) (.fin 100) (.fin 101) (.fin (1 / 100)) = true := by
  refine (C145_relative _ _ _ _).1 ?_
  rw [abs_of_nonpos (by norm_num)]
  refine le_trans ?_ (mul_le_mul_of_nonneg_right (le_max_right |(100 : ℚ)| |101|) (by norm_num))
  rw [abs_of_nonneg (by norm_num)]; norm_num

/-- C145: an infinite tolerance accepts all numbers but the pair of zeros (the product of zero and infinity is no number). -/
theorem C145_relative_infinite (R : Rounding) (a b : ℚ) : equalRelative R (.fin a) (.fin b) (.inf false) = true ↔ a ≠ 0 ∨ b ≠ 0 := by
  have m := R.mono 0 |a - b| (abs_nonneg _)
  rw [R.exact 0 R.zero] at m
  have hm : ¬ max |a| |b| < 0 := not_lt.mpr ((abs_nonneg a).trans (le_max_left _ _))
  have e : equalRelative R (.fin a) (.fin b) (.inf false) = le (R.rnd |a - b|) (if max |a| |b| = 0 then .nan else .inf false) := by
    simp only [equalRelative, greater, sub, fabs_rnd, mul, hm]
    simp
  have z : max |a| |b| = 0 ↔ a = 0 ∧ b = 0 := by
    constructor
    · intro h
      exact ⟨abs_eq_zero.mp (le_antisymm (h ▸ le_max_left _ _) (abs_nonneg a)), abs_eq_zero.mp (le_antisymm (h ▸ le_max_right _ _) (abs_nonneg b))⟩
    · rintro ⟨rfl, rfl⟩; simp
  rw [e]
  by_cases h : max |a| |b| = 0
  · rw [if_pos h]
    obtain ⟨h1, h2⟩ := z.mp h
    have : le (R.rnd |a - b|) .nan = false := by rcases R.rnd |a - b| with _ | s | q <;> (try cases s) <;> simp [le]
    rw [this]; simp [h1, h2]
  · rw [if_neg h]
    have n : a ≠ 0 ∨ b ≠ 0 := by
      by_cases ha : a = 0
      · exact Or.inr fun hb => h (z.mpr ⟨ha, hb⟩)
      · exact Or.inl ha
    refine ⟨fun _ => n, fun _ => ?_⟩
    revert m
    rcases R.rnd |a - b| with _ | s | q <;> (try cases s) <;> simp [le]

#print axioms C145_absolute
#print axioms C145_absolute_exact
#print axioms C145_relative
#print axioms C145_relative_all
#print axioms C145_nan
#print axioms C145_symmetric
#print axioms C145_reflexive
#print axioms C145_monotone
#print axioms C145_infinite_refuted

#print axioms C145_relative_infinite

end Verif.Tolerance
