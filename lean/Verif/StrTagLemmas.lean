import Verif.StrTag
import Verif.Utf8Props
/-!
# Lemmas about tagged words
-/
namespace Verif.Str

/-- The digits, each of `b` bits, the first one lowest. -/
def pack (b : Nat) : List Nat → Nat
  | [] => 0
  | d :: ds => d + 2 ^ b * pack b ds

/-- The word with these digits. -/
def word (set : Nat) (ds : List Nat) : Nat := set + 4 * pack (bits set) ds

/-- Digits of a tagged string of this set. -/
structure Digits (set : Nat) (ds : List Nat) : Prop where
  set_pos : 1 ≤ set
  set_le : set ≤ 3
  len : ds.length ≤ charMax set
  digit : ∀ d ∈ ds, 0 < d ∧ d < mapSize set

theorem pack_lt {b : Nat} {ds : List Nat} (h : ∀ d ∈ ds, d < 2 ^ b) : pack b ds < 2 ^ (b * ds.length) := by
  induction ds with
  | nil => simp [pack]
  | cons d ds ih =>
    have h1 := ih fun d hd => h d (by simp [hd])
    have h2 := h d (by simp)
    rw [pack, List.length_cons, Nat.mul_succ, Nat.pow_add, Nat.mul_comm (2 ^ (b * ds.length))]
    calc d + 2 ^ b * pack b ds < 2 ^ b + 2 ^ b * pack b ds := by omega
      _ = 2 ^ b * (pack b ds + 1) := by rw [Nat.mul_add]; omega
      _ ≤ 2 ^ b * 2 ^ (b * ds.length) := Nat.mul_le_mul_left _ h1

theorem pack_append (b : Nat) (xs ys : List Nat) : pack b (xs ++ ys) = pack b xs + 2 ^ (b * xs.length) * pack b ys := by
  induction xs with
  | nil => simp [pack]
  | cons x xs ih => rw [List.cons_append, pack, pack, ih, List.length_cons, Nat.mul_succ, Nat.pow_add, Nat.mul_add, Nat.mul_comm (2 ^ (b * xs.length)) (2 ^ b), Nat.mul_assoc, Nat.add_assoc]

theorem pack_take {b : Nat} {ds : List Nat} (h : ∀ d ∈ ds, d < 2 ^ b) (n : Nat) : pack b ds % 2 ^ (b * n) = pack b (ds.take n) := by
  have h1 : pack b (ds.take n) < 2 ^ (b * (ds.take n).length) := pack_lt fun d hd => h d (List.mem_of_mem_take hd)
  by_cases hn : n ≤ ds.length
  · have e := pack_append b (ds.take n) (ds.drop n)
    rw [List.take_append_drop] at e
    rw [List.length_take, Nat.min_eq_left hn] at e h1
    rw [e, Nat.add_mul_mod_self_left, Nat.mod_eq_of_lt h1]
  · rw [List.take_of_length_le (by omega)]
    exact Nat.mod_eq_of_lt (Nat.lt_of_lt_of_le (pack_lt h) (Nat.pow_le_pow_right (by omega) (Nat.mul_le_mul_left _ (by omega))))

theorem pack_drop {b : Nat} {ds : List Nat} (h : ∀ d ∈ ds, d < 2 ^ b) (n : Nat) : pack b ds / 2 ^ (b * n) = pack b (ds.drop n) := by
  have h1 : pack b (ds.take n) < 2 ^ (b * (ds.take n).length) := pack_lt fun d hd => h d (List.mem_of_mem_take hd)
  by_cases hn : n ≤ ds.length
  · have e := pack_append b (ds.take n) (ds.drop n)
    rw [List.take_append_drop] at e
    rw [List.length_take, Nat.min_eq_left hn] at e h1
    rw [e, Nat.add_mul_div_left _ _ (Nat.two_pow_pos _), Nat.div_eq_of_lt h1, Nat.zero_add]
  · rw [List.drop_of_length_le (by omega), pack]
    exact Nat.div_eq_of_lt (Nat.lt_of_lt_of_le (pack_lt h) (Nat.pow_le_pow_right (by omega) (Nat.mul_le_mul_left _ (by omega))))

theorem pack_ge {b : Nat} {ds : List Nat} (h : ∀ d ∈ ds, 0 < d) (hn : ds ≠ []) : 2 ^ (b * (ds.length - 1)) ≤ pack b ds := by
  induction ds with
  | nil => simp at hn
  | cons d ds ih =>
    have h1 := h d (by simp)
    cases ds with
    | nil => simp [pack]; omega
    | cons e es =>
      have h2 := ih (fun d hd => h d (by simp [hd])) (by simp)
      simp only [List.length_cons, Nat.add_sub_cancel] at h2 ⊢
      rw [pack, Nat.mul_succ, Nat.pow_add, Nat.mul_comm]
      exact Nat.le_trans (Nat.mul_le_mul_left _ h2) (Nat.le_add_left _ _)

theorem pack_get {b : Nat} {ds : List Nat} (h : ∀ d ∈ ds, d < 2 ^ b) (i : Nat) : pack b ds / 2 ^ (b * i) % 2 ^ b = ds.getD i 0 := by
  rw [pack_drop h, show 2 ^ b = 2 ^ (b * 1) by rw [Nat.mul_one], pack_take fun d hd => h d (List.mem_of_mem_drop hd)]
  rw [List.getD_eq_getElem?_getD]
  by_cases hi : i < ds.length
  · rw [List.drop_eq_getElem_cons hi, List.take_succ_cons, List.take_zero, List.getElem?_eq_getElem hi]; simp [pack]
  · rw [List.drop_of_length_le (by omega)]; simp [pack]; rw [List.getElem?_eq_none (by omega)]; rfl

theorem pack_inj {b : Nat} {xs ys : List Nat} (hx : ∀ d ∈ xs, 0 < d ∧ d < 2 ^ b) (hy : ∀ d ∈ ys, 0 < d ∧ d < 2 ^ b) (h : pack b xs = pack b ys) : xs = ys := by
  induction xs generalizing ys with
  | nil =>
    cases ys with
    | nil => rfl
    | cons y ys => have := (hy y (by simp)).1; simp [pack] at h; omega
  | cons x xs ih =>
    have hx1 := hx x (by simp)
    cases ys with
    | nil => simp [pack] at h; omega
    | cons y ys =>
      have hy1 := hy y (by simp)
      simp only [pack] at h
      have e1 : x = y := by
        have := congrArg (· % 2 ^ b) h
        simpa [Nat.add_mul_mod_self_left, Nat.mod_eq_of_lt hx1.2, Nat.mod_eq_of_lt hy1.2] using this
      subst e1
      have e2 : pack b xs = pack b ys := Nat.eq_of_mul_eq_mul_left (Nat.two_pow_pos b) (by omega)
      rw [ih (fun d hd => hx d (by simp [hd])) (fun d hd => hy d (by simp [hd])) e2]

/-! ## The three sets -/

theorem mapSize_eq {set : Nat} (h1 : 1 ≤ set) (h3 : set ≤ 3) : mapSize set = 2 ^ bits set - 1 := by
  have : set = 1 ∨ set = 2 ∨ set = 3 := by omega
  rcases this with rfl | rfl | rfl <;> rfl

theorem bits_max {set : Nat} (h1 : 1 ≤ set) (h3 : set ≤ 3) : bits set * charMax set ≤ 60 ∧ 5 ≤ bits set ∧ bits set ≤ 7 ∧ 8 ≤ charMax set ∧ charMax set ≤ 12 ∧ (64 - 2) / bits set = charMax set := by
  have : set = 1 ∨ set = 2 ∨ set = 3 := by omega
  rcases this with rfl | rfl | rfl <;> decide

namespace Digits
variable {set : Nat} {ds es : List Nat}

theorem lt (h : Digits set ds) : ∀ d ∈ ds, d < 2 ^ bits set := fun d hd => by
  have := h.digit d hd; rw [mapSize_eq h.set_pos h.set_le] at this; omega

theorem both (h : Digits set ds) : ∀ d ∈ ds, 0 < d ∧ d < 2 ^ bits set := fun d hd => ⟨(h.digit d hd).1, h.lt d hd⟩

theorem mul_le (h : Digits set ds) : bits set * ds.length ≤ 60 :=
  Nat.le_trans (Nat.mul_le_mul_left _ h.len) (bits_max h.set_pos h.set_le).1

theorem sublist (h : Digits set ds) (hs : es.length ≤ ds.length) (hm : ∀ d ∈ es, d ∈ ds) : Digits set es :=
  ⟨h.set_pos, h.set_le, Nat.le_trans hs h.len, fun d hd => h.digit d (hm d hd)⟩

theorem take (h : Digits set ds) (n : Nat) : Digits set (ds.take n) :=
  h.sublist (by rw [List.length_take]; omega) fun _ => List.mem_of_mem_take

theorem drop (h : Digits set ds) (n : Nat) : Digits set (ds.drop n) :=
  h.sublist (by rw [List.length_drop]; omega) fun _ => List.mem_of_mem_drop

theorem append (h : Digits set ds) (h' : Digits set es) (hl : ds.length + es.length ≤ charMax set) : Digits set (ds ++ es) :=
  ⟨h.set_pos, h.set_le, by rw [List.length_append]; omega, fun d hd => by
    rcases List.mem_append.1 hd with hd | hd
    · exact h.digit d hd
    · exact h'.digit d hd⟩

theorem nil (h1 : 1 ≤ set) (h3 : set ≤ 3) : Digits set [] := ⟨h1, h3, by simp, by simp⟩

theorem pack_lt (h : Digits set ds) : pack (bits set) ds < 2 ^ 60 :=
  Nat.lt_of_lt_of_le (Str.pack_lt h.lt) (Nat.pow_le_pow_right (by omega) h.mul_le)

theorem word_lt (h : Digits set ds) : word set ds < 2 ^ 62 := by
  have := h.pack_lt; have := h.set_le
  rw [word]; omega

theorem setOf (h : Digits set ds) : setOf (word set ds) = set := by
  have := h.set_le
  rw [Str.setOf, word]; omega

theorem shift (h : Digits set ds) : word set ds >>> 2 = pack (bits set) ds := by
  have := h.set_le
  rw [word, Nat.shiftRight_eq_div_pow]; omega

theorem word_inj (h : Digits set ds) (h' : Digits set es) (e : word set ds = word set es) : ds = es :=
  pack_inj h.both h'.both (by rw [word, word] at e; omega)

end Digits

/-! ## Shifts and masks -/

theorem shl_some {x n : Nat} (hn : n < 64) (h : x * 2 ^ n < 2 ^ 64) : shl x n = some (x * 2 ^ n) := by
  rw [shl, if_pos hn, Nat.shiftLeft_eq, Nat.mod_eq_of_lt h]

theorem shr_some {x n : Nat} (hn : n < 64) : shr x n = some (x / 2 ^ n) := by
  rw [shr, if_pos hn, Nat.shiftRight_eq_div_pow]

theorem lowMask_some {n : Nat} (h0 : 0 < n) (hn : n ≤ 64) : lowMask n = some (2 ^ n - 1) := by
  have e : sub64 64 n = 64 - n := by rw [sub64, if_pos hn]
  rw [lowMask, e, shr_some (by omega)]
  congr 1
  have h2 : 2 ^ (64 - n) * 2 ^ n = 2 ^ 64 := by rw [← Nat.pow_add]; congr 1; omega
  have h3 : 0 < 2 ^ (64 - n) := Nat.two_pow_pos _
  have h4 : 0 < 2 ^ n := Nat.two_pow_pos _
  have e2 : ones = 2 ^ (64 - n) * (2 ^ n - 1) + (2 ^ (64 - n) - 1) := by
    rw [Nat.mul_sub, h2, ones, Nat.mul_one]
    have : 2 ^ (64 - n) ≤ 2 ^ 64 := Nat.pow_le_pow_right (by omega) (by omega)
    omega
  rw [e2, Nat.mul_add_div h3, Nat.div_eq_of_lt (by omega), Nat.add_zero]

theorem lowMask_zero : lowMask 0 = none := rfl

theorem and_mask (x n a : Nat) : x &&& ((2 ^ n - 1) * 2 ^ a) = x / 2 ^ a % 2 ^ n * 2 ^ a := by
  apply Nat.eq_of_testBit_eq
  intro i
  rw [Nat.testBit_and, ← Nat.shiftLeft_eq, ← Nat.shiftLeft_eq, Nat.testBit_shiftLeft, Nat.testBit_shiftLeft, Nat.testBit_two_pow_sub_one, Nat.testBit_mod_two_pow, Nat.testBit_div_two_pow]
  by_cases h : a ≤ i
  · have e : i - a + a = i := by omega
    rw [e]
    by_cases hx : i - a < n <;> simp [h, hx]
  · simp [h]

theorem and_low (x n : Nat) : x &&& (2 ^ n - 1) = x % 2 ^ n := Nat.and_two_pow_sub_one_eq_mod x n

theorem or_add {x y k : Nat} (h : x < 2 ^ k) : x ||| 2 ^ k * y = x + 2 ^ k * y := by
  rw [Nat.or_comm, ← Nat.two_pow_add_eq_or_of_lt h, Nat.add_comm]

theorem four (x : Nat) : x * 2 ^ 2 = 2 ^ 2 * x := Nat.mul_comm _ _

/-- Joining the set, low digits and digits above. -/
theorem or_word {set : Nat} {xs ys : List Nat} (h : Digits set xs) :
    word set xs ||| 2 ^ 2 * (2 ^ (bits set * xs.length) * pack (bits set) ys) = word set (xs ++ ys) := by
  have h1 : word set xs < 2 ^ (2 + bits set * xs.length) := by
    have := pack_lt h.lt
    have := h.set_le
    rw [word, Nat.pow_add]; omega
  rw [← Nat.mul_assoc, ← Nat.pow_add, or_add h1, word, word, pack_append, Nat.mul_add, Nat.pow_add]
  rw [Nat.mul_assoc, Nat.add_assoc]

theorem or_set {set : Nat} {xs : List Nat} (h : Digits set xs) : set ||| 2 ^ 2 * pack (bits set) xs = word set xs := by
  rw [or_add (by have := h.set_le; omega)]; rfl

theorem word_nil (set : Nat) : word set [] = set := by simp [word, pack]

end Verif.Str
