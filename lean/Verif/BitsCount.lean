import Verif.BitsLemmas
/-! # Lemmas about counting -/
namespace Verif.Bits
open Spec
open Verif.BitTricks (U64 countSet countLowestUnset)

theorem countP_shift (p q : Nat → Bool) (a b n : Nat) (h : ∀ k < n, p (a + k) = q (b + k)) :
    (List.range' a n).countP p = (List.range' b n).countP q := by
  induction n generalizing a b with
  | zero => rfl
  | succ n ih =>
    rw [List.range'_succ, List.range'_succ, List.countP_cons, List.countP_cons]
    have h0 := h 0 (by omega)
    simp only [Nat.add_zero] at h0
    rw [h0, ih (a + 1) (b + 1)]
    intro k hk
    have := h (k + 1) (by omega)
    rw [show a + 1 + k = a + (k + 1) by omega, show b + 1 + k = b + (k + 1) by omega, this]

theorem countP_false (p : Nat → Bool) (a n : Nat) (h : ∀ k < n, p (a + k) = false) :
    (List.range' a n).countP p = 0 := by
  rw [List.countP_eq_zero]
  intro x hx
  rw [List.mem_range'_1] at hx
  have := h (x - a) (by omega)
  rw [show a + (x - a) = x by omega] at this
  simp [this]

theorem countP_add (p : Nat → Bool) (a m n : Nat) :
    (List.range' a (m + n)).countP p = (List.range' a m).countP p + (List.range' (a + m) n).countP p := by
  rw [← List.range'_append_1, List.countP_append]

theorem ones_add (s : Store) (i m n : Nat) : ones s i (m + n) = ones s i m + ones s (i + m) n := countP_add _ _ _ _

theorem popcount_eq (x : U64) : (countSet x).toNat = (List.range' 0 64).countP (fun i => x.getLsbD i) := by
  rw [BitTricks.countSet_toNat, BitTricks.Spec.ones, List.range_eq_range']

theorem popcount_eq' (x : U64) (n : Nat) (h : n = 64) : (countSet x).toNat = (List.range' 0 n).countP (fun i => x.getLsbD i) := by
  subst h; exact popcount_eq x

theorem countWords_spec (s : Store) (o n : Nat) (h : o + n * 8 ≤ s.length) :
    loopN (fun l c => (load64 s (o + l * 8)).map (fun x => c + (countSet x).toNat)) n 0 = some (ones s (8 * o) (64 * n)) := by
  induction n with
  | zero => rfl
  | succ n ih =>
    obtain ⟨x, hx, hb⟩ := load64_spec (s := s) (o := o + n * 8) (by omega)
    rw [loopN, ih (by omega), Option.bind_some, hx, Option.map_some, popcount_eq, Nat.mul_succ, ones_add]
    congr 2
    apply countP_shift
    intro k hk
    rw [Nat.zero_add, hb k hk]
    congr 1; omega

theorem leadByte_spec (s : Store) (index cnt : Nat) (h : index < 8 * s.length) :
    ∃ l, leadByte s index cnt = some l ∧ ∀ j, j < 8 → l.getLsbD j =
      (decide ((index % 8 ≠ 0 ∨ cnt < 8) ∧ index % 8 ≤ j ∧ j < index % 8 + cnt) && bit s (index / 8 * 8 + j)) := by
  have hbit : ∀ j, j < 8 → bit s (index / 8 * 8 + j) = (s[index / 8]'(by omega)).getLsbD j := by
    intro j hj
    have e : (index / 8 * 8 + j) / 8 = index / 8 := by omega
    have e2 : (index / 8 * 8 + j) % 8 = j := by omega
    rw [bit_block (by rw [e]; omega)]
    simp only [e, e2]
  unfold leadByte
  by_cases c : index % 8 ≠ 0
  · rw [if_pos c]
    have ho : offset8 index - 1 = index / 8 := by unfold offset8; omega
    rw [ho, List.getElem?_eq_getElem (by omega)]
    refine ⟨_, rfl, fun j hj => ?_⟩
    rw [BitVec.getLsbD_and, leadMask_bit hj, hbit j hj, Bool.and_comm]
    simp [c]
  · rw [if_neg c]
    by_cases c2 : cnt < 8
    · rw [if_pos c2]
      have ho : offset8 index = index / 8 := by unfold offset8; omega
      rw [ho, List.getElem?_eq_getElem (by omega)]
      refine ⟨_, rfl, fun j hj => ?_⟩
      rw [BitVec.getLsbD_and, shortMask_bit hj, hbit j hj, Bool.and_comm]
      simp [c2]
    · rw [if_neg c2]
      refine ⟨_, rfl, fun j hj => ?_⟩
      simp at c
      simp [c, c2]

theorem orBytes_spec (s : Store) (o n sh : Nat) (h : o + n ≤ s.length) (hn : n * 8 + sh ≤ 64) (r0 : U64) :
    ∃ r, loopN (fun l => orByte s (o + l) (l * 8 + sh)) n r0 = some r ∧ ∀ k, k < 64 →
      r.getLsbD k = (r0.getLsbD k || (decide (sh ≤ k ∧ k < n * 8 + sh) && bit s (8 * o + (k - sh)))) := by
  induction n with
  | zero => exact ⟨r0, rfl, fun k hk => by
      have : ¬ (sh ≤ k ∧ k < 0 * 8 + sh) := by omega
      simp only [this, decide_false, Bool.false_and, Bool.or_false]⟩
  | succ n ih =>
    obtain ⟨r, hr, hb⟩ := ih (by omega) (by omega)
    refine ⟨_, by
      rw [loopN, hr, Option.bind_some, orByte, List.getElem?_eq_getElem (by omega : o + n < s.length),
        Option.bind_eq_bind, Option.bind_some], ?_⟩
    intro k hk
    rw [BitVec.getLsbD_or, hb k hk, BitVec.getLsbD_shiftLeft, BitVec.getLsbD_setWidth]
    by_cases c : n * 8 + sh ≤ k
    · have c1 : ¬ (sh ≤ k ∧ k < n * 8 + sh) := by omega
      by_cases c2 : k < (n + 1) * 8 + sh
      · have e : (8 * o + (k - sh)) / 8 = o + n := by omega
        have e2 : (8 * o + (k - sh)) % 8 = k - (n * 8 + sh) := by omega
        have c3 : sh ≤ k ∧ k < (n + 1) * 8 + sh := by omega
        have c4 : k - (n * 8 + sh) < 64 := by omega
        have c5 : ¬ (k < n * 8 + sh) := by omega
        rw [bit_block (by rw [e]; omega)]
        simp only [e, e2, c1, c3, c4, c5, hk]
        simp
      · have c3 : ¬ (sh ≤ k ∧ k < (n + 1) * 8 + sh) := by omega
        have : (s[o + n]).getLsbD (k - (n * 8 + sh)) = false := BitVec.getLsbD_of_ge _ _ (by omega)
        rw [this]
        simp only [c1, c3]; simp
    · have c3 : k < n * 8 + sh := by omega
      have c4 : (sh ≤ k ∧ k < n * 8 + sh) ↔ (sh ≤ k ∧ k < (n + 1) * 8 + sh) := by omega
      have c5 : decide (sh ≤ k ∧ k < n * 8 + sh) = decide (sh ≤ k ∧ k < (n + 1) * 8 + sh) := decide_eq_decide.2 c4
      rw [← c5]
      simp only [c3, decide_true, Bool.not_true, Bool.and_false, Bool.false_and, Bool.or_false]

/-- Length of the part of the range inside its first byte, when that byte is treated separately. -/
def leadLen (index cnt : Nat) : Nat :=
  if index % 8 ≠ 0 ∨ cnt < 8 then min cnt (8 - index % 8) else 0

theorem lead_count {s : Store} {index cnt : Nat} (p : Nat → Bool)
    (hp : ∀ j, j < 8 → p j = (decide ((index % 8 ≠ 0 ∨ cnt < 8) ∧ index % 8 ≤ j ∧ j < index % 8 + cnt) && bit s (index / 8 * 8 + j))) :
    (List.range' 0 8).countP p = ones s index (leadLen index cnt) := by
  unfold leadLen
  by_cases c : index % 8 ≠ 0 ∨ cnt < 8
  · rw [if_pos c]
    have e : (8 : Nat) = index % 8 + (min cnt (8 - index % 8) + (8 - index % 8 - min cnt (8 - index % 8))) := by omega
    conv => lhs; rw [e]
    rw [countP_add, countP_add, countP_false p 0, Nat.zero_add, Nat.zero_add]
    · rw [countP_false p (_ + _), Nat.add_zero]
      · apply countP_shift
        intro k hk
        have c2 : index % 8 ≤ index % 8 + k ∧ index % 8 + k < index % 8 + cnt := by omega
        rw [hp _ (by omega)]
        simp only [c, c2, and_self, decide_true, Bool.true_and]
        congr 1; omega
      · intro k hk
        rw [hp _ (by omega)]
        have c2 : ¬ (index % 8 + min cnt (8 - index % 8) + k < index % 8 + cnt) := by omega
        simp only [c2, and_false, decide_false, Bool.false_and]
    · intro k hk
      rw [hp _ (by omega)]
      have c2 : ¬ (index % 8 ≤ 0 + k) := by omega
      simp only [c2, and_false, false_and, decide_false, Bool.false_and]
  · rw [if_neg c]
    rw [countP_false]; rfl
    intro k hk
    rw [hp _ (by omega)]
    simp only [c, false_and, decide_false, Bool.false_and]

theorem ones_split (s : Store) (index cnt : Nat) :
    ones s index cnt = ones s index (leadLen index cnt) + ones s (8 * offset8 index) (adjusted index cnt) := by
  by_cases c : 8 - index % 8 ≤ cnt
  · have e : cnt = leadLen index cnt + adjusted index cnt := by
      unfold leadLen adjusted offset8; rw [if_pos c]; split <;> omega
    have e2 : index + leadLen index cnt = 8 * offset8 index := by
      unfold leadLen offset8; split <;> omega
    conv => lhs; rw [e]
    rw [ones_add, e2]
  · have e : adjusted index cnt = 0 := by unfold adjusted; rw [if_neg c]
    have e2 : leadLen index cnt = cnt := by unfold leadLen; split <;> omega
    rw [e, e2]; rfl

theorem tailByte_bit {s : Store} {o : Nat} (h : o < s.length) (j : Nat) (hj : j < 8) : (s[o]).getLsbD j = bit s (8 * o + j) := by
  have e : (8 * o + j) / 8 = o := by omega
  have e2 : (8 * o + j) % 8 = j := by omega
  rw [bit_block (by rw [e]; omega)]
  simp only [e, e2]

theorem tail_count {s : Store} {o adj : Nat} (p : Nat → Bool) (h : adj % 8 < 8)
    (hp : ∀ j, j < 8 → p j = (decide (j < adj % 8) && bit s (8 * o + j))) :
    (List.range' 0 8).countP p = ones s (8 * o) (adj % 8) := by
  have e : (8 : Nat) = adj % 8 + (8 - adj % 8) := by omega
  conv => lhs; rw [e]
  rw [countP_add, countP_false p (0 + adj % 8), Nat.add_zero]
  · apply countP_shift
    intro k hk
    rw [hp _ (by omega)]
    simp [hk]
  · intro k hk
    rw [hp _ (by omega)]
    have : ¬ (0 + adj % 8 + k < adj % 8) := by omega
    simp only [this, decide_false, Bool.false_and]

theorem count_spec (s : Store) (index cnt : Nat) (h : index + cnt ≤ 8 * s.length) (h' : index < 8 * s.length) :
    count s index cnt = some (ones s index cnt) := by
  have hadj : adjusted index cnt = if 8 - index % 8 ≤ cnt then index + cnt - (index + 7) / 8 * 8 else 0 := rfl
  have hoff : offset8 index = (index + 7) / 8 := rfl
  have hfit : 8 * offset8 index + adjusted index cnt ≤ 8 * s.length ∨ adjusted index cnt = 0 := by
    rw [hadj, hoff]; split <;> omega
  have hoff2 : offset8 index ≤ s.length := by rw [hoff]; omega
  obtain ⟨l, hl, hlb⟩ := leadByte_spec s index cnt h'
  have hlc := lead_count (s := s) (index := index) (cnt := cnt) (fun i => l.getLsbD i) hlb
  rw [ones_split]
  have halign : ¬ (index % 8 ≠ 0 ∨ cnt < 8) → ∀ j, j < 8 → l.getLsbD j = false := by
    intro c j hj
    rw [hlb j hj]
    simp only [c, false_and, decide_false, Bool.false_and]
  have hshort : adjusted index cnt % 8 ≠ 0 → index % 8 = 0 → ¬ (index % 8 ≠ 0 ∨ cnt < 8) := by
    rw [hadj]; split <;> omega
  generalize hA : adjusted index cnt = adj at *
  generalize hO : offset8 index = off at *
  have hw := countWords_spec s off (adj / 64) (by omega)
  have hn8 : adj / 8 - adj / 64 * 8 ≤ 7 := by omega
  have ho8 : off + adj / 64 * 8 + (adj / 8 - adj / 64 * 8) = off + adj / 8 := by omega
  obtain ⟨r, hr, hrb⟩ := orBytes_spec s (off + adj / 64 * 8) (adj / 8 - adj / 64 * 8) 8 (by omega) (by omega) (l.setWidth 64)
  have hshift : (fun l => orByte s (off + adj / 64 * 8 + l) ((l + 1) * 8)) = (fun l => orByte s (off + adj / 64 * 8 + l) (l * 8 + 8)) := by
    funext l; congr 1; omega
  have hsplit : ones s (8 * off) adj = ones s (8 * off) (64 * (adj / 64)) +
      (ones s (8 * (off + adj / 64 * 8)) (8 * (adj / 8 - adj / 64 * 8)) + ones s (8 * (off + adj / 8)) (adj % 8)) := by
    have e : adj = 64 * (adj / 64) + (8 * (adj / 8 - adj / 64 * 8) + adj % 8) := by omega
    conv => lhs; rw [e]
    rw [ones_add, ones_add]
    congr 3 <;> omega
  rw [hsplit]
  simp only [count, hA, hO, hw, hl, hshift, hr, Option.bind_eq_bind, Option.bind_some]
  generalize hN : adj / 8 - adj / 64 * 8 = n8 at *
  -- the count of the remainder before the trailing byte
  have hlw : ∀ k, k < 64 → (l.setWidth 64).getLsbD k = l.getLsbD k := fun k hk => by
    rw [BitVec.getLsbD_setWidth]; simp [hk]
  have hpart1 : (List.range' 0 8).countP (fun i => r.getLsbD i) = ones s index (leadLen index cnt) := by
    rw [← hlc]
    apply countP_shift
    intro k hk
    have : ¬ (8 ≤ 0 + k ∧ 0 + k < n8 * 8 + 8) := by omega
    rw [hrb _ (by omega), hlw _ (by omega)]
    simp [this]
    omega
  have hpart2 : (List.range' 8 (8 * n8)).countP (fun i => r.getLsbD i) = ones s (8 * (off + adj / 64 * 8)) (8 * n8) := by
    apply countP_shift
    intro k hk
    have c : 8 ≤ 8 + k ∧ 8 + k < n8 * 8 + 8 := by omega
    rw [hrb _ (by omega), hlw _ (by omega), BitVec.getLsbD_of_ge l _ (by omega)]
    simp only [c, and_self, decide_true, Bool.true_and, Bool.false_or]
    congr 1; omega
  have htop : ∀ k, n8 * 8 + 8 ≤ k → k < 64 → r.getLsbD k = false := by
    intro k h1 h2
    have c : ¬ (8 ≤ k ∧ k < n8 * 8 + 8) := by omega
    rw [hrb _ h2, hlw _ h2, BitVec.getLsbD_of_ge l _ (by omega)]
    simp [c]
  have hrc : (countSet r).toNat = ones s index (leadLen index cnt) + ones s (8 * (off + adj / 64 * 8)) (8 * n8) := by
    rw [popcount_eq' _ (8 + (8 * n8 + (56 - 8 * n8))) (by omega), countP_add, countP_add, hpart1, Nat.zero_add, hpart2,
      countP_false, Nat.add_zero]
    intro k hk
    exact htop _ (by omega) (by omega)
  unfold countTail
  by_cases c : adj % 8 ≠ 0
  · rw [if_pos c, ho8, List.getElem?_eq_getElem (by omega), Option.bind_eq_bind, Option.bind_some]
    have hb := tailByte_bit (s := s) (o := off + adj / 8) (by omega)
    generalize s[off + adj / 8]'(by omega) = b at hb
    by_cases c2 : index % 8 ≠ 0
    · rw [if_pos c2]
      by_cases c3 : n8 = 7
      · rw [if_pos c3, hrc]
        have : (countSet ((b &&& tailMask adj).setWidth 64)).toNat = ones s (8 * (off + adj / 8)) (adj % 8) := by
          rw [popcount_eq' _ (8 + 56) (by omega), countP_add, countP_false _ (0 + 8), Nat.add_zero]
          · apply tail_count _ (Nat.mod_lt _ (by omega))
            intro j hj
            rw [BitVec.getLsbD_setWidth, BitVec.getLsbD_and, tailMask_bit hj, hb j hj, Bool.and_comm (bit _ _)]
            simp; omega
          · intro k hk
            rw [BitVec.getLsbD_setWidth, BitVec.getLsbD_of_ge _ _ (by omega)]; simp
        rw [this]
        congr 1; omega
      · rw [if_neg c3]
        have hx : ∀ k, k < 64 → (r ||| b.setWidth 64 <<< (56 + (8 - adj % 8))).getLsbD k =
            (r.getLsbD k || (decide (64 - adj % 8 ≤ k) && bit s (8 * (off + adj / 8) + (k - (64 - adj % 8))))) := by
          intro k hk
          rw [BitVec.getLsbD_or, BitVec.getLsbD_shiftLeft, BitVec.getLsbD_setWidth]
          have e : 56 + (8 - adj % 8) = 64 - adj % 8 := by omega
          rw [e]
          by_cases g : 64 - adj % 8 ≤ k
          · rw [hb _ (by omega)]
            have g2 : ¬ (k < 64 - adj % 8) := by omega
            have g3 : k - (64 - adj % 8) < 64 := by omega
            simp only [g, g2, g3, hk]; simp
          · have g2 : k < 64 - adj % 8 := by omega
            simp [g, g2]
        rw [popcount_eq' _ (8 + (8 * n8 + ((64 - adj % 8 - 8 - 8 * n8) + adj % 8))) (by omega), countP_add, countP_add, countP_add,
          countP_false _ (0 + 8 + 8 * n8)]
        · have p1 : (List.range' 0 8).countP (fun i => (r ||| b.setWidth 64 <<< (56 + (8 - adj % 8))).getLsbD i) = ones s index (leadLen index cnt) := by
            rw [← hpart1]
            apply countP_shift
            intro k hk
            have g : ¬ (64 - adj % 8 ≤ 0 + k) := by omega
            rw [hx _ (by omega)]
            simp only [g, decide_false, Bool.false_and, Bool.or_false]
          have p2 : (List.range' (0 + 8) (8 * n8)).countP (fun i => (r ||| b.setWidth 64 <<< (56 + (8 - adj % 8))).getLsbD i) = ones s (8 * (off + adj / 64 * 8)) (8 * n8) := by
            rw [← hpart2]
            apply countP_shift
            intro k hk
            have g : ¬ (64 - adj % 8 ≤ 0 + 8 + k) := by omega
            rw [hx _ (by omega)]
            simp only [g, decide_false, Bool.false_and, Bool.or_false, Nat.zero_add]
          have p3 : (List.range' (0 + 8 + 8 * n8 + (64 - adj % 8 - 8 - 8 * n8)) (adj % 8)).countP (fun i => (r ||| b.setWidth 64 <<< (56 + (8 - adj % 8))).getLsbD i) =
              ones s (8 * (off + adj / 8)) (adj % 8) := by
            apply countP_shift
            intro k hk
            have g : 64 - adj % 8 ≤ 0 + 8 + 8 * n8 + (64 - adj % 8 - 8 - 8 * n8) + k := by omega
            rw [hx _ (by omega), htop _ (by omega) (by omega)]
            simp only [g, decide_true, Bool.true_and, Bool.false_or]
            congr 1; omega
          rw [p1, p2, p3]
          congr 1; omega
        · intro k hk
          have g : ¬ (64 - adj % 8 ≤ 0 + 8 + 8 * n8 + k) := by omega
          rw [hx _ (by omega), htop _ (by omega) (by omega)]
          simp only [g, decide_false, Bool.false_and, Bool.or_false]
    · rw [if_neg c2]
      have c2 : index % 8 = 0 := by omega
      have hal := halign (hshort c c2)
      have hx : ∀ k, k < 64 → (r ||| (b &&& tailMask adj).setWidth 64).getLsbD k =
          (r.getLsbD k || (decide (k < adj % 8) && bit s (8 * (off + adj / 8) + k))) := by
        intro k hk
        rw [BitVec.getLsbD_or, BitVec.getLsbD_setWidth, BitVec.getLsbD_and]
        by_cases g : k < 8
        · rw [tailMask_bit g, hb k g, Bool.and_comm (bit _ _)]
          simp [hk]
        · have g2 : ¬ (k < adj % 8) := by omega
          rw [BitVec.getLsbD_of_ge b k (by omega)]
          simp [g2]
      have p0 : ones s index (leadLen index cnt) = 0 := by
        rw [← hlc, countP_false]
        intro k hk
        exact hal _ (by omega)
      rw [popcount_eq' _ (8 + (8 * n8 + (56 - 8 * n8))) (by omega), countP_add, countP_add,
        countP_false _ (0 + 8 + 8 * n8)]
      · have p1 : (List.range' 0 8).countP (fun i => (r ||| (b &&& tailMask adj).setWidth 64).getLsbD i) = ones s (8 * (off + adj / 8)) (adj % 8) := by
          apply tail_count _ (Nat.mod_lt _ (by omega))
          intro j hj
          have g : ¬ (8 ≤ j ∧ j < n8 * 8 + 8) := by omega
          rw [hx _ (by omega), hrb _ (by omega), hlw _ (by omega), hal _ hj]
          simp only [g, decide_false, Bool.false_and, Bool.false_or]
        have p2 : (List.range' (0 + 8) (8 * n8)).countP (fun i => (r ||| (b &&& tailMask adj).setWidth 64).getLsbD i) = ones s (8 * (off + adj / 64 * 8)) (8 * n8) := by
          rw [← hpart2]
          apply countP_shift
          intro k hk
          have g : ¬ (0 + 8 + k < adj % 8) := by omega
          rw [hx _ (by omega)]
          simp only [g, decide_false, Bool.false_and, Bool.or_false, Nat.zero_add]
        rw [p1, p2, p0]
        congr 1; omega
      · intro k hk
        have g : ¬ (0 + 8 + 8 * n8 + k < adj % 8) := by omega
        rw [hx _ (by omega), htop _ (by omega) (by omega)]
        simp only [g, decide_false, Bool.false_and, Bool.or_false]
  · rw [if_neg c, hrc]
    have : adj % 8 = 0 := by omega
    rw [this]
    have e : ones s (8 * (off + adj / 8)) 0 = 0 := rfl
    rw [e]
    congr 1; omega

theorem ne_zero_iff_bits {w : Nat} (x : BitVec w) : x ≠ 0#w ↔ ∃ k, k < w ∧ x.getLsbD k = true := by
  constructor
  · intro h
    apply Classical.byContradiction
    intro hn
    apply h
    apply BitVec.eq_of_getLsbD_eq
    intro i hi
    have : x.getLsbD i ≠ true := fun e => hn ⟨i, hi, e⟩
    simpa using this
  · rintro ⟨k, hk, e⟩ rfl
    simp at e

theorem ones_ne_zero_iff (s : Store) (i n : Nat) : ones s i n ≠ 0 ↔ ∃ k, k < n ∧ bit s (i + k) = true := by
  unfold ones
  rw [← Nat.pos_iff_ne_zero, List.countP_pos_iff]
  constructor
  · rintro ⟨x, hx, hb⟩
    rw [List.mem_range'_1] at hx
    exact ⟨x - i, by omega, by rw [show i + (x - i) = x by omega]; exact hb⟩
  · rintro ⟨k, hk, hb⟩
    exact ⟨i + k, by rw [List.mem_range'_1]; omega, hb⟩

theorem anyWords_spec (s : Store) (o i n : Nat) (h : o + (i + n) * 8 ≤ s.length) :
    loopAny (fun l => (load64 s (o + l * 8)).map (· != 0#64)) i n = some (decide (ones s (8 * (o + i * 8)) (64 * n) ≠ 0)) := by
  induction n generalizing i with
  | zero => rfl
  | succ n ih =>
    obtain ⟨x, hx, hb⟩ := load64_spec (s := s) (o := o + i * 8) (by omega)
    have hd : (x ≠ 0#64) ↔ ones s (8 * (o + i * 8)) 64 ≠ 0 := by
      rw [ne_zero_iff_bits, ones_ne_zero_iff]
      constructor
      · rintro ⟨k, hk, e⟩; exact ⟨k, hk, by rw [← hb k hk]; exact e⟩
      · rintro ⟨k, hk, e⟩; exact ⟨k, hk, by rw [hb k hk]; exact e⟩
    rw [loopAny, hx, Option.map_some, Option.bind_some, ih (i + 1) (by omega), show 64 * (n + 1) = 64 + 64 * n by omega, ones_add]
    have e : 8 * (o + (i + 1) * 8) = 8 * (o + i * 8) + 64 := by omega
    rw [e]
    by_cases c : x = 0#64
    · have c' : ones s (8 * (o + i * 8)) 64 = 0 := by
        apply Classical.byContradiction
        intro hn; exact (hd.2 hn) c
      simp [c, c']
    · have c' := hd.1 c
      simp [c]; omega

theorem anyBytes_spec (s : Store) (o i n : Nat) (h : o + (i + n) ≤ s.length) :
    loopAny (fun l => (s[o + l]?).map (· != 0#8)) i n = some (decide (ones s (8 * (o + i)) (8 * n) ≠ 0)) := by
  induction n generalizing i with
  | zero => rfl
  | succ n ih =>
    have hb := tailByte_bit (s := s) (o := o + i) (by omega)
    have hx : s[o + i]? = some (s[o + i]'(by omega)) := List.getElem?_eq_getElem (by omega)
    generalize s[o + i]'(by omega) = x at hb hx
    have hd : (x ≠ 0#8) ↔ ones s (8 * (o + i)) 8 ≠ 0 := by
      rw [ne_zero_iff_bits, ones_ne_zero_iff]
      constructor
      · rintro ⟨k, hk, e⟩; exact ⟨k, hk, by rw [← hb k hk]; exact e⟩
      · rintro ⟨k, hk, e⟩; exact ⟨k, hk, by rw [hb k hk]; exact e⟩
    rw [loopAny, hx, Option.map_some, Option.bind_some, ih (i + 1) (by omega), show 8 * (n + 1) = 8 + 8 * n by omega, ones_add]
    have e : 8 * (o + (i + 1)) = 8 * (o + i) + 8 := by omega
    rw [e]
    by_cases c : x = 0#8
    · have c' : ones s (8 * (o + i)) 8 = 0 := by
        apply Classical.byContradiction
        intro hn; exact (hd.2 hn) c
      simp [c, c']
    · have c' := hd.1 c
      simp [c]; omega

/-- What `any` computes: correct whenever the undefined shift of the trailing byte is not reached. -/
theorem any_spec (s : Store) (index cnt : Nat) (h : index + cnt ≤ 8 * s.length) (h' : index < 8 * s.length) :
    any s index cnt = some (decide (ones s index cnt ≠ 0)) ∨
    (any s index cnt = none ∧ index % 8 ≠ 0 ∧ adjusted index cnt % 8 ≠ 0 ∧ adjusted index cnt / 8 % 8 ≠ 7 ∧
      ones s index (leadLen index cnt) = 0 ∧ ones s (8 * offset8 index) (8 * (adjusted index cnt / 8)) = 0) := by
  have hadj : adjusted index cnt = if 8 - index % 8 ≤ cnt then index + cnt - (index + 7) / 8 * 8 else 0 := rfl
  have hoff : offset8 index = (index + 7) / 8 := rfl
  have hfit : 8 * offset8 index + adjusted index cnt ≤ 8 * s.length ∨ adjusted index cnt = 0 := by
    rw [hadj, hoff]; split <;> omega
  have hoff2 : offset8 index ≤ s.length := by rw [hoff]; omega
  obtain ⟨l, hl, hlb⟩ := leadByte_spec s index cnt h'
  have hlc := lead_count (s := s) (index := index) (cnt := cnt) (fun i => l.getLsbD i) hlb
  have hld : l ≠ 0#8 ↔ ones s index (leadLen index cnt) ≠ 0 := by
    rw [← hlc, ne_zero_iff_bits, ← Nat.pos_iff_ne_zero, List.countP_pos_iff]
    constructor
    · rintro ⟨k, hk, e⟩; exact ⟨k, by rw [List.mem_range'_1]; omega, e⟩
    · rintro ⟨k, hk, e⟩; rw [List.mem_range'_1] at hk; exact ⟨k, by omega, e⟩
  rw [ones_split]
  generalize hA : adjusted index cnt = adj at *
  generalize hO : offset8 index = off at *
  have hw := anyWords_spec s off 0 (adj / 64) (by omega)
  have ho8 : off + adj / 64 * 8 + (adj / 8 - adj / 64 * 8) = off + adj / 8 := by omega
  have hby := anyBytes_spec s (off + adj / 64 * 8) 0 (adj / 8 - adj / 64 * 8) (by omega)
  have hsplit : ones s (8 * off) adj = ones s (8 * off) (64 * (adj / 64)) +
      (ones s (8 * (off + adj / 64 * 8)) (8 * (adj / 8 - adj / 64 * 8)) + ones s (8 * (off + adj / 8)) (adj % 8)) := by
    have e : adj = 64 * (adj / 64) + (8 * (adj / 8 - adj / 64 * 8) + adj % 8) := by omega
    conv => lhs; rw [e]
    rw [ones_add, ones_add]
    congr 3 <;> omega
  have hsplit2 : ones s (8 * off) (8 * (adj / 8)) = ones s (8 * off) (64 * (adj / 64)) +
      ones s (8 * (off + adj / 64 * 8)) (8 * (adj / 8 - adj / 64 * 8)) := by
    have e : 8 * (adj / 8) = 64 * (adj / 64) + 8 * (adj / 8 - adj / 64 * 8) := by omega
    conv => lhs; rw [e]
    rw [ones_add]
    congr 2; omega
  rw [hsplit, hsplit2]
  have hn7 : adj / 8 - adj / 64 * 8 = adj / 8 % 8 := by omega
  simp only [Nat.zero_mul, Nat.add_zero] at hw hby
  simp only [any, hA, hO, hw, hl, hby, Option.bind_eq_bind, Option.bind_some]
  generalize ones s (8 * off) (64 * (adj / 64)) = n1
  generalize ones s (8 * (off + adj / 64 * 8)) (8 * (adj / 8 - adj / 64 * 8)) = n2
  generalize ones s index (leadLen index cnt) = n0 at *
  by_cases c1 : n1 = 0
  · subst c1
    by_cases c0 : l = 0#8
    · have c0' : n0 = 0 := by
        apply Classical.byContradiction
        intro hn; exact (hld.2 hn) c0
      subst c0'
      subst c0
      by_cases c2 : n2 = 0
      · subst c2
        simp only [ne_eq, not_true_eq_false, decide_false, Bool.false_eq_true, if_false, bne_self_eq_false, Nat.zero_add]
        unfold anyTail
        by_cases c : adj % 8 ≠ 0
        · rw [if_pos c, ho8, List.getElem?_eq_getElem (by omega), Option.bind_eq_bind, Option.bind_some]
          have hb := tailByte_bit (s := s) (o := off + adj / 8) (by omega)
          generalize s[off + adj / 8]'(by omega) = b at hb
          have ht : (b &&& tailMask adj != 0#8) = decide (¬ ones s (8 * (off + adj / 8)) (adj % 8) = 0) := by
            rw [Bool.eq_iff_iff, bne_iff_ne, decide_eq_true_iff, ne_zero_iff_bits]
            show _ ↔ _ ≠ 0
            rw [ones_ne_zero_iff]
            constructor
            · rintro ⟨k, hk, e⟩
              rw [BitVec.getLsbD_and, tailMask_bit hk, hb k hk] at e
              simp at e
              exact ⟨k, e.2, e.1⟩
            · rintro ⟨k, hk, e⟩
              refine ⟨k, by omega, ?_⟩
              rw [BitVec.getLsbD_and, tailMask_bit (by omega), hb k (by omega)]
              simp [e, hk]
          by_cases c2 : index % 8 ≠ 0
          · rw [if_pos c2]
            by_cases c3 : adj / 8 - adj / 64 * 8 = 7
            · rw [if_pos c3, ht]; left; rfl
            · rw [if_neg c3]; right
              refine ⟨?_, c2, c, by omega, trivial, trivial⟩
              unfold shlByte
              rw [if_neg (by omega)]; rfl
          · rw [if_neg c2, ht]; left; rfl
        · have c' : adj % 8 = 0 := by omega
          rw [if_neg c, c']; left; rfl
      · left
        simp [c2]
    · have c0' := hld.1 c0
      left
      simp [c0]; omega
  · left
    simp [c1]

end Verif.Bits
