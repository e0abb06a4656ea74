import Verif.BitsCount
import Verif.BitTricksProps
import Mathlib.Data.Nat.Find
/-! # Lemmas about `CCBitsMask` -/
namespace Verif.Bits
open Spec
open Verif.BitTricks (U64 countSet countLowestUnset)

/-- The positions from `a` to `a + n` at which `p` holds. -/
def sel (p : Nat → Bool) (a n : Nat) : List Nat := (List.range' a n).filter p

theorem sel_add (p : Nat → Bool) (a m n : Nat) : sel p a (m + n) = sel p a m ++ sel p (a + m) n := by
  unfold sel; rw [← List.range'_append_1, List.filter_append]

theorem sel_congr (p q : Nat → Bool) (a n : Nat) (h : ∀ k < n, p (a + k) = q (a + k)) : sel p a n = sel q a n := by
  unfold sel
  apply List.filter_congr
  intro x hx
  rw [List.mem_range'_1] at hx
  have := h (x - a) (by omega)
  rwa [show a + (x - a) = x by omega] at this

theorem sel_false (p : Nat → Bool) (a n : Nat) (h : ∀ k < n, p (a + k) = false) : sel p a n = [] := by
  unfold sel
  rw [List.filter_eq_nil_iff]
  intro x hx
  rw [List.mem_range'_1] at hx
  have := h (x - a) (by omega)
  rw [show a + (x - a) = x by omega] at this
  simp [this]

theorem sel_one (p : Nat → Bool) (a : Nat) (h : p a = true) : sel p a 1 = [a] := by
  simp [sel, List.range'_succ, h]

theorem exists_lowest (x : U64) (h : x ≠ 0#64) : ∃ k, BitTricks.Spec.LowestOne x k := by
  obtain ⟨k, hk, e⟩ := (ne_zero_iff_bits x).1 h
  have hex : ∃ k, k < 64 ∧ x.getLsbD k = true := ⟨k, hk, e⟩
  clear hk e k
  refine ⟨Nat.find hex, (Nat.find_spec hex).1, (Nat.find_spec hex).2, fun j hj hb => ?_⟩
  exact Nat.find_min hex hj ⟨by have := (Nat.find_spec hex).1; omega, hb⟩

theorem drain_spec (fuel : Nat) (m : U64) (base n : Nat) (hf : n < fuel) (hn : n ≤ 64)
    (hz : ∀ k, n ≤ k → m.getLsbD k = false) (ht : m.getLsbD 63 = true → ∃ k, k < 63 ∧ m.getLsbD k = true) :
    drain fuel m base = some (sel (fun i => m.getLsbD (i - base)) base n) := by
  induction fuel generalizing m base n with
  | zero => omega
  | succ fuel ih =>
    rw [drain]
    by_cases c : m = 0#64
    · rw [if_pos c, sel_false]
      intro k hk
      simp [c]
    · rw [if_neg c]
      obtain ⟨i, hi⟩ := exists_lowest m c
      have hv := (BitTricks.C21_count_lowest_unset m).1 i hi
      obtain ⟨h1, h2, h3⟩ := hi
      have h2 : m.getLsbD i = true := h2
      have hin : i < n := by
        apply Classical.byContradiction
        intro hge
        rw [hz i (by omega)] at h2; cases h2
      have hi63 : i + 1 < 64 := by
        apply Classical.byContradiction
        intro hge
        have e : i = 63 := by omega
        subst e
        obtain ⟨k, hk, e⟩ := ht h2
        exact h3 k hk e
      simp only [hv]
      rw [if_pos hi63, ih (m >>> (i + 1)) (base + i + 1) (n - i - 1) (by omega) (by omega) (by
        intro k hk
        rw [BitVec.getLsbD_ushiftRight]
        exact hz _ (by omega)) (by
        intro h
        rw [BitVec.getLsbD_ushiftRight, BitVec.getLsbD_of_ge _ _ (by omega)] at h
        cases h)]
      rw [Option.map_some, show n = i + (1 + (n - i - 1)) by omega, sel_add, sel_add, sel_false _ base i, sel_one _ (base + i)]
      · rw [Nat.add_comm i base, show base + i + 1 = base + i + 1 by rfl]
        rw [show i + (1 + (n - i - 1)) - i - 1 = n - i - 1 by omega]
        simp only [List.nil_append, List.singleton_append, Option.some.injEq, List.cons.injEq, true_and]
        apply sel_congr
        intro k hk
        rw [BitVec.getLsbD_ushiftRight]
        congr 1; omega
      · simp [h2]
      · intro k hk
        have := h3 k hk
        simp only [BitTricks.Spec.bit, Bool.not_eq_true] at this
        simpa using this

/-- Both sets have a one. -/
def both (a b : Store) (i : Nat) : Bool := bit a i && bit b i

theorem common_eq (a b : Store) (i n : Nat) : common a b i n = sel (both a b) i n := rfl

theorem maskWords_spec (a b : Store) (o n : Nat) (ha : o + n * 8 ≤ a.length) (hb : o + n * 8 ≤ b.length)
    (ht : ∀ l, l < n → common a b (o * 8 + 64 * l) 64 ≠ [o * 8 + 64 * l + 63]) :
    loopN (maskWord a b o) n [] = some (sel (both a b) (o * 8) (64 * n)) := by
  induction n with
  | zero => rfl
  | succ n ih =>
    obtain ⟨x, hx, hxb⟩ := load64_spec (s := a) (o := o + n * 8) (by omega)
    obtain ⟨y, hy, hyb⟩ := load64_spec (s := b) (o := o + n * 8) (by omega)
    have hbits : ∀ k, k < 64 → (x &&& y).getLsbD k = both a b (o * 8 + 64 * n + k) := by
      intro k hk
      rw [BitVec.getLsbD_and, hxb k hk, hyb k hk, both]
      congr 2 <;> omega
    rw [loopN, ih (by omega) (by omega) (fun l hl => ht l (by omega)), Option.bind_some, maskWord, hx, hy]
    simp only [Option.bind_eq_bind, Option.bind_some]
    rw [drain_spec 65 _ _ 64 (by omega) (by omega) (fun k hk => BitVec.getLsbD_of_ge _ _ hk)]
    · rw [Option.bind_some, Nat.mul_succ 64 n, sel_add, show n * 64 + o * 8 = o * 8 + 64 * n by omega]
      congr 2
      apply sel_congr
      intro k hk
      rw [show o * 8 + 64 * n + k - (o * 8 + 64 * n) = k by omega, hbits k hk]
    · intro h63
      apply Classical.byContradiction
      intro hno
      apply ht n (by omega)
      rw [common_eq, show (64 : Nat) = 63 + 1 by rfl, sel_add, sel_false, sel_one]
      · rfl
      · rw [← hbits 63 (by omega)]; exact h63
      · intro k hk
        rw [← hbits k (by omega)]
        have : ¬ (x &&& y).getLsbD k = true := fun e => hno ⟨k, by omega, e⟩
        simpa using this

theorem sel_lead {s t : Store} {index cnt : Nat} (p : Nat → Bool) (hp : ∀ j, j < 8 → p j =
    (decide ((index % 8 ≠ 0 ∨ cnt < 8) ∧ index % 8 ≤ j ∧ j < index % 8 + cnt) && both s t (index / 8 * 8 + j))) :
    sel (fun i => p (i - index / 8 * 8)) (index / 8 * 8) 8 = sel (both s t) index (leadLen index cnt) := by
  unfold leadLen
  by_cases c : index % 8 ≠ 0 ∨ cnt < 8
  · rw [if_pos c]
    have e : (8 : Nat) = index % 8 + (min cnt (8 - index % 8) + (8 - index % 8 - min cnt (8 - index % 8))) := by omega
    have e2 : index / 8 * 8 + index % 8 = index := by omega
    have : sel (fun i => p (i - index / 8 * 8)) (index / 8 * 8) 8 = sel (fun i => p (i - index / 8 * 8)) (index / 8 * 8) (index % 8 + (min cnt (8 - index % 8) + (8 - index % 8 - min cnt (8 - index % 8)))) := by
      rw [← e]
    rw [this, sel_add, sel_add, e2, sel_false _ (index / 8 * 8), sel_false _ (index + _), List.nil_append, List.append_nil]
    · apply sel_congr
      intro k hk
      have c2 : index % 8 ≤ index + k - index / 8 * 8 ∧ index + k - index / 8 * 8 < index % 8 + cnt := by omega
      rw [hp _ (by omega)]
      simp only [c, c2, and_self, decide_true, Bool.true_and]
      congr 1; omega
    · intro k hk
      rw [hp _ (by omega)]
      have c2 : ¬ (index + min cnt (8 - index % 8) + k - index / 8 * 8 < index % 8 + cnt) := by omega
      simp only [c2, and_false, decide_false, Bool.false_and]
    · intro k hk
      rw [hp _ (by omega)]
      have c2 : ¬ (index % 8 ≤ index / 8 * 8 + k - index / 8 * 8) := by omega
      simp only [c2, and_false, false_and, decide_false, Bool.false_and]
  · rw [if_neg c]
    rw [sel_false]; rfl
    intro k hk
    rw [hp _ (by omega)]
    simp only [c, false_and, decide_false, Bool.false_and]

theorem maskTail_spec (s : Store) (index adj o8 n8 : Nat) (r : U64) (hn : n8 ≤ 7)
    (hs : adj % 8 ≠ 0 → o8 + n8 < s.length) (hal : index % 8 = 0 → adj % 8 ≠ 0 → n8 = 0) :
    ∃ r', maskTail s index adj o8 n8 r = some r' ∧ ∀ k, k < 64 →
      r'.getLsbD k = (r.getLsbD k || (decide (8 * n8 ≤ k ∧ k < 8 * n8 + adj % 8) && bit s (8 * o8 + k))) := by
  unfold maskTail
  by_cases c : adj % 8 ≠ 0
  · rw [if_pos c, List.getElem?_eq_getElem (hs c), Option.bind_eq_bind, Option.bind_some]
    have hb := tailByte_bit (s := s) (o := o8 + n8) (hs c)
    generalize s[o8 + n8]'(hs c) = b at hb
    have key : ∀ k, k < 64 → (r ||| ((b &&& tailMask adj).setWidth 64) <<< (n8 * 8)).getLsbD k =
        (r.getLsbD k || (decide (8 * n8 ≤ k ∧ k < 8 * n8 + adj % 8) && bit s (8 * o8 + k))) := by
      intro k hk
      rw [BitVec.getLsbD_or, BitVec.getLsbD_shiftLeft, BitVec.getLsbD_setWidth, BitVec.getLsbD_and]
      by_cases g : 8 * n8 ≤ k
      · by_cases g2 : k < 8 * n8 + 8
        · rw [hb _ (by omega), tailMask_bit (by omega), show 8 * (o8 + n8) + (k - n8 * 8) = 8 * o8 + k by omega]
          have g3 : ¬ (k < n8 * 8) := by omega
          have g4 : k - n8 * 8 < 64 := by omega
          have g5 : (k - n8 * 8 < adj % 8) ↔ (8 * n8 ≤ k ∧ k < 8 * n8 + adj % 8) := by omega
          have g6 : decide (k - n8 * 8 < adj % 8) = decide (8 * n8 ≤ k ∧ k < 8 * n8 + adj % 8) := decide_eq_decide.2 g5
          rw [g6, Bool.and_comm (bit _ _)]
          simp only [hk, g3, g4, decide_true, decide_false, Bool.not_false, Bool.true_and]
        · have g5 : ¬ (8 * n8 ≤ k ∧ k < 8 * n8 + adj % 8) := by omega
          rw [BitVec.getLsbD_of_ge b _ (by omega)]
          simp only [g5, decide_false, Bool.false_and, Bool.and_false, Bool.or_false]
      · have g5 : ¬ (8 * n8 ≤ k ∧ k < 8 * n8 + adj % 8) := by omega
        have g3 : k < n8 * 8 := by omega
        simp only [g5, g3, decide_true, decide_false, Bool.not_true, Bool.false_and, Bool.and_false, Bool.or_false]
    by_cases c2 : index % 8 ≠ 0
    · rw [if_pos c2]
      by_cases c3 : n8 = 7
      · rw [if_pos c3]; subst c3; exact ⟨_, rfl, key⟩
      · rw [if_neg c3]; exact ⟨_, rfl, key⟩
    · rw [if_neg c2]
      have h0 := hal (by omega) c
      subst h0
      refine ⟨_, rfl, ?_⟩
      simpa using key
  · rw [if_neg c]
    refine ⟨r, rfl, fun k hk => ?_⟩
    have g5 : ¬ (8 * n8 ≤ k ∧ k < 8 * n8 + adj % 8) := by omega
    simp only [g5, decide_false, Bool.false_and, Bool.or_false]

theorem remainder_spec (s : Store) (index adj o8 n8 : Nat) (r0 : U64) (hn : n8 ≤ 7) (hs8 : o8 + n8 ≤ s.length)
    (hs : adj % 8 ≠ 0 → o8 + n8 < s.length) (hal : index % 8 = 0 → adj % 8 ≠ 0 → n8 = 0) :
    ∃ r r', loopN (fun l => orByte s (o8 + l) (l * 8)) n8 r0 = some r ∧ maskTail s index adj o8 n8 r = some r' ∧
      ∀ k, k < 64 → r'.getLsbD k = (r0.getLsbD k || (decide (k < 8 * n8 + adj % 8) && bit s (8 * o8 + k))) := by
  obtain ⟨r, hr, hrb⟩ := orBytes_spec s o8 n8 0 hs8 (by omega) r0
  obtain ⟨r', hr', hrb'⟩ := maskTail_spec s index adj o8 n8 r hn hs hal
  refine ⟨r, r', hr, hr', fun k hk => ?_⟩
  rw [hrb' k hk, hrb k hk]
  by_cases g : k < 8 * n8
  · have g1 : 0 ≤ k ∧ k < n8 * 8 + 0 := by omega
    have g2 : ¬ (8 * n8 ≤ k ∧ k < 8 * n8 + adj % 8) := by omega
    have g3 : k < 8 * n8 + adj % 8 := by omega
    have g4 : ¬ (8 * n8 ≤ k) := by omega
    simp only [g1, g3, g4, and_self, false_and, decide_true, decide_false, Bool.true_and, Bool.false_and, Bool.or_false, Nat.sub_zero]
  · have g1 : ¬ (0 ≤ k ∧ k < n8 * 8 + 0) := by omega
    have g2 : (8 * n8 ≤ k ∧ k < 8 * n8 + adj % 8) ↔ k < 8 * n8 + adj % 8 := by omega
    have g3 : decide (8 * n8 ≤ k ∧ k < 8 * n8 + adj % 8) = decide (k < 8 * n8 + adj % 8) := decide_eq_decide.2 g2
    rw [g3]
    simp only [g1, decide_false, Bool.false_and, Bool.or_false]

theorem sel_split (a b : Store) (index cnt : Nat) :
    sel (both a b) index cnt = sel (both a b) index (leadLen index cnt) ++ sel (both a b) (offset8 index * 8) (adjusted index cnt) := by
  by_cases c : 8 - index % 8 ≤ cnt
  · have e : cnt = leadLen index cnt + adjusted index cnt := by
      unfold leadLen adjusted offset8; rw [if_pos c]; split <;> omega
    have e2 : index + leadLen index cnt = offset8 index * 8 := by
      unfold leadLen offset8; split <;> omega
    conv => lhs; rw [e]
    rw [sel_add, e2]
  · have e : adjusted index cnt = 0 := by unfold adjusted; rw [if_neg c]
    have e2 : leadLen index cnt = cnt := by unfold leadLen; split <;> omega
    rw [e, e2]; simp [sel]

/-- What `mask` reports: the words first, then the first byte, then the rest. -/
theorem mask_spec (a b : Store) (index cnt : Nat)
    (ha : index + cnt ≤ 8 * a.length) (hb : index + cnt ≤ 8 * b.length)
    (ha' : index < 8 * a.length) (hb' : index < 8 * b.length)
    (hl : ¬ LoneTop a b index cnt)
    (hal : index % 8 = 0 → (index + cnt) % 8 = 0 ∨ cnt % 64 < 8) :
    mask a b index cnt = some (sel (both a b) (offset8 index * 8) (64 * (adjusted index cnt / 64)) ++
      sel (both a b) index (leadLen index cnt) ++
      sel (both a b) (offset8 index * 8 + 64 * (adjusted index cnt / 64)) (adjusted index cnt - 64 * (adjusted index cnt / 64))) := by
  have hadj : adjusted index cnt = if 8 - index % 8 ≤ cnt then index + cnt - (index + 7) / 8 * 8 else 0 := rfl
  have hoff : offset8 index = (index + 7) / 8 := rfl
  have hfita : offset8 index * 8 + adjusted index cnt ≤ 8 * a.length ∨ adjusted index cnt = 0 := by
    rw [hadj, hoff]; split <;> omega
  have hfitb : offset8 index * 8 + adjusted index cnt ≤ 8 * b.length ∨ adjusted index cnt = 0 := by
    rw [hadj, hoff]; split <;> omega
  have hoffa : offset8 index ≤ a.length := by rw [hoff]; omega
  have hoffb : offset8 index ≤ b.length := by rw [hoff]; omega
  have hal' : index % 8 = 0 → adjusted index cnt % 8 ≠ 0 → adjusted index cnt / 8 - adjusted index cnt / 64 * 8 = 0 := by
    intro h1 h2
    revert h2
    rw [hadj]
    split
    · intro h2
      have := hal h1
      omega
    · omega
  have hw := maskWords_spec a b (offset8 index) (adjusted index cnt / 64) (by omega) (by omega) (by
    intro l hl' he
    refine hl ⟨l, ?_⟩
    rw [hoff] at he
    refine ⟨?_, he⟩
    revert hl'
    rw [hadj]; split <;> omega)
  obtain ⟨la, hla, hlab⟩ := leadByte_spec a index cnt ha'
  obtain ⟨lb, hlb, hlbb⟩ := leadByte_spec b index cnt hb'
  have hlead := sel_lead (s := a) (t := b) (index := index) (cnt := cnt) (fun j => (la &&& lb).getLsbD j) (by
    intro j hj
    rw [BitVec.getLsbD_and, hlab j hj, hlbb j hj, both]
    cases decide ((index % 8 ≠ 0 ∨ cnt < 8) ∧ index % 8 ≤ j ∧ j < index % 8 + cnt) <;> rfl)
  obtain ⟨ra0, rb0, hml, hr0⟩ : ∃ ra0 rb0, maskLead a b index cnt (sel (both a b) (offset8 index * 8) (64 * (adjusted index cnt / 64))) =
      some (sel (both a b) (offset8 index * 8) (64 * (adjusted index cnt / 64)) ++ (if index % 8 ≠ 0 then sel (both a b) index (leadLen index cnt) else []), ra0, rb0) ∧
      ((index % 8 = 0 ∧ cnt < 8 ∧ ra0 = la.setWidth 64 ∧ rb0 = lb.setWidth 64) ∨ (¬ (index % 8 = 0 ∧ cnt < 8) ∧ ra0 = 0#64 ∧ rb0 = 0#64)) := by
    unfold maskLead
    unfold leadByte at hla hlb
    by_cases c : index % 8 ≠ 0
    · have ho : offset8 index - 1 = index / 8 := by rw [hoff]; omega
      rw [if_pos c, if_pos c]
      rw [if_pos c, ho] at hla hlb
      refine ⟨0#64, 0#64, ?_, Or.inr ⟨by omega, rfl, rfl⟩⟩
      rw [ho]
      obtain ⟨x, hx, hx'⟩ := Option.map_eq_some_iff.1 hla
      obtain ⟨y, hy, hy'⟩ := Option.map_eq_some_iff.1 hlb
      rw [hx, hy]
      simp only [Option.bind_eq_bind, Option.bind_some, hx', hy']
      rw [drain_spec 65 _ _ 8 (by omega) (by omega) (by
        intro k hk
        rw [BitVec.getLsbD_setWidth, BitVec.getLsbD_of_ge _ _ hk]; simp) (by
        intro h
        rw [BitVec.getLsbD_setWidth, BitVec.getLsbD_of_ge _ _ (by omega)] at h; simp at h)]
      rw [Option.bind_some, ← hlead]
      have e := sel_congr (fun i => ((la &&& lb).setWidth 64).getLsbD (i - index / 8 * 8)) (fun i => (la &&& lb).getLsbD (i - index / 8 * 8)) (index / 8 * 8) 8 (by
        intro k hk
        rw [BitVec.getLsbD_setWidth]
        have : index / 8 * 8 + k - index / 8 * 8 < 64 := by omega
        simp only [this, decide_true, Bool.true_and])
      rw [e]
    · rw [if_neg c, if_neg c]
      rw [if_neg c] at hla hlb
      by_cases c2 : cnt < 8
      · rw [if_pos c2]
        rw [if_pos c2] at hla hlb
        refine ⟨_, _, ?_, Or.inl ⟨by omega, c2, rfl, rfl⟩⟩
        obtain ⟨x, hx, hx'⟩ := Option.map_eq_some_iff.1 hla
        obtain ⟨y, hy, hy'⟩ := Option.map_eq_some_iff.1 hlb
        rw [hx, hy]
        simp only [Option.bind_eq_bind, Option.bind_some, hx', hy', List.append_nil]
      · rw [if_neg c2]
        exact ⟨_, _, by simp, Or.inr ⟨by omega, rfl, rfl⟩⟩
  have hshort : index % 8 = 0 → cnt < 8 → adjusted index cnt = 0 := by
    intro h1 h2; rw [hadj]; split <;> omega
  have hlong : ¬ (index % 8 = 0 ∧ cnt < 8) → index % 8 = 0 → leadLen index cnt = 0 := by
    intro h1 h2; unfold leadLen; split <;> omega
  have hshortoff : index % 8 = 0 → offset8 index * 8 = index ∧ index / 8 * 8 = index := by rw [hoff]; omega
  generalize hA : adjusted index cnt = adj at *
  generalize hO : offset8 index = off at *
  obtain ⟨ra, ra', h1, h2, h3⟩ := remainder_spec a index adj (off + adj / 64 * 8) (adj / 8 - adj / 64 * 8) ra0 (by omega) (by omega) (by omega) hal'
  obtain ⟨rb, rb', h4, h5, h6⟩ := remainder_spec b index adj (off + adj / 64 * 8) (adj / 8 - adj / 64 * 8) rb0 (by omega) (by omega) (by omega) hal'
  simp only [mask, hA, hO, hw, hml, h1, h2, h4, h5, Option.bind_eq_bind, Option.bind_some]
  have hlen : 8 * (adj / 8 - adj / 64 * 8) + adj % 8 = adj - 64 * (adj / 64) := by omega
  rw [hlen] at h3 h6
  rcases hr0 with ⟨s1, s2, rfl, rfl⟩ | ⟨s1, rfl, rfl⟩
  · have hz := hshort s1 s2
    subst hz
    have hbits : ∀ k, k < 64 → (ra' &&& rb').getLsbD k = ((la &&& lb).setWidth 64).getLsbD k := by
      intro k hk
      have g : ¬ (k < 0) := by omega
      rw [BitVec.getLsbD_and, h3 k hk, h6 k hk]
      simp
    have heq : ra' &&& rb' = (la &&& lb).setWidth 64 := BitVec.eq_of_getLsbD_eq hbits
    rw [heq, drain_spec 65 _ _ 8 (by omega) (by omega) (by
        intro k hk
        rw [BitVec.getLsbD_setWidth, BitVec.getLsbD_of_ge _ _ hk]; simp) (by
        intro h
        rw [BitVec.getLsbD_setWidth, BitVec.getLsbD_of_ge _ _ (by omega)] at h; simp at h)]
    have hso := hshortoff s1
    have : ¬ (index % 8 ≠ 0) := by omega
    rw [Option.bind_some, if_neg this, List.append_nil]
    have e0 : sel (both a b) (off * 8 + 64 * (0 / 64)) (0 - 64 * (0 / 64)) = [] := rfl
    rw [e0, List.append_nil, ← hlead, hso.2]
    simp only [Nat.zero_div, Nat.zero_mul, Nat.add_zero]
    rw [hso.1]
    have e := sel_congr (fun i => ((la &&& lb).setWidth 64).getLsbD (i - index)) (fun i => (la &&& lb).getLsbD (i - index)) index 8 (by
      intro k hk
      rw [BitVec.getLsbD_setWidth]
      have : index + k - index < 64 := by omega
      simp only [this, decide_true, Bool.true_and])
    rw [e]
  · have hlt : adj - 64 * (adj / 64) < 64 := by omega
    have hbits : ∀ k, k < 64 → (ra' &&& rb').getLsbD k = (decide (k < adj - 64 * (adj / 64)) && both a b (off * 8 + 64 * (adj / 64) + k)) := by
      intro k hk
      rw [BitVec.getLsbD_and, h3 k hk, h6 k hk, both, show 8 * (off + adj / 64 * 8) + k = off * 8 + 64 * (adj / 64) + k by omega]
      cases decide (k < adj - 64 * (adj / 64)) <;> simp
    rw [drain_spec 65 _ _ (adj - 64 * (adj / 64)) (by omega) (by omega) (by
        intro k hk
        by_cases g : k < 64
        · rw [hbits k g]
          have : ¬ (k < adj - 64 * (adj / 64)) := by omega
          simp only [this, decide_false, Bool.false_and]
        · exact BitVec.getLsbD_of_ge _ _ (by omega)) (by
        intro h
        rw [hbits 63 (by omega)] at h
        have : ¬ (63 < adj - 64 * (adj / 64)) := by omega
        simp only [this, decide_false, Bool.false_and] at h
        cases h)]
    rw [Option.bind_some, show off * 8 + adj / 64 * 64 = off * 8 + 64 * (adj / 64) by omega]
    congr 2
    · congr 1
      by_cases c : index % 8 ≠ 0
      · rw [if_pos c]
      · rw [if_neg c, hlong s1 (by omega)]; rfl
    · apply sel_congr
      intro k hk
      rw [show off * 8 + 64 * (adj / 64) + k - (off * 8 + 64 * (adj / 64)) = k by omega, hbits k (by omega)]
      simp only [hk, decide_true, Bool.true_and]

end Verif.Bits
