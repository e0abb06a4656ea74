import Verif.BitsSpec
import Verif.BitTricksLemmas
/-! # Lemmas about the bit set model -/
namespace Verif.Bits
open Spec
open Verif.BitTricks (U64 countSet countLowestUnset)

theorem signExtend_shl1_getLsbD {w n j : Nat} (hn : n < 31) (hj : j < w) :
    ((1#32 <<< n).signExtend w).getLsbD j = decide (j = n) := by
  have hmsb : (1#32 <<< n).msb = false := by
    rw [BitVec.msb_eq_getLsbD_last, BitVec.getLsbD_shiftLeft]
    simp; omega
  rw [BitVec.getLsbD_signExtend]
  simp only [hmsb, hj, decide_true, Bool.true_and]
  split
  · rw [BitVec.getLsbD_shiftLeft]
    rename_i h
    simp [h, BitVec.getLsbD_one]
    by_cases e : j = n
    · simp [e]
    · simp [e]; omega
  · simp; omega

theorem signExtend_not_shl1_getLsbD {w n j : Nat} (hn : n < 31) (hj : j < w) :
    ((~~~ (1#32 <<< n)).signExtend w).getLsbD j = !decide (j = n) := by
  have hmsb : (~~~ (1#32 <<< n)).msb = true := by
    rw [BitVec.msb_eq_getLsbD_last, BitVec.getLsbD_not, BitVec.getLsbD_shiftLeft]
    simp; omega
  rw [BitVec.getLsbD_signExtend]
  simp only [hmsb, hj, decide_true, Bool.true_and]
  split
  · rw [BitVec.getLsbD_not, BitVec.getLsbD_shiftLeft]
    rename_i h
    simp [h, BitVec.getLsbD_one]
    by_cases e : j = n
    · simp [e]
    · simp [e]; omega
  · simp; omega

theorem bit_set {w : Nat} (hw : 0 < w) {s : List (BitVec w)} {o : Nat} (ho : o < s.length) (x : BitVec w) (i : Nat) :
    bit (s.set o x) i = if i / w = o then x.getLsbD (i % w) else bit s i := by
  unfold bit
  by_cases h : i / w = o
  · simp [h, List.getD_eq_getElem?_getD, ho]
  · have h' : o ≠ i / w := fun e => h e.symm
    simp [h, List.getD_eq_getElem?_getD, List.getElem?_set, h']

theorem bit_block {w : Nat} {s : List (BitVec w)} {i : Nat} (h : i / w < s.length) :
    bit s i = (s[i / w]).getLsbD (i % w) := by
  simp [bit, List.getD_eq_getElem?_getD, h]

theorem bit_out {w : Nat} {s : List (BitVec w)} {i : Nat} (h : s.length ≤ i / w) : bit s i = false := by
  simp [bit, List.getD_eq_getElem?_getD, h]

theorem ones8 (i : Nat) (hi : i < 8) : (255#8).getLsbD i = true := by
  have : ∀ i : Fin 8, (255#8).getLsbD i.1 = true := by decide
  exact this ⟨i, hi⟩

/-! ## Updates -/

/-- `a'` is `a` with `f` applied at the positions satisfying `P`. -/
def Upd (f : Bool → Bool → Bool) (b : Store) (P : Nat → Prop) [DecidablePred P] (a a' : Store) : Prop :=
  a'.length = a.length ∧ ∀ i, bit a' i = if P i then f (bit a i) (bit b i) else bit a i

theorem upd8_spec {f : Bool → Bool → Bool} {g : U8 → U8 → U8} {m : U8} {a b : Store} {o : Nat}
    (hg : ∀ x y i, i < 8 → (g x y).getLsbD i = if m.getLsbD i then f (x.getLsbD i) (y.getLsbD i) else x.getLsbD i)
    (ha : o < a.length) (hb : o < b.length) :
    ∃ a', upd8 b g o a = some a' ∧ Upd f b (fun i => i / 8 = o ∧ m.getLsbD (i % 8) = true) a a' := by
  refine ⟨a.set o (g a[o] b[o]), ?_, ?_, ?_⟩
  · simp [upd8, ha, hb, store8]
  · simp
  · intro i
    rw [bit_set (by omega) ha]
    by_cases h : i / 8 = o
    · rw [if_pos h, hg _ _ _ (Nat.mod_lt _ (by omega))]
      subst h
      rw [bit_block ha, bit_block hb]
      simp
    · simp [h]

theorem load64_spec {s : Store} {o : Nat} (h : o + 8 ≤ s.length) :
    ∃ x, load64 s o = some x ∧ ∀ k, k < 64 → x.getLsbD k = bit s (8 * o + k) := by
  have e : ∀ k, k < 8 → s[o + k]? = some (s.getD (o + k) 0#8) := by
    intro k hk
    rw [List.getD_eq_getElem?_getD, List.getElem?_eq_getElem (by omega)]; rfl
  have e0 := e 0 (by omega)
  rw [Nat.add_zero] at e0
  refine ⟨_, by
    rw [load64, e0, e 1 (by omega), e 2 (by omega), e 3 (by omega), e 4 (by omega), e 5 (by omega),
      e 6 (by omega), e 7 (by omega)]
    simp only [Option.bind_eq_bind, Option.bind_some]
    rfl, ?_⟩
  intro k hk
  have hd : (8 * o + k) / 8 = o + k / 8 := by omega
  have hm : (8 * o + k) % 8 = k % 8 := by omega
  unfold bit
  rw [hd, hm]
  generalize hs : (fun j => s.getD j 0#8) = t
  have ht : ∀ j, s.getD j 0#8 = t j := fun j => by rw [← hs]
  simp only [ht]
  have hq : k / 8 = 0 ∨ k / 8 = 1 ∨ k / 8 = 2 ∨ k / 8 = 3 ∨ k / 8 = 4 ∨ k / 8 = 5 ∨ k / 8 = 6 ∨ k / 8 = 7 := by omega
  simp only [BitVec.getLsbD_append]
  rcases hq with h | h | h | h | h | h | h | h <;> rw [h] <;>
    (repeat (first | rw [if_pos (by omega)] | rw [if_neg (by omega)])) <;> congr 1 <;> omega

theorem store64_fold (x : U64) (n : Nat) (hn : n ≤ 8) (s : Store) (o : Nat) (h : o + 8 ≤ s.length) :
    ((List.range n).foldl (fun t k => t.set (o + k) (x.extractLsb' (8 * k) 8)) s).length = s.length ∧
    ∀ i, bit ((List.range n).foldl (fun t k => t.set (o + k) (x.extractLsb' (8 * k) 8)) s) i =
      if o ≤ i / 8 ∧ i / 8 < o + n then x.getLsbD (i - 8 * o) else bit s i := by
  induction n with
  | zero => simp <;> (intros; omega)
  | succ n ih =>
    obtain ⟨hl, hb⟩ := ih (by omega)
    rw [List.range_succ, List.foldl_append]
    simp only [List.foldl_cons, List.foldl_nil]
    refine ⟨by rw [List.length_set, hl], ?_⟩
    intro i
    rw [bit_set (by omega) (by rw [hl]; omega), hb]
    by_cases c : i / 8 = o + n
    · have c2 : o ≤ i / 8 ∧ i / 8 < o + (n + 1) := by omega
      rw [if_pos c, if_pos c2, BitVec.getLsbD_extractLsb']
      have : i % 8 < 8 := Nat.mod_lt _ (by omega)
      have e : 8 * n + i % 8 = i - 8 * o := by omega
      rw [e]; simp [this]
    · rw [if_neg c]
      by_cases c3 : o ≤ i / 8 ∧ i / 8 < o + n
      · have c2 : o ≤ i / 8 ∧ i / 8 < o + (n + 1) := by omega
        rw [if_pos c3, if_pos c2]
      · have c2 : ¬ (o ≤ i / 8 ∧ i / 8 < o + (n + 1)) := by omega
        rw [if_neg c3, if_neg c2]

theorem upd64_spec {f : Bool → Bool → Bool} {g : U64 → U64 → U64} {a b : Store} {o : Nat}
    (hg : ∀ x y i, i < 64 → (g x y).getLsbD i = f (x.getLsbD i) (y.getLsbD i))
    (ha : o + 8 ≤ a.length) (hb : o + 8 ≤ b.length) :
    ∃ a', upd64 b g o a = some a' ∧ Upd f b (fun i => o ≤ i / 8 ∧ i / 8 < o + 8) a a' := by
  obtain ⟨x, hx, hx'⟩ := load64_spec ha
  obtain ⟨y, hy, hy'⟩ := load64_spec hb
  obtain ⟨hl, hbit⟩ := store64_fold (g x y) 8 (by omega) a o ha
  refine ⟨_, by simp only [upd64, hx, hy, Option.bind_eq_bind, Option.bind_some, store64, if_pos ha], hl, ?_⟩
  intro i
  rw [hbit]
  by_cases c : o ≤ i / 8 ∧ i / 8 < o + 8
  · rw [if_pos c, if_pos c, hg _ _ _ (by omega), hx' _ (by omega), hy' _ (by omega)]
    have : 8 * o + (i - 8 * o) = i := by omega
    rw [this]
  · rw [if_neg c, if_neg c]

theorem Upd.comp {f : Bool → Bool → Bool} {b : Store} {P Q R : Nat → Prop} [DecidablePred P] [DecidablePred Q]
    [DecidablePred R] {a a1 a2 : Store} (h1 : Upd f b P a a1) (h2 : Upd f b Q a1 a2)
    (hd : ∀ i, P i → ¬ Q i) (hR : ∀ i, R i ↔ P i ∨ Q i) : Upd f b R a a2 := by
  refine ⟨h2.1.trans h1.1, fun i => ?_⟩
  rw [h2.2, h1.2]
  by_cases p : P i
  · have q := hd i p
    have r := (hR i).2 (Or.inl p)
    simp [p, q, r]
  · by_cases q : Q i
    · have r := (hR i).2 (Or.inr q)
      simp [p, q, r]
    · have r : ¬ R i := fun r => by rcases (hR i).1 r with h | h <;> contradiction
      simp [p, q, r]

theorem Upd.refl (f : Bool → Bool → Bool) (b : Store) (P : Nat → Prop) [DecidablePred P] (a : Store)
    (h : ∀ i, ¬ P i) : Upd f b P a a := ⟨rfl, fun i => by simp [h i]⟩

theorem Upd.congr {f : Bool → Bool → Bool} {b : Store} {P Q : Nat → Prop} [DecidablePred P] [DecidablePred Q]
    {a a' : Store} (h : Upd f b P a a') (hPQ : ∀ i, P i ↔ Q i) : Upd f b Q a a' :=
  ⟨h.1, fun i => by rw [h.2]; simp only [hPQ i]⟩

theorem loop64_spec {f : Bool → Bool → Bool} {g : U64 → U64 → U64} {a b : Store} {o : Nat}
    (hg : ∀ x y i, i < 64 → (g x y).getLsbD i = f (x.getLsbD i) (y.getLsbD i)) (n : Nat)
    (ha : o + n * 8 ≤ a.length) (hb : o + n * 8 ≤ b.length) :
    ∃ a', loopN (fun l => upd64 b g (o + l * 8)) n a = some a' ∧
      Upd f b (fun i => o ≤ i / 8 ∧ i / 8 < o + n * 8) a a' := by
  induction n with
  | zero => exact ⟨a, rfl, Upd.refl _ _ _ _ (fun i => by omega)⟩
  | succ n ih =>
    obtain ⟨a1, h1, u1⟩ := ih (by omega) (by omega)
    obtain ⟨a2, h2, u2⟩ := upd64_spec (a := a1) (b := b) (o := o + n * 8) hg (by rw [u1.1]; omega) (by omega)
    refine ⟨a2, by rw [loopN, h1, Option.bind_some, h2], u1.comp u2 (fun i => by omega) (fun i => by omega)⟩

theorem loop8_spec {f : Bool → Bool → Bool} {g : U8 → U8 → U8} {a b : Store} {o : Nat}
    (hg : ∀ x y i, i < 8 → (g x y).getLsbD i = f (x.getLsbD i) (y.getLsbD i)) (n : Nat)
    (ha : o + n ≤ a.length) (hb : o + n ≤ b.length) :
    ∃ a', loopN (fun l => upd8 b g (o + l)) n a = some a' ∧
      Upd f b (fun i => o ≤ i / 8 ∧ i / 8 < o + n) a a' := by
  induction n with
  | zero => exact ⟨a, rfl, Upd.refl _ _ _ _ (fun i => by omega)⟩
  | succ n ih =>
    obtain ⟨a1, h1, u1⟩ := ih (by omega) (by omega)
    obtain ⟨a2, h2, u2⟩ := upd8_spec (f := f) (g := g) (m := 255#8) (a := a1) (b := b) (o := o + n)
      (fun x y i hi => by rw [hg x y i hi, if_pos (ones8 i hi)]) (by rw [u1.1]; omega) (by omega)
    refine ⟨a2, by rw [loopN, h1, Option.bind_some, h2], u1.comp u2 (fun i => by omega) (fun i => ?_)⟩
    have := ones8 (i % 8) (Nat.mod_lt _ (by omega))
    simp only [this, and_true]; omega

theorem low8 (n j : Nat) (hj : j < 8) : (BitVec.ofNat 8 (2 ^ n - 1)).getLsbD j = decide (j < n) := by
  rw [BitVec.getLsbD_ofNat, Nat.testBit_two_pow_sub_one]; simp [hj]

theorem high8 (n j : Nat) (hj : j < 8) : (255#8 <<< n).getLsbD j = decide (n ≤ j) := by
  rw [BitVec.getLsbD_shiftLeft]
  by_cases h : n ≤ j
  · rw [ones8 (j - n) (by omega)]; simp [hj, h]
  · simp [h]

theorem leadMask_bit {index count j : Nat} (hj : j < 8) :
    (leadMask index count).getLsbD j = decide (index % 8 ≤ j ∧ j < index % 8 + count) := by
  unfold leadMask
  rw [BitVec.getLsbD_and, high8 _ _ hj]
  by_cases c : count < 8
  · rw [if_pos c, low8 _ _ hj, ← Bool.decide_and]
  · rw [if_neg c, ones8 j hj]; simp; omega

theorem shortMask_bit {index count j : Nat} (hj : j < 8) :
    (shortMask index count).getLsbD j = decide (index % 8 ≤ j ∧ j < index % 8 + count) := by
  unfold shortMask
  rw [BitVec.getLsbD_and, high8 _ _ hj, low8 _ _ hj, ← Bool.decide_and]

theorem tailMask_bit {adj j : Nat} (hj : j < 8) : (tailMask adj).getLsbD j = decide (j < adj % 8) := low8 _ _ hj

/-- The right hand sides of an operation compute `f` bit by bit (all but the short aligned one). -/
structure Computes (k : Kernel) (f : Bool → Bool → Bool) : Prop where
  word : ∀ x y i, i < 64 → (k.word x y).getLsbD i = f (x.getLsbD i) (y.getLsbD i)
  byte : ∀ x y i, i < 8 → (k.byte x y).getLsbD i = f (x.getLsbD i) (y.getLsbD i)
  lead : ∀ m x y i, i < 8 → (k.lead m x y).getLsbD i = if m.getLsbD i then f (x.getLsbD i) (y.getLsbD i) else x.getLsbD i

/-- … and the short aligned one. -/
def ComputesShort (k : Kernel) (f : Bool → Bool → Bool) : Prop :=
  ∀ m x y i, i < 8 → (k.short m x y).getLsbD i = if m.getLsbD i then f (x.getLsbD i) (y.getLsbD i) else x.getLsbD i

theorem rangeOp_spec {k : Kernel} {f : Bool → Bool → Bool} (hk : Computes k f) {a b : Store} {index count : Nat}
    (hs : ComputesShort k f ∨ ¬ (index % 8 = 0 ∧ count < 8))
    (ha : index + count ≤ 8 * a.length) (hb : index + count ≤ 8 * b.length)
    (ha' : index < 8 * a.length) (hb' : index < 8 * b.length) :
    ∃ a', rangeOp k a b index count = some a' ∧
      Upd f b (fun i => InRange index count i ∨ Spill index count i) a a' := by
  have hadj : adjusted index count = if 8 - index % 8 ≤ count then index + count - (index + 7) / 8 * 8 else 0 := rfl
  have hoff : offset8 index = (index + 7) / 8 := rfl
  obtain ⟨a1, h1, u1⟩ := loop64_spec (a := a) (b := b) (o := offset8 index) hk.word (adjusted index count / 64)
    (by rw [hadj, hoff]; split <;> omega) (by rw [hadj, hoff]; split <;> omega)
  obtain ⟨a2, h2, u2⟩ : ∃ a2, leading k b index count a1 = some a2 ∧
      Upd f b (fun i => (index % 8 ≠ 0 ∨ count < 8) ∧ i / 8 = index / 8 ∧ (index % 8 ≤ i % 8 ∧ i % 8 < index % 8 + count)) a1 a2 := by
    unfold leading
    by_cases c : index % 8 ≠ 0
    · rw [if_pos c]
      have ho : offset8 index - 1 = index / 8 := by rw [hoff]; omega
      obtain ⟨a2, h2, u2⟩ := upd8_spec (a := a1) (b := b) (o := offset8 index - 1)
        (hk.lead (leadMask index count)) (by rw [u1.1, ho]; omega) (by rw [ho]; omega)
      refine ⟨a2, h2, u2.congr (fun i => ?_)⟩
      rw [leadMask_bit (Nat.mod_lt _ (by omega)), ho, decide_eq_true_iff]
      simp [c]
    · rw [if_neg c]
      by_cases c2 : count < 8
      · rw [if_pos c2]
        have ho : offset8 index = index / 8 := by rw [hoff]; omega
        obtain ⟨a2, h2, u2⟩ := upd8_spec (a := a1) (b := b) (o := offset8 index)
          ((hs.resolve_right (fun h => h ⟨by omega, c2⟩)) (shortMask index count)) (by rw [u1.1, ho]; omega) (by rw [ho]; omega)
        refine ⟨a2, h2, u2.congr (fun i => ?_)⟩
        rw [shortMask_bit (Nat.mod_lt _ (by omega)), ho, decide_eq_true_iff]
        simp [c2]
      · rw [if_neg c2]
        exact ⟨a1, rfl, Upd.refl _ _ _ _ (fun i => by omega)⟩
  have u12 := u1.comp (R := fun i => (offset8 index ≤ i / 8 ∧ i / 8 < offset8 index + adjusted index count / 64 * 8) ∨
      ((index % 8 ≠ 0 ∨ count < 8) ∧ i / 8 = index / 8 ∧ (index % 8 ≤ i % 8 ∧ i % 8 < index % 8 + count))) u2
    (fun i => by rw [hadj, hoff]; split <;> omega) (fun i => Iff.rfl)
  have hn8 : offset8 index + adjusted index count / 64 * 8 + (adjusted index count / 8 - adjusted index count / 64 * 8) =
      offset8 index + adjusted index count / 8 := by omega
  obtain ⟨a3, h3, u3⟩ := loop8_spec (a := a2) (b := b) (o := offset8 index + adjusted index count / 64 * 8) hk.byte
    (adjusted index count / 8 - adjusted index count / 64 * 8)
    (by rw [u12.1, hn8, hadj, hoff]; split <;> omega) (by rw [hn8, hadj, hoff]; split <;> omega)
  have u13 := u12.comp (R := fun i => (offset8 index ≤ i / 8 ∧ i / 8 < offset8 index + adjusted index count / 8) ∨
      ((index % 8 ≠ 0 ∨ count < 8) ∧ i / 8 = index / 8 ∧ (index % 8 ≤ i % 8 ∧ i % 8 < index % 8 + count))) u3
    (fun i => by rw [hadj, hoff]; split <;> omega) (fun i => by omega)
  obtain ⟨a4, h4, u4⟩ : ∃ a4, trailing k b (offset8 index + adjusted index count / 64 * 8 + (adjusted index count / 8 - adjusted index count / 64 * 8)) (adjusted index count) a3 = some a4 ∧
      Upd f b (fun i => adjusted index count % 8 ≠ 0 ∧ i / 8 = offset8 index + adjusted index count / 8) a3 a4 := by
    unfold trailing
    rw [hn8]
    by_cases c : adjusted index count % 8 ≠ 0
    · rw [if_pos c]
      obtain ⟨a4, h4, u4⟩ := upd8_spec (f := f) (g := k.byte) (m := 255#8) (a := a3) (b := b) (o := offset8 index + adjusted index count / 8)
        (fun x y i hi => by rw [hk.byte x y i hi, if_pos (ones8 i hi)])
        (by revert c; rw [u13.1, hadj, hoff]; split <;> omega) (by revert c; rw [hadj, hoff]; split <;> omega)
      refine ⟨a4, h4, u4.congr (fun i => ?_)⟩
      have := ones8 (i % 8) (Nat.mod_lt _ (by omega))
      exact ⟨fun h => ⟨c, h.1⟩, fun h => ⟨h.2, this⟩⟩
    · rw [if_neg c]
      exact ⟨a3, rfl, Upd.refl _ _ _ _ (fun i => by omega)⟩
  refine ⟨a4, ?_, u13.comp u4 (fun i => ?_) (fun i => ?_)⟩
  · simp only [rangeOp, h1, h2, h3, h4, Option.bind_eq_bind, Option.bind_some]
  · rw [hadj, hoff]; split <;> omega
  · rw [hadj, hoff]
    simp only [InRange, Spill]
    split <;> omega

end Verif.Bits
