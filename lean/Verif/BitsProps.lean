import Verif.BitsMask
/-!
# Properties of the bit sets: C22, C23, C24, C47
-/
namespace Verif.Bits
open Spec

/-! ## C22: single bits -/

/-- Setting bit `i`, for every block width: bit `i` becomes one, no other bit changes.
Missing for C22: bits whose position inside the block is 31 or more, see `C22_refuted`. -/
theorem C22_set_partial {w : Nat} (hw : 0 < w) (s : List (BitVec w)) (i : Nat) (hi : i / w < s.length) (h31 : i % w < 31) :
    ∃ s', set w s i = some s' ∧ s'.length = s.length ∧ ∀ j, bit s' j = if j = i then true else bit s j := by
  refine ⟨s.set (i / w) (s[i / w] ||| (1#32 <<< (i % w)).signExtend w), by simp only [set, List.getElem?_eq_getElem hi, shl1, if_pos h31, Option.bind_eq_bind, Option.bind_some], by simp, ?_⟩
  intro j
  rw [bit_set hw hi]
  by_cases c : j / w = i / w
  · have hj : j / w < s.length := by omega
    rw [if_pos c, BitVec.getLsbD_or, signExtend_shl1_getLsbD h31 (Nat.mod_lt _ hw), bit_block hj]
    by_cases e : j = i
    · subst e; simp
    · have : ¬ (j % w = i % w) := by
        intro h; apply e
        rw [← Nat.div_add_mod j w, ← Nat.div_add_mod i w, c, h]
      simp [e, this, c]
  · have : j ≠ i := fun e => c (by rw [e])
    simp [c, this]

/-- Clearing bit `i`. -/
theorem C22_clear_partial {w : Nat} (hw : 0 < w) (s : List (BitVec w)) (i : Nat) (hi : i / w < s.length) (h31 : i % w < 31) :
    ∃ s', clear w s i = some s' ∧ s'.length = s.length ∧ ∀ j, bit s' j = if j = i then false else bit s j := by
  refine ⟨s.set (i / w) (s[i / w] &&& (~~~ (1#32 <<< (i % w))).signExtend w), by simp only [clear, List.getElem?_eq_getElem hi, shl1, if_pos h31, Option.bind_eq_bind, Option.bind_some], by simp, ?_⟩
  intro j
  rw [bit_set hw hi]
  by_cases c : j / w = i / w
  · have hj : j / w < s.length := by omega
    rw [if_pos c, BitVec.getLsbD_and, signExtend_not_shl1_getLsbD h31 (Nat.mod_lt _ hw), bit_block hj]
    by_cases e : j = i
    · subst e; simp
    · have : ¬ (j % w = i % w) := by
        intro h; apply e
        rw [← Nat.div_add_mod j w, ← Nat.div_add_mod i w, c, h]
      simp [e, this, c]
  · have : j ≠ i := fun e => c (by rw [e])
    simp [c, this]

/-- Assigning a value to bit `i`. -/
theorem C22_assign_partial {w : Nat} (hw : 0 < w) (s : List (BitVec w)) (i : Nat) (v : Bool) (hi : i / w < s.length) (h31 : i % w < 31) :
    ∃ s', assign w s i v = some s' ∧ s'.length = s.length ∧ ∀ j, bit s' j = if j = i then v else bit s j := by
  have hv : shlBool v (i % w) = some (if v then 1#32 <<< (i % w) else 0#32) := by
    cases v
    · have : i % w < 32 := by omega
      simp [shlBool, this]
    · simp [shlBool, shl1, h31]
  refine ⟨s.set (i / w) ((s[i / w] &&& (~~~ (1#32 <<< (i % w))).signExtend w) ||| (if v then 1#32 <<< (i % w) else 0#32).signExtend w), by simp only [assign, List.getElem?_eq_getElem hi, shl1, if_pos h31, hv, Option.bind_eq_bind, Option.bind_some], by simp, ?_⟩
  intro j
  rw [bit_set hw hi]
  by_cases c : j / w = i / w
  · have hj : j / w < s.length := by omega
    have hz : ((if v then 1#32 <<< (i % w) else 0#32).signExtend w).getLsbD (j % w) = (v && decide (j % w = i % w)) := by
      cases v
      · simp [BitVec.getLsbD_signExtend]
      · rw [if_pos rfl, signExtend_shl1_getLsbD h31 (Nat.mod_lt _ hw)]; simp
    rw [if_pos c, BitVec.getLsbD_or, BitVec.getLsbD_and, signExtend_not_shl1_getLsbD h31 (Nat.mod_lt _ hw), hz, bit_block hj]
    by_cases e : j = i
    · subst e; simp
    · have : ¬ (j % w = i % w) := by
        intro h; apply e
        rw [← Nat.div_add_mod j w, ← Nat.div_add_mod i w, c, h]
      simp [e, this, c]
  · have : j ≠ i := fun e => c (by rw [e])
    simp [c, this]

/-- Reading bit `i`. -/
theorem C22_get_partial {w : Nat} (hw : 0 < w) (s : List (BitVec w)) (i : Nat) (hi : i / w < s.length) (h31 : i % w < 31) :
    get w s i = some (bit s i) := by
  simp only [get, List.getElem?_eq_getElem hi, shl1, if_pos h31, Option.bind_eq_bind, Option.bind_some]
  rw [bit_block hi, Option.some.injEq, Bool.eq_iff_iff, bne_iff_ne, ne_zero_iff_bits]
  constructor
  · rintro ⟨k, hk, e⟩
    rw [BitVec.getLsbD_and, signExtend_shl1_getLsbD h31 hk] at e
    simp at e
    rw [← e.2]; simpa using e.1
  · intro e
    refine ⟨i % w, Nat.mod_lt _ hw, ?_⟩
    rw [BitVec.getLsbD_and, signExtend_shl1_getLsbD h31 (Nat.mod_lt _ hw), e]
    simp

/-- Sets made of 8 or 16 bit blocks never meet the shift problem: reading any bit after any in-range
assignment returns the assigned value at the assigned index and the previous value elsewhere. -/
theorem C22_narrow_blocks {w : Nat} (hw : w = 8 ∨ w = 16) (s : List (BitVec w)) (i j : Nat) (v : Bool)
    (hi : i < w * s.length) (hj : j < w * s.length) :
    (do let s' ← assign w s i v; get w s' j) = if j = i then some v else get w s j := by
  have hw0 : 0 < w := by omega
  have hi' : i / w < s.length := Nat.div_lt_of_lt_mul hi
  have hj' : j / w < s.length := Nat.div_lt_of_lt_mul hj
  have hm := Nat.mod_lt i hw0
  have hm2 := Nat.mod_lt j hw0
  obtain ⟨s', h1, h2, h3⟩ := C22_assign_partial hw0 s i v hi' (by omega)
  rw [h1, Option.bind_eq_bind, Option.bind_some, C22_get_partial hw0 s' j (by omega) (by omega),
    C22_get_partial hw0 s j hj' (by omega), h3]
  split <;> rfl

/-- Bit sets of 64 bit blocks: setting or reading bit 32 (in range) evaluates `1 << 32` on `int`,
which is undefined. -/
theorem C22_refuted : set 64 [0#64] 32 = none ∧ get 64 [0#64] 32 = none ∧ clear 64 [0#64] 40 = none ∧ assign 64 [0#64] 63 true = none := by decide

example : set 16 [0x8001#16, 3#16] 18 = some [0x8001#16, 7#16] := by decide
example : get 32 [5#32, 8#32] 35 = some true := by decide
example : assign 8 [0xff#8, 0xff#8] 9 false = some [0xff#8, 0xfd#8] := by decide
example : clear 64 [0xffffffffffffffff#64] 30 = some [0xffffffffbfffffff#64] := by decide

/-! ## C23: ranges -/

/-- `op` gives every bit of the range the value `f (bit of a) (bit of b)` and changes no bit outside
the range, except that the bits behind the range in its last byte get `f` as well when the range
leaves its first byte. -/
def OnRange (f : Bool → Bool → Bool) (a b : Store) (index count : Nat) (r : Option Store) : Prop :=
  ∃ a', r = some a' ∧ a'.length = a.length ∧
    ∀ i, bit a' i = if InRange index count i ∨ Spill index count i then f (bit a i) (bit b i) else bit a i

/-- The range lies in the storage and begins inside it. -/
def Fits (s : Store) (index count : Nat) : Prop := index + count ≤ 8 * s.length ∧ index < 8 * s.length

theorem computes_set : Computes kSet (fun _ _ => true) ∧ ComputesShort kSet (fun _ _ => true) := by
  have e : (-1 : U8) = 255#8 := by decide
  have l : ∀ (m x : U8) i, i < 8 → ((-1 &&& m) ||| (x &&& ~~~ m)).getLsbD i = if m.getLsbD i then true else x.getLsbD i := by
    intro m x i hi
    rw [BitVec.getLsbD_or, BitVec.getLsbD_and, BitVec.getLsbD_and, BitVec.getLsbD_not, e, ones8 i hi]
    cases m.getLsbD i <;> simp [hi]
  refine ⟨⟨?_, ?_, fun m x _ i hi => l m x i hi⟩, fun m x _ i hi => l m x i hi⟩
  · intro x y i hi
    have : (-1 : BitVec 64) = BitVec.allOnes 64 := by decide
    show (-1 : BitVec 64).getLsbD i = true
    rw [this, BitVec.getLsbD_allOnes]; simpa using hi
  · intro x y i hi
    show (-1 : U8).getLsbD i = true
    rw [e, ones8 i hi]

theorem computes_clear : Computes kClear (fun _ _ => false) ∧ ComputesShort kClear (fun _ _ => false) := by
  have l : ∀ (m x : U8) i, i < 8 → (x &&& ~~~ m).getLsbD i = if m.getLsbD i then false else x.getLsbD i := by
    intro m x i hi
    rw [BitVec.getLsbD_and, BitVec.getLsbD_not]
    cases m.getLsbD i <;> simp [hi]
  refine ⟨⟨?_, ?_, fun m x _ i hi => l m x i hi⟩, fun m x _ i hi => l m x i hi⟩
  · intro x y i hi; simp [kClear]
  · intro x y i hi; simp [kClear]

theorem computes_not : Computes kNot (fun x _ => !x) ∧ ComputesShort kNot (fun x _ => !x) := by
  have l : ∀ (m x : U8) i, i < 8 → ((~~~ x &&& m) ||| (x &&& ~~~ m)).getLsbD i = if m.getLsbD i then !x.getLsbD i else x.getLsbD i := by
    intro m x i hi
    rw [BitVec.getLsbD_or, BitVec.getLsbD_and, BitVec.getLsbD_and, BitVec.getLsbD_not, BitVec.getLsbD_not]
    cases m.getLsbD i <;> simp [hi]
  refine ⟨⟨?_, ?_, fun m x _ i hi => l m x i hi⟩, fun m x _ i hi => l m x i hi⟩
  · intro x y i hi; show (~~~ x).getLsbD i = _; rw [BitVec.getLsbD_not]; simp [hi]
  · intro x y i hi; show (~~~ x).getLsbD i = _; rw [BitVec.getLsbD_not]; simp [hi]

theorem computes_or : Computes kOr (fun x y => x || y) ∧ ComputesShort kOr (fun x y => x || y) := by
  have l : ∀ (m x y : U8) i, i < 8 → (x ||| (y &&& m)).getLsbD i = if m.getLsbD i then (x.getLsbD i || y.getLsbD i) else x.getLsbD i := by
    intro m x y i hi
    rw [BitVec.getLsbD_or, BitVec.getLsbD_and]
    cases m.getLsbD i <;> simp
  exact ⟨⟨fun x y i _ => BitVec.getLsbD_or, fun x y i _ => BitVec.getLsbD_or, fun m x y i hi => l m x y i hi⟩, fun m x y i hi => l m x y i hi⟩

theorem computes_and : Computes kAnd (fun x y => x && y) := by
  have l : ∀ (m x y : U8) i, i < 8 → (x &&& ((y &&& m) ||| ~~~ m)).getLsbD i = if m.getLsbD i then (x.getLsbD i && y.getLsbD i) else x.getLsbD i := by
    intro m x y i hi
    rw [BitVec.getLsbD_and, BitVec.getLsbD_or, BitVec.getLsbD_and, BitVec.getLsbD_not]
    cases m.getLsbD i <;> simp [hi]
  exact ⟨fun x y i _ => BitVec.getLsbD_and, fun x y i _ => BitVec.getLsbD_and, fun m x y i hi => l m x y i hi⟩

theorem computes_xor : Computes kXor (fun x y => x ^^ y) ∧ ComputesShort kXor (fun x y => x ^^ y) := by
  have l : ∀ (m x y : U8) i, i < 8 → (x ^^^ (y &&& m)).getLsbD i = if m.getLsbD i then (x.getLsbD i ^^ y.getLsbD i) else x.getLsbD i := by
    intro m x y i hi
    rw [BitVec.getLsbD_xor, BitVec.getLsbD_and]
    cases m.getLsbD i <;> simp
  exact ⟨⟨fun x y i _ => BitVec.getLsbD_xor, fun x y i _ => BitVec.getLsbD_xor, fun m x y i hi => l m x y i hi⟩, fun m x y i hi => l m x y i hi⟩

theorem computes_copy : Computes kCopy (fun _ y => y) ∧ ComputesShort kCopy (fun _ y => y) := by
  have l : ∀ (m x y : U8) i, i < 8 → ((x &&& ~~~ m) ||| (y &&& m)).getLsbD i = if m.getLsbD i then y.getLsbD i else x.getLsbD i := by
    intro m x y i hi
    rw [BitVec.getLsbD_or, BitVec.getLsbD_and, BitVec.getLsbD_and, BitVec.getLsbD_not]
    cases m.getLsbD i <;> simp [hi]
  exact ⟨⟨fun x y i _ => rfl, fun x y i _ => rfl, fun m x y i hi => l m x y i hi⟩, fun m x y i hi => l m x y i hi⟩

/-- The seven range operations, for every index, count and contents: inside the range the documented
value, outside unchanged — up to the bits described by `Spill` (and `CCBitsAnd` on a range shorter
than eight bits that starts on a byte boundary, see `C23_refuted_and`). -/
theorem C23_range_partial (a b : Store) (index count : Nat) (ha : Fits a index count) (hb : Fits b index count) :
    OnRange (fun _ _ => true) a a index count (setRange a index count) ∧
    OnRange (fun _ _ => false) a a index count (clearRange a index count) ∧
    OnRange (fun x _ => !x) a a index count (notRange a index count) ∧
    OnRange (fun x y => x || y) a b index count (orRange a b index count) ∧
    (¬ (index % 8 = 0 ∧ count < 8) → OnRange (fun x y => x && y) a b index count (andRange a b index count)) ∧
    OnRange (fun x y => x ^^ y) a b index count (xorRange a b index count) ∧
    OnRange (fun _ y => y) a b index count (copyRange a b index count) := by
  refine ⟨rangeOp_spec computes_set.1 (Or.inl computes_set.2) ha.1 ha.1 ha.2 ha.2,
    rangeOp_spec computes_clear.1 (Or.inl computes_clear.2) ha.1 ha.1 ha.2 ha.2,
    rangeOp_spec computes_not.1 (Or.inl computes_not.2) ha.1 ha.1 ha.2 ha.2,
    rangeOp_spec computes_or.1 (Or.inl computes_or.2) ha.1 hb.1 ha.2 hb.2,
    fun h => rangeOp_spec computes_and (Or.inr h) ha.1 hb.1 ha.2 hb.2,
    rangeOp_spec computes_xor.1 (Or.inl computes_xor.2) ha.1 hb.1 ha.2 hb.2,
    rangeOp_spec computes_copy.1 (Or.inl computes_copy.2) ha.1 hb.1 ha.2 hb.2⟩

/-- `op` acts on exactly the bits of the range. -/
def Exactly (f : Bool → Bool → Bool) (a b : Store) (index count : Nat) (r : Option Store) : Prop :=
  ∃ a', r = some a' ∧ a'.length = a.length ∧
    ∀ i, bit a' i = if InRange index count i then f (bit a i) (bit b i) else bit a i

theorem OnRange.exactly {f : Bool → Bool → Bool} {a b : Store} {index count : Nat} {r : Option Store}
    (h : OnRange f a b index count r) (he : index % 8 + count < 8 ∨ (index + count) % 8 = 0) : Exactly f a b index count r := by
  obtain ⟨a', h1, h2, h3⟩ := h
  refine ⟨a', h1, h2, fun i => ?_⟩
  have : ¬ Spill index count i := by unfold Spill; omega
  rw [h3]; simp [this]

/-- When the range ends on a byte boundary, or stays inside one byte, exactly the range is touched. -/
theorem C23_range_exact_partial (a b : Store) (index count : Nat) (ha : Fits a index count) (hb : Fits b index count)
    (he : index % 8 + count < 8 ∨ (index + count) % 8 = 0) :
    Exactly (fun _ _ => true) a a index count (setRange a index count) ∧
    Exactly (fun _ _ => false) a a index count (clearRange a index count) ∧
    Exactly (fun x _ => !x) a a index count (notRange a index count) ∧
    Exactly (fun x y => x || y) a b index count (orRange a b index count) ∧
    (¬ (index % 8 = 0 ∧ count < 8) → Exactly (fun x y => x && y) a b index count (andRange a b index count)) ∧
    Exactly (fun x y => x ^^ y) a b index count (xorRange a b index count) ∧
    Exactly (fun _ y => y) a b index count (copyRange a b index count) := by
  obtain ⟨h1, h2, h3, h4, h5, h6, h7⟩ := C23_range_partial a b index count ha hb
  exact ⟨h1.exactly he, h2.exactly he, h3.exactly he, h4.exactly he, fun h => (h5 h).exactly he, h6.exactly he, h7.exactly he⟩

/-- The code does touch bits outside the range: setting bits 4 to 9 also sets bits 10 to 15;
clearing, inverting, copying behave alike. -/
theorem C23_refuted :
    setRange [0#8, 0#8] 4 6 = some [0xf0#8, 0xff#8] ∧
    clearRange [0xff#8, 0xff#8] 4 6 = some [0x0f#8, 0x00#8] ∧
    notRange [0#8, 0#8] 0 9 = some [0xff#8, 0xff#8] ∧
    copyRange [0#8, 0#8] [0xff#8, 0xff#8] 0 9 = some [0xff#8, 0xff#8] := by decide

theorem C23_refuted_exactly : ¬ Exactly (fun _ _ => true) [0#8, 0#8] [0#8, 0#8] 4 6 (setRange [0#8, 0#8] 4 6) := by
  rintro ⟨a', h1, -, h3⟩
  rw [C23_refuted.1] at h1
  cases h1
  have := h3 15
  revert this; decide

/-- `CCBitsAnd` of bits 0 to 2 with zeros leaves them unchanged and sets bits 3 to 7 (`|=` for `&=`). -/
theorem C23_refuted_and : andRange [0x07#8] [0x00#8] 0 3 = some [0xff#8] := by decide

/-- Storage of three bytes, range crossing two byte boundaries. -/
example : Fits [0x12#8, 0x34#8, 0x56#8] 3 21 ∧ (3 + 21) % 8 = 0 ∧
    xorRange [0x12#8, 0x34#8, 0x56#8] [0xff#8, 0xff#8, 0xff#8] 3 21 = some [0xea#8, 0xcb#8, 0xa9#8] := by
  refine ⟨by unfold Fits; decide, by decide, by decide⟩

/-! ## C24: counting -/

/-- The count is the number of one bits of the range, for every index, count and contents. -/
theorem C24_count (s : Store) (index cnt : Nat) (h : Fits s index cnt) :
    count s index cnt = some (ones s index cnt) := count_spec s index cnt h.1 h.2

/-- Whenever the any-bit query has defined behaviour its answer is right. -/
theorem C24_any_partial (s : Store) (index cnt : Nat) (h : Fits s index cnt) (v : Bool) (hv : any s index cnt = some v) :
    v = true ↔ ones s index cnt ≠ 0 := by
  rcases any_spec s index cnt h.1 h.2 with e | ⟨e, -⟩
  · rw [hv] at e
    cases e
    simp
  · rw [hv] at e; cases e

/-- It has defined behaviour when the range starts or ends on a byte boundary, or stays inside one
byte.  Missing for C24: ranges which start and end inside a byte, see `C24_refuted_any`. -/
theorem C24_any_defined_partial (s : Store) (index cnt : Nat) (h : Fits s index cnt)
    (he : index % 8 = 0 ∨ (index + cnt) % 8 = 0 ∨ index % 8 + cnt < 8) :
    any s index cnt = some (decide (ones s index cnt ≠ 0)) := by
  rcases any_spec s index cnt h.1 h.2 with e | ⟨-, h1, h2, -⟩
  · exact e
  · exfalso
    revert h2
    unfold adjusted offset8
    split <;> omega

/-- The query is undefined only on ranges which start and end inside a byte and hold no one bit
before their last byte. -/
theorem C24_any_undefined_only (s : Store) (index cnt : Nat) (h : Fits s index cnt) :
    any s index cnt = none → index % 8 ≠ 0 ∧ (index + cnt) % 8 ≠ 0 ∧
      ∀ i, index ≤ i → i < (index + cnt) / 8 * 8 → bit s i = false := by
  intro hn
  rcases any_spec s index cnt h.1 h.2 with e | ⟨-, h1, h2, h3, h4, h5⟩
  · rw [hn] at e; cases e
  · have hc : 8 - index % 8 ≤ cnt := by
      apply Classical.byContradiction; intro hc
      apply h2; unfold adjusted; rw [if_neg hc]
    have hadj : adjusted index cnt = index + cnt - (index + 7) / 8 * 8 := by unfold adjusted offset8; rw [if_pos hc]
    have hlead : leadLen index cnt = 8 - index % 8 := by unfold leadLen; rw [if_pos (Or.inl h1)]; omega
    have hoff : offset8 index = (index + 7) / 8 := rfl
    refine ⟨h1, by omega, fun i hi1 hi2 => ?_⟩
    apply Classical.byContradiction
    intro hb
    rw [Bool.not_eq_false] at hb
    by_cases c : i < index + leadLen index cnt
    · exact (ones_ne_zero_iff s index _).2 ⟨i - index, by omega, by rw [show index + (i - index) = i by omega]; exact hb⟩ h4
    · refine (ones_ne_zero_iff s (8 * offset8 index) _).2 ⟨i - 8 * offset8 index, by omega, ?_⟩ h5
      rw [show 8 * offset8 index + (i - 8 * offset8 index) = i by omega]; exact hb

/-- Asking for any bit among bits 4 to 9 of an empty set shifts an `int` by 62. -/
theorem C24_refuted_any : any [0#8, 0#8] 4 6 = none := by decide

example : Fits [0xff#8, 0x01#8, 0x80#8, 0#8, 0#8, 0#8, 0#8, 0#8, 0xff#8, 0xff#8, 0xff#8] 3 77 ∧
    count [0xff#8, 0x01#8, 0x80#8, 0#8, 0#8, 0#8, 0#8, 0#8, 0xff#8, 0xff#8, 0xff#8] 3 77 = some 23 := by
  refine ⟨by unfold Fits; decide, by decide⟩
example : any [0xf8#8, 0#8, 0x10#8] 8 12 = some false ∧ any [0xf8#8, 0#8, 0x10#8] 8 13 = some true := by decide

/-! ## C47: listing the common bits -/

/-- `CCBitsMask` reports every common bit of the range exactly once.  Missing for C47: groups of 64
bits whose only common bit is the last (undefined shift by 64, `C47_refuted_undefined`); a range
starting on a byte boundary with complete bytes and a partial byte after the complete 64 bit groups
(`C47_refuted_tail`). -/
theorem C47_mask_partial (a b : Store) (index cnt : Nat) (ha : Fits a index cnt) (hb : Fits b index cnt)
    (hl : ¬ LoneTop a b index cnt) (hal : index % 8 = 0 → (index + cnt) % 8 = 0 ∨ cnt % 64 < 8) :
    ∃ l, mask a b index cnt = some l ∧ l.Perm (common a b index cnt) := by
  refine ⟨_, mask_spec a b index cnt ha.1 hb.1 ha.2 hb.2 hl hal, ?_⟩
  rw [common_eq, sel_split a b index cnt]
  have e : adjusted index cnt = 64 * (adjusted index cnt / 64) + (adjusted index cnt - 64 * (adjusted index cnt / 64)) := by omega
  have e2 : sel (both a b) (offset8 index * 8) (adjusted index cnt) = sel (both a b) (offset8 index * 8) (64 * (adjusted index cnt / 64)) ++
      sel (both a b) (offset8 index * 8 + 64 * (adjusted index cnt / 64)) (adjusted index cnt - 64 * (adjusted index cnt / 64)) := by
    rw [← sel_add, ← e]
  rw [e2, ← List.append_assoc]
  exact List.Perm.append_right _ List.perm_append_comm

/-- They are reported in increasing order when the range starts on a byte boundary, or is short of
the first complete group of 64 bits. -/
theorem C47_mask_order_partial (a b : Store) (index cnt : Nat) (ha : Fits a index cnt) (hb : Fits b index cnt)
    (hl : ¬ LoneTop a b index cnt) (hal : index % 8 = 0 → (index + cnt) % 8 = 0 ∨ cnt % 64 < 8)
    (ho : index % 8 = 0 ∨ cnt < 64) :
    mask a b index cnt = some (common a b index cnt) := by
  rw [mask_spec a b index cnt ha.1 hb.1 ha.2 hb.2 hl hal, common_eq, sel_split a b index cnt]
  have e : adjusted index cnt = 64 * (adjusted index cnt / 64) + (adjusted index cnt - 64 * (adjusted index cnt / 64)) := by omega
  have e2 : sel (both a b) (offset8 index * 8) (adjusted index cnt) = sel (both a b) (offset8 index * 8) (64 * (adjusted index cnt / 64)) ++
      sel (both a b) (offset8 index * 8 + 64 * (adjusted index cnt / 64)) (adjusted index cnt - 64 * (adjusted index cnt / 64)) := by
    rw [← sel_add, ← e]
  rw [e2, ← List.append_assoc]
  congr 2
  by_cases c : adjusted index cnt / 64 = 0
  · rw [c]; simp [sel]
  · have hc : leadLen index cnt = 0 := by
      have : index % 8 = 0 ∧ ¬ cnt < 8 := by
        revert c; unfold adjusted offset8; split <;> omega
      unfold leadLen; split <;> omega
    rw [hc]; simp [sel]

/-- The only common bit of a group of 64 is its last: `Mask >>= 64`. -/
theorem C47_refuted_undefined :
    mask (List.replicate 7 0#8 ++ [0x80#8]) (List.replicate 7 0#8 ++ [0x80#8]) 0 64 = none := by decide

/-- Range of 12 bits from a byte boundary: the common bit 8 is reported as bit 0. -/
theorem C47_refuted_tail : mask [0x00#8, 0x01#8] [0x00#8, 0x01#8] 0 12 = some [0] := by decide

/-- A range over a byte boundary and a complete group: bit 8 is reported before bit 7. -/
theorem C47_refuted_order :
    mask (0x80#8 :: 0x01#8 :: List.replicate 7 0#8) (0x80#8 :: 0x01#8 :: List.replicate 7 0#8) 7 65 = some [8, 7] := by decide

example : mask [0xf0#8, 0x0f#8, 0x05#8] [0x3c#8, 0xff#8, 0x07#8] 3 20 = some [4, 5, 8, 9, 10, 11, 16, 18] ∧
    common [0xf0#8, 0x0f#8, 0x05#8] [0x3c#8, 0xff#8, 0x07#8] 3 20 = [4, 5, 8, 9, 10, 11, 16, 18] := by decide

/-- The hypotheses of `C47_mask_partial` hold for it: the range has no complete group of 64 bits. -/
example : Fits [0xf0#8, 0x0f#8, 0x05#8] 3 20 ∧ ¬ LoneTop [0xf0#8, 0x0f#8, 0x05#8] [0x3c#8, 0xff#8, 0x07#8] 3 20 := by
  refine ⟨by unfold Fits; decide, ?_⟩
  rintro ⟨l, h, -⟩
  omega

#print axioms C22_narrow_blocks
#print axioms C23_range_partial
#print axioms C24_count
#print axioms C24_any_undefined_only
#print axioms C47_mask_partial
#print axioms C47_mask_order_partial

end Verif.Bits
