import Verif.Hash
/-!
# C27: the hashes depend only on the bytes
-/
namespace Verif.Hash
namespace Spec

/-- One-at-a-time hash of a byte string. -/
def jenkins (data : List U8) : U32 := jenkinsEnd (data.foldl jenkinsByte 0#32)

/-- Four bytes, least significant first. -/
def word (b0 b1 b2 b3 : U8) : U32 := b3 ++ b2 ++ b1 ++ b0

/-- MurmurHash3 of a byte string: blocks of four bytes, least significant first, and the leftover. -/
def murmurBody (h : U32) : List U8 → U32
  | b0 :: b1 :: b2 :: b3 :: rest => murmurBody (murmurBlock h (word b0 b1 b2 b3)) rest
  | [b0, b1, b2] => h ^^^ scramble (word b0 b1 b2 0#8)
  | [b0, b1] => h ^^^ scramble (word b0 b1 0#8 0#8)
  | [b0] => h ^^^ scramble (word b0 0#8 0#8 0#8)
  | [] => h

def murmur (data : List U8) : U32 := murmurEnd (murmurBody 0#32 data) data.length

end Spec

theorem map_ok {data : List U8} {off n : Nat} (h : off + n ≤ data.length) : map data off n = some ((data.drop off).take n) := by
  unfold map; rw [if_pos h]

theorem take_add (data : List U8) (a n : Nat) : data.take (a + n) = data.take a ++ (data.drop a).take n := List.take_add

theorem jenkinsLoop_spec (data : List U8) (p : Nat) : ∀ k i, (i + k) * p ≤ data.length →
    jenkinsLoop data p k i ((data.take (i * p)).foldl jenkinsByte 0#32) (i * p) =
      some ((data.take ((i + k) * p)).foldl jenkinsByte 0#32, (i + k) * p, false) := by
  intro k
  induction k with
  | zero => intro i _; rfl
  | succ k ih =>
    intro i h
    have h1 : (i + 1) * p = i * p + p := Nat.succ_mul i p
    have h2 : (i + 1) * p ≤ (i + (k + 1)) * p := Nat.mul_le_mul_right _ (by omega)
    have h3 : i * p + p ≤ data.length := by omega
    have hl : ((data.drop (i * p)).take p).length = p := by simp; omega
    have hh : ((data.drop (i * p)).take p).foldl jenkinsByte ((data.take (i * p)).foldl jenkinsByte 0#32) =
        (data.take ((i + 1) * p)).foldl jenkinsByte 0#32 := by
      rw [h1, take_add, List.foldl_append]
    rw [jenkinsLoop, map_ok h3, Option.bind_eq_bind, Option.bind_some]
    simp only [hl, ne_eq, not_true_eq_false, if_false, hh]
    rw [← h1, ih (i + 1) (by rw [show i + 1 + k = i + (k + 1) by omega]; exact h), show i + 1 + k = i + (k + 1) by omega]

/-- The Jenkins hash, for every byte string and positive preferred map size. -/
theorem C27_jenkins (data : List U8) (p : Nat) (hp : 0 < p) : jenkins data p = some (Spec.jenkins data) := by
  have hp0 : ¬ (p = 0) := by omega
  have hle : (0 + data.length / p) * p ≤ data.length := by rw [Nat.zero_add]; exact Nat.div_mul_le_self _ _
  have h := jenkinsLoop_spec data p (data.length / p) 0 hle
  simp only [Nat.zero_mul, List.take_zero, List.foldl_nil] at h
  rw [jenkins, if_neg hp0, h, Option.bind_eq_bind, Option.bind_some]
  simp only [Bool.false_eq_true, if_false]
  generalize hr : (0 + data.length / p) * p = r at *
  rw [map_ok (by omega), Option.bind_eq_bind, Option.bind_some, ← List.foldl_append, ← take_add, show r + (data.length - r) = data.length by omega,
    List.take_length]
  rfl

/-! ## Murmur -/

theorem word3 (b0 b1 b2 : U8) :
    (0#32 ^^^ b2.setWidth 32 <<< 16) ^^^ b1.setWidth 32 <<< 8 ^^^ b0.setWidth 32 = Spec.word b0 b1 b2 0#8 := by
  unfold Spec.word
  apply BitVec.eq_of_getLsbD_eq
  intro i hi
  simp only [BitVec.getLsbD_xor, BitVec.getLsbD_shiftLeft, BitVec.getLsbD_setWidth, BitVec.getLsbD_append, BitVec.getLsbD_zero, hi, decide_true,
    Bool.true_and, Bool.false_xor]
  by_cases h1 : i < 8
  · simp [h1, show i < 16 by omega]
  · by_cases h2 : i < 16
    · simp [h1, h2, show i - 8 < 8 by omega, show i - 8 < 32 by omega, BitVec.getLsbD_of_ge b0 i (by omega)]
    · by_cases h3 : i < 24
      · simp [h1, h2, show ¬ (i - 8 < 8) by omega, show i - 8 - 8 < 8 by omega, show i - 16 < 8 by omega, show i - 16 < 32 by omega, BitVec.getLsbD_of_ge b0 i (by omega),
          BitVec.getLsbD_of_ge b1 (i - 8) (by omega), show i - 8 - 8 = i - 16 by omega]
      · simp [h1, h2, show ¬ (i - 8 < 8) by omega, show ¬ (i - 8 - 8 < 8) by omega, BitVec.getLsbD_of_ge b0 i (by omega),
          BitVec.getLsbD_of_ge b1 (i - 8) (by omega), BitVec.getLsbD_of_ge b2 (i - 16) (by omega)]

theorem word2 (b0 b1 : U8) : (0#32 ^^^ b1.setWidth 32 <<< 8) ^^^ b0.setWidth 32 = Spec.word b0 b1 0#8 0#8 := by
  rw [← word3]; simp

theorem word1 (b0 : U8) : 0#32 ^^^ b0.setWidth 32 = Spec.word b0 0#8 0#8 0#8 := by
  rw [← word3]; simp

section
attribute [local irreducible] murmurBlock scramble murmurEnd Spec.word

theorem mb4 (h : U32) (b0 b1 b2 b3 : U8) (rest : List U8) :
    Spec.murmurBody h (b0 :: b1 :: b2 :: b3 :: rest) = Spec.murmurBody (murmurBlock h (Spec.word b0 b1 b2 b3)) rest := rfl
theorem mb3 (h : U32) (b0 b1 b2 : U8) : Spec.murmurBody h [b0, b1, b2] = h ^^^ scramble (Spec.word b0 b1 b2 0#8) := rfl
theorem mb2 (h : U32) (b0 b1 : U8) : Spec.murmurBody h [b0, b1] = h ^^^ scramble (Spec.word b0 b1 0#8 0#8) := rfl
theorem mb1 (h : U32) (b0 : U8) : Spec.murmurBody h [b0] = h ^^^ scramble (Spec.word b0 0#8 0#8 0#8) := rfl

theorem murmurBody_append (h : U32) (a b : List U8) (ha : a.length % 4 = 0) :
    Spec.murmurBody h (a ++ b) = Spec.murmurBody (Spec.murmurBody h a) b := by
  induction h, a using Spec.murmurBody.induct with
  | case1 h b0 b1 b2 b3 rest ih =>
    rw [List.cons_append, List.cons_append, List.cons_append, List.cons_append, mb4, mb4]
    apply ih
    simp at ha; omega
  | case2 => simp at ha
  | case3 => simp at ha
  | case4 => simp at ha
  | case5 => rfl

unseal Spec.word in
theorem block_zero (m : List U8) (b0 b1 b2 b3 : U8) : block (b0 :: b1 :: b2 :: b3 :: m) 0 = Spec.word b0 b1 b2 b3 := rfl

theorem foldl_blocks_shift (m : List U8) (b0 b1 b2 b3 : U8) (n : Nat) (h : U32) :
    (List.range (n + 1)).foldl (fun h i => murmurBlock h (block (b0 :: b1 :: b2 :: b3 :: m) i)) h =
      (List.range n).foldl (fun h i => murmurBlock h (block m i)) (murmurBlock h (Spec.word b0 b1 b2 b3)) := by
  rw [List.range_succ_eq_map, List.foldl_cons, List.foldl_map]
  rw [block_zero]
  refine congrArg (fun f => List.foldl f _ _) (funext fun h => funext fun i => ?_)
  have : block (b0 :: b1 :: b2 :: b3 :: m) (i + 1) = block m i := by
    unfold block
    rw [show (i + 1) * 4 + 3 = (i * 4 + 3) + 1 + 1 + 1 + 1 by omega, show (i + 1) * 4 + 2 = (i * 4 + 2) + 1 + 1 + 1 + 1 by omega,
      show (i + 1) * 4 + 1 = (i * 4 + 1) + 1 + 1 + 1 + 1 by omega, show (i + 1) * 4 = (i * 4) + 1 + 1 + 1 + 1 by omega]
    simp only [List.getD_cons_succ]
  rw [Nat.succ_eq_add_one, this]

theorem murmurMap_body (h : U32) (m : List U8) : murmurMap h m = Spec.murmurBody h m := by
  induction h, m using Spec.murmurBody.induct with
  | case1 h b0 b1 b2 b3 rest ih =>
    rw [mb4, ← ih]
    unfold murmurMap
    have e1 : (b0 :: b1 :: b2 :: b3 :: rest).length / 4 = rest.length / 4 + 1 := by simp; omega
    have e2 : (b0 :: b1 :: b2 :: b3 :: rest).length - (rest.length / 4 + 1) * 4 = rest.length - rest.length / 4 * 4 := by simp; omega
    have e3 : (b0 :: b1 :: b2 :: b3 :: rest).drop ((rest.length / 4 + 1) * 4) = rest.drop (rest.length / 4 * 4) := by
      rw [show (rest.length / 4 + 1) * 4 = rest.length / 4 * 4 + 1 + 1 + 1 + 1 by omega]
      simp only [List.drop_succ_cons]
    simp only [e1, e2, e3, foldl_blocks_shift]
  | case2 h b0 b1 b2 => rw [mb3, ← word3]; simp [murmurMap, murmurTail]
  | case3 h b0 b1 => rw [mb2, ← word2]; simp [murmurMap, murmurTail]
  | case4 h b0 => rw [mb1, ← word1]; simp [murmurMap, murmurTail]
  | case5 => rfl

theorem murmurLoop_spec (data : List U8) (p : Nat) (hp : p % 4 = 0) : ∀ k i, (i + k) * p ≤ data.length →
    murmurLoop data p k i (Spec.murmurBody 0#32 (data.take (i * p))) (i * p) =
      some (Spec.murmurBody 0#32 (data.take ((i + k) * p)), (i + k) * p, false) := by
  intro k
  induction k with
  | zero => intro i _; rfl
  | succ k ih =>
    intro i h
    have h1 : (i + 1) * p = i * p + p := Nat.succ_mul i p
    have h2 : (i + 1) * p ≤ (i + (k + 1)) * p := Nat.mul_le_mul_right _ (by omega)
    have h3 : i * p + p ≤ data.length := by omega
    have hl : ((data.drop (i * p)).take p).length = p := by simp; omega
    have hip : (i * p) % 4 = 0 := by rw [Nat.mul_mod, hp, Nat.mul_zero]
    have hh : murmurMap (Spec.murmurBody 0#32 (data.take (i * p))) ((data.drop (i * p)).take p) =
        Spec.murmurBody 0#32 (data.take ((i + 1) * p)) := by
      rw [h1, take_add, murmurBody_append, murmurMap_body]
      rw [List.length_take, Nat.min_eq_left (by omega)]; exact hip
    rw [murmurLoop, map_ok h3, Option.bind_eq_bind, Option.bind_some]
    simp only [hl, ne_eq, not_true_eq_false, if_false, hh]
    rw [← h1, ih (i + 1) (by rw [show i + 1 + k = i + (k + 1) by omega]; exact h), show i + 1 + k = i + (k + 1) by omega]

/-- The Murmur hash, for every byte string and preferred map size (zero included). -/
theorem C27_murmur (data : List U8) (p : Nat) : murmur data p = some (Spec.murmur data) := by
  have hp : murmurSize p % 4 = 0 := by unfold murmurSize; split <;> omega
  generalize hq : murmurSize p = q at hp
  have hle : (0 + data.length / 4 * 4 / q) * q ≤ data.length := by
    rw [Nat.zero_add]
    exact Nat.le_trans (Nat.div_mul_le_self _ _) (Nat.div_mul_le_self _ _)
  have h := murmurLoop_spec data q hp (data.length / 4 * 4 / q) 0 hle
  have e : Spec.murmurBody 0#32 (data.take 0) = 0#32 := by rw [List.take_zero]; rfl
  rw [Nat.zero_mul, e] at h
  simp only [murmur, hq, h, Option.bind_eq_bind, Option.bind_some, Bool.false_eq_true, if_false]
  have hr4 : ((0 + data.length / 4 * 4 / q) * q) % 4 = 0 := by rw [Nat.mul_mod, hp, Nat.mul_zero]
  generalize hr : (0 + data.length / 4 * 4 / q) * q = r at *
  rw [map_ok (by omega), Option.bind_some, murmurMap_body, ← murmurBody_append, ← take_add, show r + (data.length - r) = data.length by omega,
    List.take_length]
  · simp [Spec.murmur, List.length_take, List.length_drop]
    congr 1; omega
  · rw [List.length_take, Nat.min_eq_left (by omega)]; exact hr4

end

/-- So two data objects with the same bytes have the same hashes, however they are mapped. -/
theorem C27_chunk_independent (data : List U8) (p q : Nat) (hp : 0 < p) (hq : 0 < q) :
    jenkins data p = jenkins data q ∧ murmur data p = murmur data q := by
  rw [C27_jenkins data p hp, C27_jenkins data q hq, C27_murmur, C27_murmur]
  exact ⟨rfl, rfl⟩

/-- The Jenkins hash of a data object which has a zero preferred map size divides by zero. -/
theorem C27_jenkins_zero (data : List U8) : jenkins data 0 = none := rfl

example : jenkins [1#8, 2#8, 3#8, 4#8, 5#8] 2 = jenkins [1#8, 2#8, 3#8, 4#8, 5#8] 3 ∧
    murmur [1#8, 2#8, 3#8, 4#8, 5#8, 6#8, 7#8] 5 = murmur [1#8, 2#8, 3#8, 4#8, 5#8, 6#8, 7#8] 100 := by decide
/-- Known value: MurmurHash3 of "test" with seed 0. -/
example : murmur [0x74#8, 0x65#8, 0x73#8, 0x74#8] 1 = some 0xba6bd213#32 := by decide

#print axioms C27_jenkins
#print axioms C27_murmur
#print axioms C27_chunk_independent

end Verif.Hash
