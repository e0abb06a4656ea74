import Verif.HashProps
/-!
# C27: the hashes are the published ones

The published definitions of Jenkins' one-at-a-time hash and of MurmurHash3 (x86, 32 bits, seed 0), on natural numbers below 2³², without anything of the model.
-/
namespace Verif.Hash
namespace Published

/-- 2³². -/
def M : Nat := 4294967296

/-- One-at-a-time: a byte is added. -/
def oaatByte (h b : Nat) : Nat :=
  let h1 := (h + b) % M
  let h2 := (h1 + h1 * 1024) % M
  h2 ^^^ (h2 / 64)

/-- One-at-a-time: the end. -/
def oaatEnd (h : Nat) : Nat :=
  let h1 := (h + h * 8) % M
  let h2 := h1 ^^^ (h1 / 2048)
  (h2 + h2 * 32768) % M

/-- Jenkins' one-at-a-time hash. -/
def oaat (data : List Nat) : Nat := oaatEnd (data.foldl oaatByte 0)

/-- Rotation to the left by `r` places. -/
def rotl (x r : Nat) : Nat := x * 2 ^ r % M + x / 2 ^ (32 - r)

/-- MurmurHash3: a word made ready. -/
def mix (k : Nat) : Nat := rotl (k * 0xcc9e2d51 % M) 15 * 0x1b873593 % M

/-- MurmurHash3: a word is taken in. -/
def take (h k : Nat) : Nat := (rotl (h ^^^ mix k) 13 * 5 + 0xe6546b64) % M

section
attribute [local irreducible] take mix

/-- MurmurHash3: the words, least significant byte first, then the bytes left. -/
def body (h : Nat) : List Nat → Nat
  | b0 :: b1 :: b2 :: b3 :: rest => body (take h (b0 + b1 * 256 + b2 * 65536 + b3 * 16777216)) rest
  | [b0, b1, b2] => h ^^^ mix (b0 + b1 * 256 + b2 * 65536)
  | [b0, b1] => h ^^^ mix (b0 + b1 * 256)
  | [b0] => h ^^^ mix b0
  | [] => h

theorem body4 (h b0 b1 b2 b3 : Nat) (rest : List Nat) : body h (b0 :: b1 :: b2 :: b3 :: rest) = body (take h (b0 + b1 * 256 + b2 * 65536 + b3 * 16777216)) rest := rfl
theorem body3 (h b0 b1 b2 : Nat) : body h [b0, b1, b2] = h ^^^ mix (b0 + b1 * 256 + b2 * 65536) := rfl
theorem body2 (h b0 b1 : Nat) : body h [b0, b1] = h ^^^ mix (b0 + b1 * 256) := rfl
theorem body1 (h b0 : Nat) : body h [b0] = h ^^^ mix b0 := rfl
theorem body0 (h : Nat) : body h [] = h := rfl

end

/-- MurmurHash3: the end. -/
def fmix (h : Nat) : Nat :=
  let h1 := (h ^^^ (h / 65536)) * 0x85ebca6b % M
  let h2 := (h1 ^^^ (h1 / 8192)) * 0xc2b2ae35 % M
  h2 ^^^ (h2 / 65536)

/-- MurmurHash3 with seed 0. -/
def murmur3 (data : List Nat) : Nat := fmix (body 0 data ^^^ data.length % M)

end Published

theorem jenkinsByte_pub (h : U32) (b : U8) : (jenkinsByte h b).toNat = Published.oaatByte h.toNat b.toNat := by
  simp [jenkinsByte, Published.oaatByte, Published.M, Nat.shiftRight_eq_div_pow, Nat.shiftLeft_eq]
  have e : (h.toNat + b.toNat + (h.toNat * 1024 + b.toNat * 1024)) % 4294967296 = (h.toNat + b.toNat + (h.toNat + b.toNat) % 4294967296 * 1024) % 4294967296 := by omega
  rw [e]

theorem jenkinsFold_pub (data : List U8) (h : U32) : (data.foldl jenkinsByte h).toNat = (data.map BitVec.toNat).foldl Published.oaatByte h.toNat := by
  induction data generalizing h with
  | nil => rfl
  | cons b l ih => rw [List.foldl_cons, List.map_cons, List.foldl_cons, ih, jenkinsByte_pub]

theorem jenkinsEnd_pub (h : U32) : (jenkinsEnd h).toNat = Published.oaatEnd h.toNat := by
  simp [jenkinsEnd, Published.oaatEnd, Published.M, Nat.shiftRight_eq_div_pow, Nat.shiftLeft_eq]

/-- `CCHashJenkins32` is Jenkins' one-at-a-time hash of the bytes, whatever the (positive) preferred map size. -/
theorem C27_jenkins_published (data : List U8) (p : Nat) (hp : 0 < p) : (jenkins data p).map BitVec.toNat = some (Published.oaat (data.map BitVec.toNat)) := by
  rw [C27_jenkins data p hp, Option.map_some, Spec.jenkins, jenkinsEnd_pub, jenkinsFold_pub]
  rfl

theorem rol_pub (x : U32) (n : Nat) (h : n < 32) : (rol x n).toNat = Published.rotl x.toNat n := by
  have e : (x <<< n).toNat = x.toNat * 2 ^ n % Published.M := by simp [Nat.shiftLeft_eq, Published.M]
  have f : (x >>> (32 - n)).toNat = x.toNat / 2 ^ (32 - n) := by simp [Nat.shiftRight_eq_div_pow]
  have g : x.toNat / 2 ^ (32 - n) < 2 ^ n := by
    rw [Nat.div_lt_iff_lt_mul (Nat.two_pow_pos _), ← Nat.pow_add, show n + (32 - n) = 32 by omega]
    exact x.isLt
  have m : ∃ y, x.toNat * 2 ^ n % Published.M = y * 2 ^ n := by
    refine ⟨x.toNat % 2 ^ (32 - n), ?_⟩
    rw [show Published.M = 2 ^ (32 - n) * 2 ^ n by rw [← Nat.pow_add, show 32 - n + n = 32 by omega]; rfl, Nat.mul_mod_mul_right]
  obtain ⟨y, hy⟩ := m
  rw [rol, BitVec.toNat_or, e, f, Published.rotl, hy, ← Nat.shiftLeft_eq, Nat.shiftLeft_add_eq_or_of_lt g]

theorem mulc_pub (x : U32) (c : Nat) : (x * BitVec.ofNat 32 c).toNat = x.toNat * c % Published.M := by
  simp [Published.M, Nat.mul_mod]

theorem scramble_pub (k : U32) : (scramble k).toNat = Published.mix k.toNat := by
  rw [scramble, mulc_pub, rol_pub _ _ (by omega), mulc_pub]; rfl

theorem murmurBlock_pub (h k : U32) : (murmurBlock h k).toNat = Published.take h.toNat k.toNat := by
  rw [murmurBlock, Published.take, BitVec.toNat_add, mulc_pub, rol_pub _ _ (by omega), BitVec.toNat_xor, scramble_pub]
  simp [Published.M]

theorem word_pub (b0 b1 b2 b3 : U8) : (Spec.word b0 b1 b2 b3).toNat = b0.toNat + b1.toNat * 256 + b2.toNat * 65536 + b3.toNat * 16777216 := by
  have h0 := b0.isLt
  have h1 := b1.isLt
  have h2 := b2.isLt
  simp only [Spec.word, BitVec.toNat_append]
  rw [← Nat.shiftLeft_add_eq_or_of_lt h0, ← Nat.shiftLeft_add_eq_or_of_lt h1, ← Nat.shiftLeft_add_eq_or_of_lt h2]
  simp only [Nat.shiftLeft_eq]
  omega

section
attribute [local irreducible] Published.take Published.mix murmurBlock scramble Spec.word

theorem body_pub (h : U32) (data : List U8) : (Spec.murmurBody h data).toNat = Published.body h.toNat (data.map BitVec.toNat) := by
  induction h, data using Spec.murmurBody.induct with
  | case1 h b0 b1 b2 b3 rest ih =>
    rw [mb4, ih, murmurBlock_pub, word_pub]; simp only [List.map_cons, Published.body4]
  | case2 h b0 b1 b2 => rw [mb3, BitVec.toNat_xor, scramble_pub, word_pub]; simp [Published.body3]
  | case3 h b0 b1 => rw [mb2, BitVec.toNat_xor, scramble_pub, word_pub]; simp [Published.body2]
  | case4 h b0 => rw [mb1, BitVec.toNat_xor, scramble_pub, word_pub]; simp [Published.body1]
  | case5 h => rw [List.map_nil, Published.body0]; rfl

end

theorem murmurEnd_pub (h : U32) (n : Nat) : (murmurEnd h n).toNat = Published.fmix (h.toNat ^^^ n % Published.M) := by
  have s (x : U32) (k : Nat) : (x ^^^ x >>> k).toNat = x.toNat ^^^ x.toNat / 2 ^ k := by
    rw [BitVec.toNat_xor, BitVec.toNat_ushiftRight, Nat.shiftRight_eq_div_pow]
  simp only [murmurEnd, s, mulc_pub]
  rw [BitVec.toNat_xor, BitVec.toNat_ofNat]
  rfl

/-- `CCHashMurmur32` is MurmurHash3 (x86, 32 bits, seed 0) of the bytes, whatever the preferred map size, on a little-endian machine. -/
theorem C27_murmur_published (data : List U8) (p : Nat) : (murmur data p).map BitVec.toNat = some (Published.murmur3 (data.map BitVec.toNat)) := by
  rw [C27_murmur data p, Option.map_some, Spec.murmur, murmurEnd_pub, body_pub, Published.murmur3, List.length_map]
  rfl

/-- Known values: one-at-a-time of "a", MurmurHash3 of "test". -/
example : Published.oaat [0x61] = 0xca2e9442 ∧ Published.murmur3 [0x74, 0x65, 0x73, 0x74] = 0xba6bd213 := by decide

#print axioms C27_jenkins_published
#print axioms C27_murmur_published

end Verif.Hash
