import Verif.FileCopy
import Verif.FileHandleLemmas
/-!
# Part of C71: copying a file of the system
-/
namespace Verif.FileCopy
open Verif.FileHandle

theorem len3 {B : List Byte} {blk : Nat} (hb : 0 < blk) (h0 : B ≠ []) : 0 < (B.take blk).length ∧ (B.take blk).length ≤ B.length := by
  have : 0 < B.length := List.length_pos_iff.2 h0
  rw [List.length_take]
  omega

/-- The loop, with `A` copied already and `E` behind it in the destination. -/
theorem copyLoop_spec {blk : Nat} (hb : 0 < blk) (fuel : Nat) : ∀ (A B E : List Byte),
    2 * (A.length + B.length) < 2 ^ 63 → B.length < fuel →
    copyLoop blk fuel ⟨.read, A ++ B, A.length⟩ ⟨.write, A ++ E, A.length⟩ =
      some (.success, ⟨.read, A ++ B, A.length + B.length⟩, ⟨.write, A ++ B ++ E.drop B.length, A.length + B.length⟩) := by
  induction fuel with
  | zero => intro A B E _ h; omega
  | succ fuel ih =>
    intro A B E hl hf
    unfold copyLoop
    rw [read_ok (by decide) _ _ _ (by omega) (fun _ => by rw [List.length_append]; omega)]
    have hd : (List.drop A.length (A ++ B)) = B := by simp
    dsimp only
    rw [hd, if_neg (by simp)]
    rw [write_ok (by decide) _ _ _ (by omega) (fun _ => by rw [List.length_take]; omega)]
    dsimp only
    rw [if_neg (by simp), put_mid]
    by_cases h0 : B = []
    · subst h0
      simp
    · obtain ⟨h1, h2⟩ := len3 hb h0
      rw [if_neg (by omega)]
      have := ih (A ++ B.take blk) (B.drop blk) (E.drop (B.take blk).length)
        (by simp only [List.length_append, List.length_take, List.length_drop]; omega)
        (by rw [List.length_take] at h1; rw [List.length_drop]; omega)
      have e1 : A ++ B.take blk ++ B.drop blk = A ++ B := by rw [List.append_assoc, List.take_append_drop]
      have e2 : (A ++ B.take blk).length = A.length + (B.take blk).length := List.length_append
      have e3 : A.length + (B.take blk).length + (B.drop blk).length = A.length + B.length := by
        rw [List.length_take, List.length_drop]; omega
      have e4 : (E.drop (B.take blk).length).drop (B.drop blk).length = E.drop B.length := by
        rw [List.drop_drop]
        congr 1
        rw [List.length_take, List.length_drop]; omega
      rw [e2, e3, e1, e4] at this
      simp only [if_true]
      exact this

theorem selfLoop_spec {blk : Nat} (hb : 0 < blk) (fuel : Nat) : ∀ (A B : List Byte),
    2 * (A.length + B.length) < 2 ^ 63 → B.length < fuel →
    selfLoop blk fuel ⟨.read, A ++ B, A.length⟩ ⟨.write, A ++ B, A.length⟩ =
      some (.success, ⟨.read, A ++ B, A.length + B.length⟩, ⟨.write, A ++ B, A.length + B.length⟩) := by
  induction fuel with
  | zero => intro A B _ h; omega
  | succ fuel ih =>
    intro A B hl hf
    unfold selfLoop
    rw [read_ok (by decide) _ _ _ (by omega) (fun _ => by rw [List.length_append]; omega)]
    have hd : (List.drop A.length (A ++ B)) = B := by simp
    dsimp only
    rw [hd, if_neg (by simp)]
    rw [write_ok (by decide) _ _ _ (by omega) (fun _ => by rw [List.length_take]; omega)]
    dsimp only
    rw [if_neg (by simp), put_mid]
    have e0 : A ++ B.take blk ++ B.drop (B.take blk).length = A ++ B := by
      rw [List.append_assoc]
      congr 1
      rw [List.length_take]
      by_cases h : blk ≤ B.length
      · rw [Nat.min_eq_left h, List.take_append_drop]
      · rw [Nat.min_eq_right (by omega), List.take_of_length_le (by omega), List.drop_length, List.append_nil]
    rw [e0]
    by_cases h0 : B = []
    · subst h0
      simp
    · obtain ⟨h1, h2⟩ := len3 hb h0
      rw [if_neg (by omega)]
      have := ih (A ++ B.take blk) (B.drop blk)
        (by simp only [List.length_append, List.length_take, List.length_drop]; omega)
        (by rw [List.length_take] at h1; rw [List.length_drop]; omega)
      have e1 : A ++ B.take blk ++ B.drop blk = A ++ B := by rw [List.append_assoc, List.take_append_drop]
      have e2 : (A ++ B.take blk).length = A.length + (B.take blk).length := List.length_append
      have e3 : A.length + (B.take blk).length + (B.drop blk).length = A.length + B.length := by
        rw [List.length_take, List.length_drop]; omega
      rw [e2, e3, e1] at this
      simp only [if_true]
      exact this

/-- **C71, copying a file of the system, exactly.**  For every source, destination and block size, the copy ends, reports
success, and the destination holds the source followed by what it held behind that length: it is not shortened. -/
theorem C71_system_copy_exact (env : Env) (ha : env.alloc = true) (hb : 0 < env.blk) (src : List Byte)
    (dst : Option (List Byte)) (hl : 2 * src.length < 2 ^ 63) (fuel : Nat) (hf : src.length < fuel) :
    copyFile env fuel src dst = some (.success, src ++ (dst.getD []).drop src.length) := by
  unfold copyFile
  dsimp only
  rw [if_neg (by rw [ha]; simp), if_neg (by omega)]
  have := copyLoop_spec hb fuel [] src (dst.getD []) (by simpa using hl) hf
  simp only [List.nil_append, List.length_nil, Nat.zero_add] at this
  rw [this]

/-- **C71, copying a file of the system** onto a new destination, or one that is not longer, makes it the same as the source. -/
theorem C71_system_copy_partial (env : Env) (ha : env.alloc = true) (hb : 0 < env.blk) (src : List Byte)
    (dst : Option (List Byte)) (hd : (dst.getD []).length ≤ src.length) (hl : 2 * src.length < 2 ^ 63) (fuel : Nat)
    (hf : src.length < fuel) :
    copyFile env fuel src dst = some (.success, src) := by
  rw [C71_system_copy_exact env ha hb src dst hl fuel hf, List.drop_eq_nil_of_le hd, List.append_nil]

/-- **C71 is false onto a longer file**: the end of the old contents stays, and success is reported. -/
theorem C71_system_copy_refuted : copyFile ⟨2, true⟩ 10 [1, 2, 3] (some [9, 8, 7, 6, 5]) = some (.success, [1, 2, 3, 6, 5]) := by
  decide +kernel

/-- **C71, a block size of 0** - the answer when the file information is not available (FileSystem.c 202) - copies nothing and
reports success. -/
theorem C71_block_size_refuted (alloc : Bool) (src : List Byte) (fuel : Nat) : copyFile ⟨0, alloc⟩ fuel src none = some (.success, []) := by
  simp [copyFile]

/-- **C71, copying a file of the system onto itself** leaves it as it is. -/
theorem C71_system_self_copy (blk : Nat) (hb : 0 < blk) (F : List Byte) (hl : 2 * F.length < 2 ^ 63) (fuel : Nat)
    (hf : F.length < fuel) : ∃ r w, selfLoop blk fuel ⟨.read, F, 0⟩ ⟨.write, F, 0⟩ = some (.success, r, w) ∧ w.stream.bytes = F := by
  have := selfLoop_spec hb fuel [] F (by simpa using hl) hf
  simp only [List.nil_append, List.length_nil, Nat.zero_add] at this
  exact ⟨_, _, this, rfl⟩

example : copyFile ⟨2, true⟩ 6 [1, 2, 3, 4, 5] none = some (.success, [1, 2, 3, 4, 5]) :=
  C71_system_copy_partial _ rfl (by decide) _ _ (by decide) (by decide) _ (by decide)

#print axioms C71_system_copy_exact
#print axioms C71_system_copy_partial
#print axioms C71_system_copy_refuted
#print axioms C71_block_size_refuted
#print axioms C71_system_self_copy

end Verif.FileCopy
