import Verif.FileStream
import Verif.FileHandleLemmas
/-!
# C149: what a file stream of the reflection reads back, and which failures it counts
-/
namespace Verif.FileStream

open Verif.FileHandle

/-- One write in full. -/
theorem writeStream_ok {m : Mode} (hm : m ≠ .read) (F : List Byte) {p : Nat} (r : Result) (c : Nat) (d : List Byte) (k : Nat) (hp : p + d.length < 2 ^ 63) :
    writeStream ⟨⟨m, F, p⟩, r, c⟩ d k = ⟨⟨m, put F p (d.take k), p + d.length⟩, .success, c⟩ := by
  unfold writeStream writeSome
  rw [if_neg hm]
  simp only [fwrite, getOffset]
  rw [finish_ok _ true (by omega) (fun _ => hp)]
  simp [counted]

/-- One read. -/
theorem readStream_ok {m : Mode} (hm : m ≠ .write) (F : List Byte) {p : Nat} (r : Result) (c : Nat) (old : List Byte) (hp : p + F.length < 2 ^ 63) :
    readStream ⟨⟨m, F, p⟩, r, c⟩ old =
      (⟨⟨m, F, p + ((F.drop p).take old.length).length⟩, .success, c⟩, (F.drop p).take old.length ++ old.drop ((F.drop p).take old.length).length) := by
  unfold readStream
  dsimp only
  rw [read_ok hm F old.length true (by omega) (fun _ => hp)]
  simp [counted]

theorem writeAll_ok {m : Mode} (hm : m ≠ .read) (c : Nat) (ds : List (List Byte)) :
    ∀ (A B : List Byte) (r : Result), A.length + ds.flatten.length < 2 ^ 63 → ds ≠ [] →
      writeAll ⟨⟨m, A ++ B, A.length⟩, r, c⟩ ds =
        ⟨⟨m, A ++ ds.flatten ++ B.drop ds.flatten.length, A.length + ds.flatten.length⟩, .success, c⟩ := by
  induction ds with
  | nil => intro A B r _ h; exact absurd rfl h
  | cons d ds ih =>
    intro A B r h _
    simp only [List.flatten_cons, List.length_append] at h
    simp only [writeAll]
    rw [writeStream_ok hm (A ++ B) r c d d.length (by omega), List.take_length, put_mid]
    by_cases hd : ds = []
    · subst hd; simp [writeAll]
    · have := ih (A ++ d) (B.drop d.length) .success (by rw [List.length_append]; omega) hd
      rw [List.length_append] at this
      rw [this]
      simp [List.append_assoc, Nat.add_assoc]

theorem readAll_ok {m : Mode} (hm : m ≠ .write) (c : Nat) (ds : List (List Byte)) :
    ∀ (A B : List Byte) (r : Result) (olds : List (List Byte)), 2 * A.length + ds.flatten.length + B.length + ds.flatten.length < 2 ^ 63 → ds ≠ [] →
      olds.map List.length = ds.map List.length →
      readAll ⟨⟨m, A ++ ds.flatten ++ B, A.length⟩, r, c⟩ olds = (⟨⟨m, A ++ ds.flatten ++ B, A.length + ds.flatten.length⟩, .success, c⟩, ds) := by
  induction ds with
  | nil => intro A B r olds _ h; exact absurd rfl h
  | cons d ds ih =>
    intro A B r olds h _ ho
    cases olds with
    | nil => simp at ho
    | cons o olds =>
      simp only [List.map_cons, List.cons.injEq] at ho
      obtain ⟨ho, hos⟩ := ho
      simp only [List.flatten_cons, List.length_append] at h
      have e : A ++ (d :: ds).flatten ++ B = A ++ (d ++ (ds.flatten ++ B)) := by simp
      have q : ((A ++ (d ++ (ds.flatten ++ B))).drop A.length).take o.length = d := by rw [List.drop_left, ho, List.take_left]
      have step := readStream_ok hm (A ++ (d ++ (ds.flatten ++ B))) (p := A.length) r c o (by simp only [List.length_append]; omega)
      rw [q, ← ho, List.drop_length, List.append_nil, ho] at step
      rw [e]
      simp only [readAll, step]
      by_cases hd : ds = []
      · subst hd
        have : olds = [] := by simpa using hos
        subst this
        simp [readAll]
      · have := ih (A ++ d) B .success olds (by simp only [List.length_append]; omega) hd hos
        have e2 : A ++ d ++ ds.flatten ++ B = A ++ (d ++ (ds.flatten ++ B)) := by simp
        rw [e2, List.length_append] at this
        rw [this]
        simp [Nat.add_assoc]

/-- **C149, the round trip.** Blocks written one after the other through a file stream, at any place of any file, are read back one after the other, each as it was written, by a stream that
starts at the same place and asks for the same sizes, whatever the memory held before; neither stream counts a failure, and both are left behind the last block.  The rest of
the file is as it was. -/
theorem C149_round_trip {m m' : Mode} (hm : m ≠ .read) (hm' : m' ≠ .write) (A B : List Byte) (ds olds : List (List Byte)) (r r' : Result) (c c' : Nat)
    (hds : ds ≠ []) (hold : olds.map List.length = ds.map List.length) (hlen : 2 * A.length + 2 * ds.flatten.length + B.length < 2 ^ 63) :
    ∃ F, F = A ++ ds.flatten ++ B.drop ds.flatten.length ∧
      writeAll ⟨⟨m, A ++ B, A.length⟩, r, c⟩ ds = ⟨⟨m, F, A.length + ds.flatten.length⟩, .success, c⟩ ∧
      readAll ⟨⟨m', F, A.length⟩, r', c'⟩ olds = (⟨⟨m', F, A.length + ds.flatten.length⟩, .success, c'⟩, ds) := by
  refine ⟨_, rfl, writeAll_ok hm c ds A B r (by omega) hds, readAll_ok hm' c' ds A _ r' olds ?_ hds hold⟩
  simp only [List.length_drop]; omega

/-- **C149, the counter.** A call whose handle is of the wrong kind is counted, its result is kept, and neither the file nor the memory is touched; any other call (of a file of a size a
`long` can hold) is not counted, whatever it has read or written. -/
theorem C149_counted (m : Mode) (F : List Byte) (p : Nat) (r : Result) (c : Nat) (d : List Byte) (k : Nat) (h : p + F.length + d.length < 2 ^ 63) :
    (m = .read → writeStream ⟨⟨m, F, p⟩, r, c⟩ d k = ⟨⟨m, F, p⟩, .failure, c + 1⟩) ∧
    (m = .write → readStream ⟨⟨m, F, p⟩, r, c⟩ d = (⟨⟨m, F, p⟩, .failure, c + 1⟩, d)) ∧
    (m ≠ .read → (writeStream ⟨⟨m, F, p⟩, r, c⟩ d k).result = .success ∧ (writeStream ⟨⟨m, F, p⟩, r, c⟩ d k).failures = c) ∧
    (m ≠ .write → (readStream ⟨⟨m, F, p⟩, r, c⟩ d).1.result = .success ∧ (readStream ⟨⟨m, F, p⟩, r, c⟩ d).1.failures = c) := by
  refine ⟨?_, ?_, fun hm => ?_, fun hm => ?_⟩
  · rintro rfl; simp [writeStream, writeSome, counted]
  · rintro rfl; simp [readStream, FileHandle.read, counted]
  · rw [writeStream_ok hm F r c d k (by omega)]; exact ⟨rfl, rfl⟩
  · rw [readStream_ok hm F r c d (by omega)]; exact ⟨rfl, rfl⟩

/-- **C149, refuted for short reads.** A read that asks for more than the file still has is not counted as a failure: the memory is filled as far as the file goes, and the rest of it holds
what it held before. -/
theorem C149_short_read_refuted {m : Mode} (hm : m ≠ .write) (A T old : List Byte) (r : Result) (c : Nat) (hT : T.length < old.length)
    (h : 2 * A.length + T.length < 2 ^ 63) :
    readStream ⟨⟨m, A ++ T, A.length⟩, r, c⟩ old = (⟨⟨m, A ++ T, A.length + T.length⟩, .success, c⟩, T ++ old.drop T.length) := by
  have q : ((A ++ T).drop A.length).take old.length = T := by rw [List.drop_left, List.take_of_length_le (by omega)]
  rw [readStream_ok hm (A ++ T) r c old (by rw [List.length_append]; omega), q]

/-- **C149, refuted for short writes.** A write of which the system takes only the first `k` bytes is not counted as a failure, and the offset moves on as if all had been written; a block
written next at the end of the file is behind a gap of zeros. -/
theorem C149_short_write_refuted {m : Mode} (hm : m ≠ .read) (A d e : List Byte) (r : Result) (c k : Nat) (hk' : k < d.length) (he : e ≠ [])
    (h : A.length + d.length + e.length < 2 ^ 63) :
    writeStream ⟨⟨m, A, A.length⟩, r, c⟩ d k = ⟨⟨m, A ++ d.take k, A.length + d.length⟩, .success, c⟩ ∧
    writeStream (writeStream ⟨⟨m, A, A.length⟩, r, c⟩ d k) e e.length =
      ⟨⟨m, A ++ d.take k ++ List.replicate (d.length - k) 0 ++ e, A.length + d.length + e.length⟩, .success, c⟩ := by
  have one : writeStream ⟨⟨m, A, A.length⟩, r, c⟩ d k = ⟨⟨m, A ++ d.take k, A.length + d.length⟩, .success, c⟩ := by
    rw [writeStream_ok hm A r c d k (by omega)]
    have := put_mid A [] (d.take k)
    simp only [List.append_nil, List.drop_nil] at this
    rw [this]
  refine ⟨one, ?_⟩
  rw [one, writeStream_ok hm _ _ c e e.length (by omega), List.take_length]
  have lk : (A ++ d.take k).length = A.length + k := by rw [List.length_append, List.length_take]; omega
  unfold put
  rw [if_neg he, List.take_of_length_le (by omega), List.drop_eq_nil_of_le (by omega), lk, List.append_nil]
  have : A.length + d.length - (A.length + k) = d.length - k := by omega
  rw [this]

/-- The writes of `writeAll` are the writes of the file handles. -/
theorem writeSome_full (h : Handle) (d : List Byte) : writeSome h d d.length = FileHandle.write h d true := by
  unfold writeSome FileHandle.write; rw [List.take_length]

/-- A reader that follows the writer whose first block was cut short gets zeros in place of the rest of the block. -/
example : (readAll ⟨⟨.read, (writeStream (writeStream ⟨⟨.write, [], 0⟩, .success, 0⟩ [1, 2, 3] 1) [4] 1).file.stream.bytes, 0⟩, .success, 0⟩ [[9, 9, 9], [9]]).2 = [[1, 0, 0], [4]] := by decide

example : writeAll ⟨⟨.update, [7, 7, 7, 7], 1⟩, .failure, 3⟩ [[1], [2, 3]] = ⟨⟨.update, [7, 1, 2, 3], 4⟩, .success, 3⟩ := by decide
example : readAll ⟨⟨.read, [7, 1, 2, 3], 1⟩, .success, 0⟩ [[0], [0, 0]] = (⟨⟨.read, [7, 1, 2, 3], 4⟩, .success, 0⟩, [[1], [2, 3]]) := by decide
/-- The hypotheses of the round trip are met. -/
example : ([[1], [2, 3]] : List (List Byte)) ≠ [] ∧ ([[0], [0, 0]] : List (List Byte)).map List.length = ([[1], [2, 3]] : List (List Byte)).map List.length ∧
    2 * ([7] : List Byte).length + 2 * ([[1], [2, 3]] : List (List Byte)).flatten.length + ([8, 8] : List Byte).length < 2 ^ 63 := by decide
/-- Two of the four bytes asked for are there. -/
example : readStream ⟨⟨.read, [5, 1, 2], 1⟩, .success, 0⟩ [9, 9, 9, 9] = (⟨⟨.read, [5, 1, 2], 3⟩, .success, 0⟩, [1, 2, 9, 9]) := by decide

#print axioms C149_round_trip
#print axioms C149_counted
#print axioms C149_short_read_refuted
#print axioms C149_short_write_refuted

end Verif.FileStream
