import Verif.FileHandleLemmas
/-!
# C63: a file handle edits the file as a list of bytes
-/
namespace Verif.FileHandle

/-- The call of `FileHandle.h` for each operation; the bytes are those it returns. -/
def step (env : Env) (fuel : Nat) (h : Handle) : Spec.Op → Option (Result × List Byte × Handle)
  | .read none n upd => some (read h n upd)
  | .read (some o) n upd => some (readFrom h o n upd)
  | .overwrite none d upd => let (r, h) := write h d upd; some (r, [], h)
  | .overwrite (some o) d upd => let (r, h) := writeFrom h o d upd; some (r, [], h)
  | .insert none d upd => (insert env fuel h d upd).map fun (r, h) => (r, [], h)
  | .insert (some o) d upd => (insertFrom env fuel h o d upd).map fun (r, h) => (r, [], h)
  | .remove none n upd => (remove env fuel h n upd).map fun (r, h) => (r, [], h)
  | .remove (some o) n upd => (removeFrom env fuel h o n upd).map fun (r, h) => (r, [], h)
  | .seek o => let (r, h) := setOffset h o; some (r, [], h)

def run (env : Env) (fuel : Nat) (h : Handle) : List Spec.Op → Option (List (Result × List Byte) × Handle)
  | [] => some ([], h)
  | op :: ops => do
    let (r, d, h) ← step env fuel h op
    let (rs, h) ← run env fuel h ops
    return ((r, d) :: rs, h)

/-- The call is made within the range of `long`, and an insertion is not past the end and either has no more than a chunk (the larger of the preferred block size and
the inserted bytes) behind it or is not shorter than the preferred block size. -/
def Fits (env : Env) (f : Spec.File) : Spec.Op → Prop
  | .read at' _ upd => at'.getD f.off < 2 ^ 63 ∧ (upd = true → at'.getD f.off + f.bytes.length < 2 ^ 63)
  | .overwrite at' d upd => at'.getD f.off < 2 ^ 63 ∧ (upd = true → at'.getD f.off + d.length < 2 ^ 63)
  | .insert at' d _ => at'.getD f.off ≤ f.bytes.length ∧ f.bytes.length + d.length + max env.blk d.length < 2 ^ 63 ∧
      (f.bytes.length - at'.getD f.off ≤ max env.blk d.length ∨ env.blk ≤ d.length)
  | .remove at' n upd => at'.getD f.off < 2 ^ 63 ∧ f.bytes.length < 2 ^ 63 ∧
      (upd = true → at'.getD f.off ≤ f.bytes.length ∧ at'.getD f.off + n < 2 ^ 63)
  | .seek o => o < 2 ^ 63

def FitsAll (env : Env) (f : Spec.File) : List Spec.Op → Prop
  | [] => True
  | op :: ops => Fits env f op ∧ FitsAll env (Spec.step f op).1 ops

theorem chunkSize_max (blk n : Nat) : chunkSize blk n = max blk n := by unfold chunkSize; split <;> omega

theorem roundUp_ge (T ch : Nat) (hc : 0 < ch) : T ≤ roundUp T ch := by
  unfold roundUp
  have := Nat.div_add_mod (T + ch - 1) ch
  have := Nat.mod_lt (T + ch - 1) hc
  rw [Nat.mul_comm ((T + ch - 1) / ch) ch]
  omega

theorem afterInsert_ok {t : List Byte} {n blk : Nat} (hblk : 0 < blk) (h : t.length ≤ max blk n ∨ blk ≤ n) : afterInsert t n blk = t := by
  unfold afterInsert
  split
  · rfl
  · rename_i h1
    rw [chunkSize_max] at *
    have hm : max blk n = n := by omega
    rw [hm, shifted, List.take_append_drop, List.take_of_length_le (roundUp_ge _ _ (by omega))]

theorem insert_ok {env : Env} (ha : env.alloc = true) (hblk : 0 < env.blk) {F d : List Byte} {o : Nat} (upd : Bool)
    (ho : o ≤ F.length) (hb : F.length + d.length + max env.blk d.length < 2 ^ 63) (hc : F.length - o ≤ max env.blk d.length ∨ env.blk ≤ d.length) :
    Returns (fun fuel => insert env fuel ⟨.update, F, o⟩ d upd)
      (.success, ⟨.update, Spec.insert F o d, if upd then o + d.length else o⟩) := by
  have hp : (F.take o).length = o := by rw [List.length_take]; omega
  have hl : (F.take o).length + (F.drop o).length = F.length := by rw [List.length_take, List.length_drop]; omega
  have := insert_spec ha hblk (pre := F.take o) (t := F.drop o) (d := d) upd (by rw [chunkSize_max]; omega)
  rw [List.take_append_drop, hp, afterInsert_ok hblk (by rw [List.length_drop]; exact hc)] at this
  exact this

theorem remove_ok {env : Env} (ha : env.alloc = true) (hblk : 0 < env.blk) {F : List Byte} {o n : Nat} (upd : Bool)
    (hF : F.length < 2 ^ 63) (hn : upd = true → o ≤ F.length ∧ o + n < 2 ^ 63) :
    Returns (fun fuel => remove env fuel ⟨.update, F, o⟩ n upd)
      (.success, ⟨.update, Spec.remove F o n, if upd then o + n else o⟩) := by
  by_cases ho : o ≤ F.length
  · have hp : (F.take o).length = o := by rw [List.length_take]; omega
    have hl : (F.take o).length + (F.drop o).length = F.length := by rw [List.length_take, List.length_drop]; omega
    have := remove_spec ha hblk (pre := F.take o) (t := F.drop o) (n := n) upd (by omega) (by rw [hp]; exact fun h => (hn h).2)
    rw [List.take_append_drop, hp, List.drop_drop] at this
    exact this
  · cases upd with
    | true => exact absurd (hn rfl).1 ho
    | false =>
      refine ⟨0, fun fuel _ => ?_⟩
      unfold remove
      simp only [getOffset, reduceCtorEq, if_false, ne_eq, not_true_eq_false]
      refine Eq.trans (if_pos (by omega)) ?_
      rw [Spec.remove, List.take_of_length_le (by omega), List.drop_eq_nil_of_le (by omega), List.append_nil]

theorem Returns.map {α β : Type} {x : Nat → Option α} {r : α} (h : Returns x r) (f : α → β) : Returns (fun n => (x n).map f) (f r) := by
  obtain ⟨N, h⟩ := h
  exact ⟨N, fun n hn => by dsimp only; rw [h n hn]; rfl⟩

theorem step_ok {env : Env} (ha : env.alloc = true) (hblk : 0 < env.blk) {f : Spec.File} (hf : f.off < 2 ^ 63) {op : Spec.Op} (h : Fits env f op) :
    Returns (fun fuel => step env fuel ⟨.update, f.bytes, f.off⟩ op)
      (.success, (Spec.step f op).2, ⟨.update, (Spec.step f op).1.bytes, (Spec.step f op).1.off⟩) ∧ (Spec.step f op).1.off < 2 ^ 63 := by
  obtain ⟨F, off⟩ := f
  cases op with
  | read at' n upd =>
    obtain ⟨h1, h2⟩ := h
    have hb : ∀ o, ((F.drop o).take n).length ≤ F.length := by intro o; simp only [List.length_take, List.length_drop]; omega
    cases at' with
    | none =>
      simp only [Option.getD_none] at h1 h2
      refine ⟨⟨0, fun fuel _ => ?_⟩, ?_⟩
      · simp only [step]
        rw [read_ok (by decide) _ _ _ h1 h2]
        cases upd <;> rfl
      · have := hb off
        simp only [Spec.step, Option.getD_none]
        split
        · rename_i hu; have := h2 hu; omega
        · exact hf
    | some o =>
      simp only [Option.getD_some] at h1 h2
      refine ⟨⟨0, fun fuel _ => ?_⟩, ?_⟩
      · simp only [step, readFrom, getOffset]
        rw [setOffset_ok _ h1]
        dsimp only
        rw [read_ok (by decide) _ _ _ h1 h2]
        cases upd with
        | true => rfl
        | false =>
          simp only [and_self, if_true]
          rw [setOffset_ok _ hf]
          rfl
      · have := hb o
        simp only [Spec.step, Option.getD_some]
        split
        · rename_i hu; have := h2 hu; omega
        · exact hf
  | overwrite at' d upd =>
    obtain ⟨h1, h2⟩ := h
    cases at' with
    | none =>
      simp only [Option.getD_none] at h1 h2
      refine ⟨⟨0, fun fuel _ => ?_⟩, ?_⟩
      · simp only [step]
        rw [write_ok (by decide) _ _ _ h1 h2]
        cases upd <;> rfl
      · simp only [Spec.step, Option.getD_none]
        split
        · rename_i hu; exact h2 hu
        · exact hf
    | some o =>
      simp only [Option.getD_some] at h1 h2
      refine ⟨⟨0, fun fuel _ => ?_⟩, ?_⟩
      · simp only [step, writeFrom, getOffset]
        rw [setOffset_ok _ h1]
        dsimp only
        rw [write_ok (by decide) _ _ _ h1 h2]
        cases upd with
        | true => rfl
        | false =>
          simp only [and_self, if_true]
          rw [setOffset_ok _ hf]
          rfl
      · simp only [Spec.step, Option.getD_some]
        split
        · rename_i hu; exact h2 hu
        · exact hf
  | insert at' d upd =>
    obtain ⟨h1, h2, h3⟩ := h
    cases at' with
    | none =>
      simp only [Option.getD_none] at h1 h2 h3
      refine ⟨?_, ?_⟩
      · have := (insert_ok ha hblk upd h1 h2 h3).map fun r => (r.1, ([] : List Byte), r.2)
        exact this
      · simp only [Spec.step, Option.getD_none]; split <;> omega
    | some o =>
      simp only [Option.getD_some] at h1 h2 h3
      refine ⟨?_, ?_⟩
      · obtain ⟨N, hN⟩ := insert_ok ha hblk upd h1 h2 h3
        dsimp only at hN
        refine ⟨N, fun fuel hfu => ?_⟩
        simp only [step, insertFrom, getOffset]
        rw [setOffset_ok _ (by omega)]
        dsimp only
        rw [hN fuel hfu]
        cases upd with
        | true => rfl
        | false =>
          simp only [Option.bind_eq_bind, Option.bind_some, and_self, if_true, pure, Option.map_some]
          rw [setOffset_ok _ hf]
          rfl
      · simp only [Spec.step, Option.getD_some]; split <;> omega
  | remove at' n upd =>
    obtain ⟨h1, h2, h3⟩ := h
    cases at' with
    | none =>
      simp only [Option.getD_none] at h1 h2 h3
      refine ⟨?_, ?_⟩
      · have := (remove_ok ha hblk upd h2 h3).map fun r => (r.1, ([] : List Byte), r.2)
        exact this
      · simp only [Spec.step, Option.getD_none]
        split
        · rename_i hu; exact (h3 hu).2
        · exact hf
    | some o =>
      simp only [Option.getD_some] at h1 h2 h3
      refine ⟨?_, ?_⟩
      · obtain ⟨N, hN⟩ := remove_ok ha hblk upd h2 h3
        dsimp only at hN
        refine ⟨N, fun fuel hfu => ?_⟩
        simp only [step, removeFrom, getOffset]
        rw [setOffset_ok _ h1]
        dsimp only
        rw [hN fuel hfu]
        cases upd with
        | true => rfl
        | false =>
          simp only [Option.bind_eq_bind, Option.bind_some, and_self, if_true, pure, Option.map_some]
          rw [setOffset_ok _ hf]
          rfl
      · simp only [Spec.step, Option.getD_some]
        split
        · rename_i hu; exact (h3 hu).2
        · exact hf
  | seek o =>
    refine ⟨⟨0, fun fuel _ => ?_⟩, h⟩
    simp only [step]
    rw [setOffset_ok _ h]
    rfl

/-- **C63**, partial.  On a handle opened for updating every history of reads, overwrites, insertions, removals and seeks that `Fits` comes to an end, every call
succeeds and returns the bytes that the same call returns on a plain list of bytes, and the file and the offset are those of the list.  Missing: insertions of less than a block in
front of more than a block, and past the end (`C63_insert_exact`, `C63_insert_past_end_refuted`), and offsets outside `long`. -/
theorem C63_file_handle_partial (env : Env) (ha : env.alloc = true) (hblk : 0 < env.blk) (ops : List Spec.Op) : ∀ (f : Spec.File), f.off < 2 ^ 63 → FitsAll env f ops →
    ∃ N, ∀ fuel, N ≤ fuel → run env fuel ⟨.update, f.bytes, f.off⟩ ops =
      some ((Spec.run f ops).2.map fun d => (.success, d), ⟨.update, (Spec.run f ops).1.bytes, (Spec.run f ops).1.off⟩) := by
  induction ops with
  | nil => intro f _ _; exact ⟨0, fun _ _ => rfl⟩
  | cons op ops ih =>
    intro f hf h
    obtain ⟨⟨N1, h1⟩, hoff⟩ := step_ok ha hblk hf h.1
    dsimp only at h1
    obtain ⟨N2, h2⟩ := ih (Spec.step f op).1 hoff h.2
    refine ⟨max N1 N2, fun fuel hfu => ?_⟩
    unfold run
    rw [h1 fuel (by omega)]
    simp only [Option.bind_eq_bind, Option.bind_some]
    rw [h2 fuel (by omega)]
    rfl

/-- **C63**, what inserting `d` between `pre` and `t` does in every case: nothing else is wrong than what follows the inserted bytes, which is `t` if it fits in a chunk (the larger of
the block size and the number of inserted bytes), and otherwise the first chunk of `t` followed by `t` without as many bytes as were inserted, cut off at the next
multiple of the chunk. -/
theorem C63_insert_exact (env : Env) (ha : env.alloc = true) (hblk : 0 < env.blk) (pre t d : List Byte) (upd : Bool)
    (hb : pre.length + t.length + d.length + max env.blk d.length < 2 ^ 63) :
    ∃ N, ∀ fuel, N ≤ fuel → insert env fuel ⟨.update, pre ++ t, pre.length⟩ d upd = some (.success,
      ⟨.update, pre ++ d ++ (if t.length ≤ max env.blk d.length then t
        else (t.take (max env.blk d.length) ++ t.drop d.length).take ((t.length + max env.blk d.length - 1) / max env.blk d.length * max env.blk d.length)),
        if upd then pre.length + d.length else pre.length⟩) := by
  have := insert_spec ha hblk (pre := pre) (t := t) (d := d) upd (by rw [chunkSize_max]; exact hb)
  unfold afterInsert shifted roundUp at this
  rw [chunkSize_max] at this
  exact this

/-- **C63**, refuted: one byte inserted at the start of a file that is longer than a block; the byte after the first block is repeated. -/
theorem C63_insert_refuted : ∃ h, insert ⟨4, true⟩ 10 ⟨.update, [1, 2, 3, 4, 5, 6], 0⟩ [9] false = some (.success, h) ∧
    h.stream.bytes = [9, 1, 2, 3, 4, 2, 3, 4, 5] ∧ Spec.insert [1, 2, 3, 4, 5, 6] 0 [9] = [9, 1, 2, 3, 4, 5, 6] := ⟨_, rfl, rfl, rfl⟩

/-- **C63**, refuted: inserting past the end never returns. -/
theorem C63_insert_past_end_refuted (env : Env) (ha : env.alloc = true) (F d : List Byte) (o : Nat) (upd : Bool) (ho : F.length < o)
    (hb : o + d.length < 2 ^ 63) (fuel : Nat) : insert env fuel ⟨.update, F, o⟩ d upd = none := by
  unfold insert
  have hs : 0 < (F.length + W - o) % W := by
    rw [Nat.mod_eq_of_lt (by unfold W; omega)]; unfold W; omega
  simp only [getOffset, reduceCtorEq, if_false, ne_eq, not_true_eq_false, ha, Bool.true_eq_false]
  rw [read_ok (by decide) _ _ _ (by omega) (by simp), List.drop_eq_nil_of_le (by omega)]
  simp only [List.take_nil, fwrite, Bool.false_eq_true, if_false]
  rw [shift_forever _ hb hs]
  · rfl
  · unfold put
    split
    · omega
    · simp only [List.length_append, List.length_take, List.length_replicate, List.length_drop]; omega

/-- **C63**, refuted: removing everything with the documented `SIZE_MAX` and updating the offset moves it back by one, or reports a failure although the bytes are gone. -/
theorem C63_remove_all_offset_refuted :
    remove ⟨4, true⟩ 10 ⟨.update, [1, 2, 3], 2⟩ (2 ^ 64 - 1) true = some (.success, ⟨.update, [1, 2], 1⟩) ∧
    remove ⟨4, true⟩ 10 ⟨.update, [1, 2, 3], 0⟩ (2 ^ 64 - 1) true = some (.failure, ⟨.update, [], 0⟩) := ⟨rfl, rfl⟩

/-- **C63.** A handle opened for reading does not change the file, one opened for writing does not read, insert or remove; the calls fail.  Without an offset of their own they leave the
handle as it is. -/
theorem C63_modes (env : Env) (fuel : Nat) (s : Stream) (n : Nat) (d : List Byte) (upd : Bool) :
    write ⟨.read, s⟩ d upd = (.failure, ⟨.read, s⟩) ∧ insert env fuel ⟨.read, s⟩ d upd = some (.failure, ⟨.read, s⟩) ∧
    remove env fuel ⟨.read, s⟩ n upd = some (.failure, ⟨.read, s⟩) ∧
    read ⟨.write, s⟩ n upd = (.failure, [], ⟨.write, s⟩) ∧ insert env fuel ⟨.write, s⟩ d upd = some (.failure, ⟨.write, s⟩) ∧
    remove env fuel ⟨.write, s⟩ n upd = some (.failure, ⟨.write, s⟩) := ⟨rfl, rfl, rfl, rfl, rfl, rfl⟩

/-- **C63.** Reading and overwriting do not need a handle for updating. -/
theorem C63_read_write_modes (m : Mode) (F : List Byte) (o n : Nat) (d : List Byte) (upd : Bool) (h1 : o + F.length < 2 ^ 63) (h2 : o + d.length < 2 ^ 63) :
    (m ≠ .write → read ⟨m, F, o⟩ n upd = (.success, (F.drop o).take n, ⟨m, F, if upd then o + ((F.drop o).take n).length else o⟩)) ∧
    (m ≠ .read → write ⟨m, F, o⟩ d upd = (.success, ⟨m, Spec.overwrite F o d, if upd then o + d.length else o⟩)) :=
  ⟨fun hm => read_ok hm _ _ _ (by omega) (fun _ => h1), fun hm => write_ok hm _ _ _ (by omega) (fun _ => h2)⟩

/-- **C63**, refuted: a call with an offset of its own that fails has moved the offset, although it was to be preserved. -/
theorem C63_failed_call_offset_refuted : writeFrom ⟨.read, [1, 2, 3], 0⟩ 2 [9] false = (.failure, ⟨.read, [1, 2, 3], 2⟩) := rfl

/-! ## Non-vacuity -/

/-- A history that fits, with blocks of four bytes: an insertion, a removal, an overwrite past the end, a read. -/
example : FitsAll ⟨4, true⟩ ⟨[1, 2, 3, 4, 5], 0⟩ [.insert (some 2) [7, 8] false, .seek 1, .remove none 3 false, .overwrite (some 6) [9] true, .read (some 0) 100 false] ∧
    Spec.run ⟨[1, 2, 3, 4, 5], 0⟩ [.insert (some 2) [7, 8] false, .seek 1, .remove none 3 false, .overwrite (some 6) [9] true, .read (some 0) 100 false] =
      (⟨[1, 3, 4, 5, 0, 0, 9], 7⟩, [[], [], [], [], [1, 3, 4, 5, 0, 0, 9]]) := by
  refine ⟨?_, by decide⟩
  simp only [FitsAll, Fits, Spec.step, Spec.insert, Spec.remove, Spec.overwrite]
  decide

/-- An insertion of more than a block in front of more than a block fits, too. -/
example : Fits ⟨2, true⟩ ⟨[1, 2, 3, 4, 5], 0⟩ (.insert none [7, 8, 9] false) := by simp only [Fits]; decide

#print axioms C63_file_handle_partial
#print axioms C63_insert_exact
#print axioms C63_insert_past_end_refuted
end Verif.FileHandle
