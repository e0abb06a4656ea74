import Verif.FileHandle
import Verif.FileHandleSpec
/-!
# The loops of the file handles
-/
namespace Verif.FileHandle

/-- `x` comes to an end with `r`. -/
def Returns {α : Type} (x : Nat → Option α) (r : α) : Prop := ∃ N, ∀ fuel, N ≤ fuel → x fuel = some r

theorem put_mid (A B x : List Byte) : put (A ++ B) A.length x = A ++ x ++ B.drop x.length := by
  unfold put
  split
  · rename_i h; subst h; simp
  · simp

theorem put_at {A B : List Byte} {p : Nat} (hp : p = A.length) (x : List Byte) : put (A ++ B) p x = A ++ x ++ B.drop x.length := by
  subst hp; exact put_mid A B x

theorem setOffset_ok (h : Handle) {o : Nat} (ho : o < 2 ^ 63) : setOffset h o = (.success, ⟨h.mode, h.stream.bytes, o⟩) := by
  unfold setOffset; rw [if_pos ho]

theorem finish_ok (h : Handle) {o n : Nat} (upd : Bool) (ho : o < 2 ^ 63) (hn : upd = true → o + n < 2 ^ 63) :
    finish h o n upd = (.success, ⟨h.mode, h.stream.bytes, if upd then o + n else o⟩) := by
  unfold finish
  cases upd with
  | false => simp [setOffset_ok h ho]
  | true =>
    have := hn rfl
    rw [Nat.mod_eq_of_lt (by unfold W; omega)]
    simp [setOffset_ok h this]

theorem read_ok {m : Mode} (hm : m ≠ .write) (F : List Byte) {p : Nat} (n : Nat) (upd : Bool) (hp : p < 2 ^ 63) (hF : upd = true → p + F.length < 2 ^ 63) :
    read ⟨m, F, p⟩ n upd = (.success, (F.drop p).take n, ⟨m, F, if upd then p + ((F.drop p).take n).length else p⟩) := by
  unfold read
  rw [if_neg hm]
  simp only [fread, getOffset]
  rw [finish_ok _ upd hp (by
    intro hu
    have := hF hu
    have h1 : ((F.drop p).take n).length ≤ F.length := by simp only [List.length_take, List.length_drop]; omega
    omega)]

theorem write_ok {m : Mode} (hm : m ≠ .read) (F : List Byte) {p : Nat} (d : List Byte) (upd : Bool) (hp : p < 2 ^ 63) (hd : upd = true → p + d.length < 2 ^ 63) :
    write ⟨m, F, p⟩ d upd = (.success, ⟨m, put F p d, if upd then p + d.length else p⟩) := by
  unfold write
  rw [if_neg hm]
  simp only [fwrite, getOffset]
  rw [finish_ok _ upd hp hd]

/-- `T` rounded up to a multiple of `ch`. -/
def roundUp (T ch : Nat) : Nat := (T + ch - 1) / ch * ch

/-- What the loop of the insertion leaves behind the inserted bytes, for a rest `t` longer than the chunk. -/
def shifted (t : List Byte) (n ch : Nat) : List Byte := (t.take ch ++ t.drop n).take (roundUp t.length ch)

theorem roundUp_eq {T ch k : Nat} (hc : 0 < ch) (h1 : k * ch < T) (h2 : T ≤ (k + 1) * ch) : roundUp T ch = (k + 1) * ch := by
  have : (T + ch - 1) / ch = k + 1 := by
    rw [Nat.div_eq_iff hc]
    have : (k + 1) * ch = k * ch + ch := by rw [Nat.add_mul, Nat.one_mul]
    omega
  rw [roundUp, this]

theorem shift_spec {o n ch : Nat} {pre data t : List Byte} (ho : pre.length = o) (hn : data.length = n) (hc : 0 < ch) (hnc : n ≤ ch) (hT : ch < t.length)
    (hb : o + n + t.length + ch < 2 ^ 63) : ∀ fuel k p, k * ch < t.length → t.length - k * ch + 1 < fuel →
    ∃ p', shift o n t.length ch fuel (k * ch) (((t.take ch ++ t.drop n).drop (k * ch)).take ch)
      ⟨.update, pre ++ data ++ (t.take ch ++ t.drop n).take (k * ch) ++ t.drop (k * ch + n), p⟩ = some ⟨.update, pre ++ data ++ shifted t n ch, p'⟩ := by
  intro fuel
  induction fuel with
  | zero => intro k p _ h; omega
  | succ fuel ih =>
    intro k p hk hf
    have hW : (t.take ch ++ t.drop n).length = ch + t.length - n := by
      simp only [List.length_append, List.length_take, List.length_drop]; omega
    generalize hs : k * ch = s at hk hf
    have hk1 : (k + 1) * ch = s + ch := by rw [Nat.add_mul, Nat.one_mul, hs]
    unfold shift
    rw [if_pos hk]
    generalize hch : ((t.take ch ++ t.drop n).drop s).take ch = chunk
    have hlen : chunk.length = min ch (ch + t.length - n - s) := by
      rw [← hch, List.length_take, List.length_drop, hW]
    have hle : chunk.length ≤ ch := by rw [hlen]; exact Nat.min_le_left _ _
    have hA : (pre ++ data ++ (t.take ch ++ t.drop n).take s).length = o + s + n := by
      simp only [List.length_append (as := pre ++ data), List.length_append (as := pre), List.length_take, hW, ho, hn]; omega
    rw [Nat.mod_eq_of_lt (a := o + s + n) (by unfold W; omega), Nat.mod_eq_of_lt (a := s + chunk.length) (by unfold W; omega)]
    rw [setOffset_ok _ (by omega)]
    simp only
    have hput : ∀ x : List Byte, put (pre ++ data ++ (t.take ch ++ t.drop n).take s ++ t.drop (s + n)) (o + s + n) x =
        pre ++ data ++ (t.take ch ++ t.drop n).take s ++ x ++ (t.drop (s + n)).drop x.length := fun x => put_at hA.symm x
    have happ : (t.take ch ++ t.drop n).take s ++ chunk = (t.take ch ++ t.drop n).take (s + ch) := by
      rw [← hch, List.take_add]
    split
    · rename_i hlt
      have hc2 : chunk.length = ch := by omega
      rw [read_ok (by decide) _ _ _ (by omega) (by simp)]
      simp only [fwrite, Bool.false_eq_true, if_false]
      rw [hput, hc2, List.drop_drop]
      rw [show List.take ch (List.drop (o + s + n) (pre ++ data ++ (t.take ch ++ t.drop n).take s ++ t.drop (s + n))) =
          ((t.take ch ++ t.drop n).drop ((k + 1) * ch)).take ch by
        rw [List.drop_left' hA]
        rw [hk1, show (t.take ch ++ t.drop n).drop (s + ch) = t.drop (s + n) by
          rw [Nat.add_comm s ch, ← List.drop_drop, List.drop_left' (by rw [List.length_take]; omega), List.drop_drop, Nat.add_comm n s]]]
      rw [show pre ++ data ++ (t.take ch ++ t.drop n).take s ++ chunk ++ t.drop (s + n + ch) =
          pre ++ data ++ (t.take ch ++ t.drop n).take ((k + 1) * ch) ++ t.drop ((k + 1) * ch + n) by
        rw [List.append_assoc (pre ++ data), happ, hk1]
        congr 2
        omega]
      have := ih (k + 1) (o + s + n + ch) (by omega) (by omega)
      rw [hk1] at this ⊢
      exact this
    · rename_i hge
      simp only [fwrite]
      rw [hput, List.drop_drop, List.append_assoc (pre ++ data), happ]
      have hnil : t.drop (s + n + chunk.length) = [] := by
        apply List.drop_eq_nil_of_le; omega
      have hru : shifted t n ch = (t.take ch ++ t.drop n).take (s + ch) := by
        unfold shifted
        rw [roundUp_eq hc (k := k) (by omega) (by omega), hk1]
      rw [hnil, List.append_nil, ← hru]
      cases fuel with
      | zero => omega
      | succ fuel =>
        unfold shift
        rw [if_neg (by omega)]
        exact ⟨_, rfl⟩

theorem shift_short {o n ch : Nat} {pre data t : List Byte} (ho : pre.length = o) (hn : data.length = n) (hb : o + n + t.length < 2 ^ 63)
    (fuel p : Nat) (hf : 2 ≤ fuel) :
    ∃ p', shift o n t.length ch fuel 0 t ⟨.update, pre ++ data ++ t.drop n, p⟩ = some ⟨.update, pre ++ data ++ t, p'⟩ := by
  obtain ⟨fuel, rfl⟩ : ∃ g, fuel = g + 2 := ⟨fuel - 2, by omega⟩
  unfold shift
  split
  · rename_i h
    rw [Nat.mod_eq_of_lt (a := o + 0 + n) (by unfold W; omega), Nat.mod_eq_of_lt (a := 0 + t.length) (by unfold W; omega)]
    rw [setOffset_ok _ (by omega)]
    dsimp only
    rw [if_neg (by omega)]
    simp only [fwrite]
    rw [put_at (A := pre ++ data) (by simp [ho, hn]), List.drop_drop, List.drop_eq_nil_of_le (by omega), List.append_nil]
    unfold shift
    rw [if_neg (by omega)]
    exact ⟨_, rfl⟩
  · rename_i h
    have : t = [] := List.length_eq_zero_iff.1 (by omega)
    subst this
    exact ⟨p, by simp⟩

/-- The chunk size of an insertion. -/
def chunkSize (blk n : Nat) : Nat := if n > blk then n else blk

/-- What follows the inserted bytes after an insertion in front of `t`. -/
def afterInsert (t : List Byte) (n blk : Nat) : List Byte := if t.length ≤ chunkSize blk n then t else shifted t n (chunkSize blk n)

theorem insert_spec {env : Env} (ha : env.alloc = true) (hblk : 0 < env.blk) {pre t d : List Byte} (upd : Bool)
    (hb : pre.length + t.length + d.length + chunkSize env.blk d.length < 2 ^ 63) :
    Returns (fun fuel => insert env fuel ⟨.update, pre ++ t, pre.length⟩ d upd)
      (.success, ⟨.update, pre ++ d ++ afterInsert t d.length env.blk, if upd then pre.length + d.length else pre.length⟩) := by
  refine ⟨t.length + 2, fun fuel hf => ?_⟩
  unfold insert
  simp only [getOffset, reduceCtorEq, if_false, ne_eq, not_true_eq_false, ha, Bool.true_eq_false]
  rw [show (if d.length > env.blk then d.length else env.blk) = chunkSize env.blk d.length from rfl]
  generalize hch : chunkSize env.blk d.length = ch at hb
  have hc : 0 < ch ∧ d.length ≤ ch := by rw [← hch]; unfold chunkSize; split <;> omega
  rw [read_ok (by decide) _ _ _ (by omega) (by simp)]
  simp only [fwrite, Bool.false_eq_true, if_false]
  rw [put_mid, List.drop_left' rfl]
  have hsz : ((pre ++ t).length + W - pre.length) % W = t.length := by
    rw [List.length_append, show pre.length + t.length + W - pre.length = t.length + W by omega, Nat.add_mod_right, Nat.mod_eq_of_lt]
    unfold W; omega
  rw [hsz]
  unfold afterInsert
  rw [hch]
  split
  · rename_i h
    rw [List.take_of_length_le h]
    obtain ⟨p', e⟩ := shift_short (ch := ch) (pre := pre) (data := d) (t := t) rfl rfl (by omega) fuel (pre.length + d.length) (by omega)
    rw [e]
    simp only [Option.bind_eq_bind, Option.bind_some, pure]
    rw [finish_ok _ _ (by omega) (by intro _; omega)]
  · rename_i h
    obtain ⟨p', e⟩ := shift_spec (ch := ch) (pre := pre) (data := d) (t := t) rfl rfl hc.1 hc.2 (by omega) (by omega) fuel 0 (pre.length + d.length) (by omega) (by omega)
    simp only [Nat.zero_mul, List.drop_zero, List.take_zero, Nat.zero_add, List.append_nil] at e
    rw [List.take_append_of_le_length (by rw [List.length_take]; omega), List.take_take, Nat.min_self] at e
    rw [e]
    simp only [Option.bind_eq_bind, Option.bind_some, pure]
    rw [finish_ok _ _ (by omega) (by intro _; omega)]

theorem close_spec {o n ch : Nat} {pre t : List Byte} (ho : pre.length = o) (hc : 0 < ch) (hn : n < t.length) (hb : o + t.length < 2 ^ 63) :
    ∀ fuel s p, s ≤ t.length - n → t.length - s < fuel →
    ∃ p', close o n t.length ch fuel s ⟨.update, pre ++ (t.drop n).take s ++ t.drop s, p⟩ =
      some ⟨.update, pre ++ t.drop n ++ t.drop (t.length - n), p'⟩ := by
  intro fuel
  induction fuel with
  | zero => intro s p _ h; omega
  | succ fuel ih =>
    intro s p hs hf
    unfold close
    have hL : ((t.drop n).take s).length = s := by rw [List.length_take, List.length_drop]; omega
    split
    · rename_i hlt
      rw [Nat.mod_eq_of_lt (a := o + s + n) (by unfold W; omega), Nat.mod_eq_of_lt (a := o + s) (by unfold W; omega)]
      rw [setOffset_ok _ (by omega)]
      simp only
      rw [read_ok (by decide) _ _ _ (by omega) (by simp)]
      have hr : (List.drop (o + s + n) (pre ++ (t.drop n).take s ++ t.drop s)).take ch = (t.drop (s + n)).take ch := by
        rw [← List.drop_drop, List.drop_left' (by rw [List.length_append, hL, ho]), List.drop_drop]
      simp only [Bool.false_eq_true, if_false]
      rw [hr]
      generalize hch : (t.drop (s + n)).take ch = chunk
      have hlen : chunk.length = min ch (t.length - (s + n)) := by rw [← hch, List.length_take, List.length_drop]
      have hpos : 0 < chunk.length ∧ chunk.length ≤ t.length - (s + n) := by omega
      rw [setOffset_ok _ (by omega)]
      simp only
      rw [write_ok (by decide) _ _ _ (by omega) (by simp)]
      simp only [Bool.false_eq_true, if_false]
      rw [put_at (A := pre ++ (t.drop n).take s) (by rw [List.length_append, hL, ho]), List.drop_drop]
      rw [List.append_assoc pre, show (t.drop n).take s ++ chunk = (t.drop n).take (s + chunk.length) by
        rw [List.take_add, List.drop_drop, Nat.add_comm n s]
        congr 1
        rw [← hch, List.length_take, List.length_drop, List.take_eq_take_iff]
        simp only [List.length_drop]; omega]
      rw [Nat.mod_eq_of_lt (by unfold W; omega)]
      exact ih _ _ (by omega) (by omega)
    · have : s = t.length - n := by omega
      subst this
      rw [List.take_of_length_le (by rw [List.length_drop]; omega)]
      exact ⟨p, rfl⟩

theorem remove_spec {env : Env} (ha : env.alloc = true) (hblk : 0 < env.blk) {pre t : List Byte} {n : Nat} (upd : Bool)
    (hb : pre.length + t.length < 2 ^ 63) (hn : upd = true → pre.length + n < 2 ^ 63) :
    Returns (fun fuel => remove env fuel ⟨.update, pre ++ t, pre.length⟩ n upd)
      (.success, ⟨.update, pre ++ t.drop n, if upd then pre.length + n else pre.length⟩) := by
  refine ⟨t.length + 2, fun fuel hf => ?_⟩
  unfold remove
  have h1 : ¬ pre.length > (pre ++ t).length := by rw [List.length_append]; omega
  have h2 : (pre ++ t).length - pre.length = t.length := by rw [List.length_append]; omega
  simp only [getOffset, if_false, ne_eq, not_true_eq_false, h1, h2]
  split
  · rename_i h
    rw [finish_ok _ _ (by omega) hn]
    simp only
    rw [List.take_left' rfl, List.drop_eq_nil_of_le h, List.append_nil]
  · rename_i h
    rw [if_neg (by simp [ha])]
    obtain ⟨p', e⟩ := close_spec (ch := env.blk) (pre := pre) (t := t) (n := n) rfl hblk (by omega) hb fuel 0 pre.length (by omega) (by omega)
    simp only [List.take_zero, List.append_nil, List.drop_zero] at e
    rw [e]
    simp only [Option.bind_eq_bind, Option.bind_some, pure]
    rw [finish_ok _ _ (by omega) hn]
    simp only
    rw [List.take_left' (by rw [List.length_append, List.length_drop]; omega)]

/-- Past the end of the file the loop never stops. -/
theorem shift_forever {o n size ch : Nat} {F : List Byte} (ho : F.length ≤ o + n) (hb : o + n < 2 ^ 63) (hs : 0 < size) : ∀ fuel p,
    shift o n size ch fuel 0 [] ⟨.update, F, p⟩ = none := by
  intro fuel
  induction fuel with
  | zero => intro p; rfl
  | succ fuel ih =>
    intro p
    unfold shift
    rw [if_pos hs]
    rw [Nat.mod_eq_of_lt (a := o + 0 + n) (by unfold W; omega), List.length_nil, Nat.add_zero, Nat.zero_mod]
    rw [setOffset_ok _ (by omega)]
    dsimp only
    rw [if_pos hs]
    rw [read_ok (by decide) _ _ _ (by omega) (by simp), List.drop_eq_nil_of_le (by omega)]
    simp only [List.take_nil, fwrite, put, if_true]
    exact ih _

end Verif.FileHandle
