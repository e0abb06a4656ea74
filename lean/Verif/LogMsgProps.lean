import Verif.LogMsg
import Verif.LogMsgSpec
import Verif.LogFormatProps

/-!
# C87, C88: log messages
-/
namespace Verif.LogMsg
open LogFormat LogFormat.Spec Spec

/-- The buffer holds a message. -/
structure Rep (b : Buf) (msg : List Char) : Prop where
  mem : b.mem.length = b.size + 1
  fits : msg.length ≤ b.size
  len : b.len = msg.length
  text : b.mem.take b.len = msg.map some

theorem put_some {mem : List (Option Char)} {k : Nat} {s : List Char} (h : k + s.length ≤ mem.length) :
    ∃ mem', put mem k s = some mem' ∧ mem'.length = mem.length ∧ (∀ n, n ≤ k → mem'.take n = mem.take n) ∧
      mem'.take (k + s.length) = mem.take k ++ s.map some := by
  have hk : (mem.take k).length = k := by rw [List.length_take]; omega
  refine ⟨_, by rw [put, if_pos h], ?_, ?_, ?_⟩
  · simp; omega
  · intro n hn
    rw [List.append_assoc, List.take_append_of_le_length (by omega), List.take_take, Nat.min_eq_left hn]
  · have : (mem.take k ++ s.map some).length = k + s.length := by simp; omega
    rw [List.take_append_of_le_length (by omega), List.take_of_length_le (by omega)]

theorem put_none {mem : List (Option Char)} {k : Nat} {s : List Char} : put mem k s = none ↔ mem.length < k + s.length := by
  rw [put]; split <;> simp <;> omega

theorem batch_gt (n : Nat) : n < batch n := by rw [batch]; omega

theorem sub64_le (a b : Nat) (h : b ≤ a) : sub64 a b ≤ a - b := by
  rw [sub64, show a + 2 ^ 64 - b = (a - b) + 2 ^ 64 by omega, Nat.add_mod_right]
  exact Nat.mod_le _ _

theorem sub64_eq {a b : Nat} (h : b ≤ a) (ha : a < 2 ^ 64) : sub64 a b = a - b := by
  rw [sub64, show a + 2 ^ 64 - b = (a - b) + 2 ^ 64 by omega, Nat.add_mod_right, Nat.mod_eq_of_lt (by omega)]

theorem realloc_length (mem : List (Option Char)) (n : Nat) (h : mem.length ≤ n) : (realloc mem n).length = n := by
  rw [realloc]; simp; omega

theorem realloc_take (mem : List (Option Char)) (n k : Nat) (h : mem.length ≤ n) (hk : k ≤ mem.length) : (realloc mem n).take k = mem.take k := by
  rw [realloc, List.take_of_length_le h, List.take_append_of_le_length hk]

/-- The room that is made. -/
theorem room {b : Buf} {msg : List Char} (h : Rep b msg) (n : Nat) :
    let more := sub64 b.size b.len < n
    let size := if more then b.size + batch n else b.size
    let mem := if more then realloc b.mem (size + 1) else b.mem
    mem.length = size + 1 ∧ b.len + n ≤ size ∧ mem.take b.len = msg.map some := by
  intro more size mem
  have hl := h.len
  have hf := h.fits
  have hm := h.mem
  by_cases hmore : more
  · have hs : size = b.size + batch n := if_pos hmore
    have hmm : mem = realloc b.mem (size + 1) := if_pos hmore
    have := batch_gt n
    refine ⟨by rw [hmm, realloc_length _ _ (by omega)], by omega, ?_⟩
    rw [hmm, realloc_take _ _ _ (by omega) (by omega), h.text]
  · have hs : size = b.size := if_neg hmore
    have hmm : mem = b.mem := if_neg hmore
    have h1 : ¬sub64 b.size b.len < n := hmore
    have h2 := sub64_le b.size b.len (by omega)
    exact ⟨by rw [hmm, hs, hm], by omega, by rw [hmm, h.text]⟩

theorem append_rep {b : Buf} {msg : List Char} (h : Rep b msg) (s : List Char) (term : Bool) : ∃ b', append b s term = some b' ∧ Rep b' (msg ++ s) := by
  obtain ⟨h1, h2, h3⟩ := room h s.length
  rw [append]
  generalize (if sub64 b.size b.len < s.length then b.size + batch s.length else b.size) = size at h1 h2 h3 ⊢
  generalize (if sub64 b.size b.len < s.length then realloc b.mem (size + 1) else b.mem) = mem at h1 h3 ⊢
  have hl := h.len
  obtain ⟨mem', e1, e2, -, e4⟩ := put_some (mem := mem) (k := b.len) (s := if term then s ++ ['\x00'] else s) (by
    split
    · simp; omega
    · omega)
  refine ⟨_, by rw [e1]; rfl, ⟨by rw [e2, h1], by simp; omega, by simp [hl], ?_⟩⟩
  have : mem'.take (b.len + s.length) = (mem'.take (b.len + (if term then s ++ ['\x00'] else s).length)).take (b.len + s.length) := by
    rw [List.take_take, Nat.min_eq_left]
    split <;> simp
  show mem'.take (b.len + s.length) = _
  rw [this, e4, h3]
  have hlen : b.len + s.length = (msg.map some ++ s.map some).length := by simp [hl]
  split
  · rw [List.map_append, ← List.append_assoc, hlen, List.take_left']
    · simp
    · rfl
  · rw [hlen, List.take_length]; simp

theorem strncpy_length (s : List Char) : (strncpy s).length = s.length := by
  rw [strncpy]
  have := (List.takeWhile_sublist (fun c => decide (c ≠ '\x00')) (l := s)).length_le
  simp only [List.length_append, List.length_replicate]; omega

theorem takeWhile_all {p : Char → Bool} : ∀ {s : List Char}, (∀ c ∈ s, p c = true) → s.takeWhile p = s
  | [], _ => rfl
  | c :: s, h => by rw [List.takeWhile_cons, if_pos (h c (by simp)), takeWhile_all (fun d hd => h d (by simp [hd]))]

theorem strncpy_eq {s : List Char} (h : '\x00' ∉ s) : strncpy s = s := by
  have : s.takeWhile (fun c => decide (c ≠ '\x00')) = s := by
    apply takeWhile_all
    intro c hc
    simp only [decide_eq_true_eq]
    rintro rfl; exact h hc
  rw [strncpy, this, Nat.sub_self]; simp

/-- The message is a string of C: it is terminated. -/
def Terminated (b : Buf) : Prop := b.mem[b.len]? = some (some '\x00')

theorem put_get {mem mem' : List (Option Char)} {k : Nat} {c : Char} (h : put mem k [c] = some mem') : mem'[k]? = some (some c) := by
  rw [put] at h
  split at h
  · rename_i hk
    injection h with h
    simp at hk
    subst h
    have : (mem.take k).length = k := by rw [List.length_take]; omega
    rw [List.append_assoc, List.getElem?_append_right (by omega), this, Nat.sub_self]
    simp
  · cases h

theorem write_rep {b : Buf} {msg : List Char} (h : Rep b msg) (s : List Char) : ∃ b', write b s true = some (true, b') ∧ Rep b' (msg ++ strncpy s) ∧ Terminated b' := by
  obtain ⟨h1, h2, h3⟩ := room h s.length
  rw [write]
  dsimp only at h1 h2 h3 ⊢
  rw [if_neg (by simp)]
  generalize (if sub64 b.size b.len < s.length then b.size + batch s.length else b.size) = size at h1 h2 h3 ⊢
  generalize (if sub64 b.size b.len < s.length then realloc b.mem (size + 1) else b.mem) = mem at h1 h3 ⊢
  have hl := h.len
  have hs := strncpy_length s
  obtain ⟨m1, e1, e2, -, e4⟩ := put_some (mem := mem) (k := b.len) (s := strncpy s) (by omega)
  obtain ⟨m2, f1, f2, f3, -⟩ := put_some (mem := m1) (k := b.len + s.length) (s := ['\x00']) (by simp; omega)
  refine ⟨⟨m2, size, b.len + s.length⟩, by rw [e1]; simp only [Option.bind_eq_bind, Option.bind_some]; rw [f1]; rfl,
    ⟨by rw [f2, e2, h1], by simp; omega, by simp [hl, hs], ?_⟩, put_get f1⟩
  show m2.take (b.len + s.length) = _
  rw [f3 _ (Nat.le_refl _), ← hs, e4, h3]; simp

theorem remove_rep {b : Buf} {msg : List Char} (h : Rep b msg) (n : Nat) : ∃ b', remove b n = some b' ∧ Rep b' (msg.take (msg.length - n)) ∧ Terminated b' := by
  have hl := h.len
  have hm := h.mem
  have hf := h.fits
  rw [remove]
  have hk : b.len - (if n > b.len then b.len else n) = msg.length - n := by split <;> omega
  rw [hk]
  obtain ⟨m2, f1, f2, f3, -⟩ := put_some (mem := b.mem) (k := msg.length - n) (s := ['\x00']) (by simp; omega)
  refine ⟨⟨m2, b.size, msg.length - n⟩, by rw [f1]; rfl, ⟨by rw [f2, hm], by simp; omega, by simp, ?_⟩, put_get f1⟩
  show m2.take (msg.length - n) = _
  rw [f3 _ (Nat.le_refl _), List.map_take, ← h.text, List.take_take, Nat.min_eq_left (by omega)]

/-- One operation. -/
def runOp (b : Buf) : Op → Option Buf
  | .write s => (write b s true).map (·.2)
  | .remove n => remove b n

/-- Operations, one after the other. -/
def run (b : Buf) (ops : List Op) : Option Buf := ops.foldlM runOp b

theorem runOp_rep {b : Buf} {msg : List Char} (h : Rep b msg) (op : Op) (hz : ∀ s, op = .write s → '\x00' ∉ s) :
    ∃ b', runOp b op = some b' ∧ Rep b' (op.apply msg) ∧ Terminated b' := by
  cases op with
  | write s =>
    obtain ⟨b1, e, h1, h2⟩ := write_rep h s
    rw [strncpy_eq (hz s rfl)] at h1
    exact ⟨b1, by simp only [runOp, e, Option.map_some], h1, h2⟩
  | remove n =>
    obtain ⟨b1, e, h1, h2⟩ := remove_rep h n
    exact ⟨b1, e, h1, h2⟩

/-- **C87.** Whatever a filter writes to a message and removes from it: the message is the text that results.  Nothing outside of the allocation is accessed.  (Memory
can be had.) -/
theorem C87_buffer_partial (ops : List Op) (hz : ∀ s, .write s ∈ ops → '\x00' ∉ s) (b : Buf) (msg : List Char) (h : Rep b msg) :
    ∃ b', run b ops = some b' ∧ Rep b' (ops.foldl Op.apply msg) ∧ (ops ≠ [] → Terminated b') := by
  induction ops generalizing b msg with
  | nil => exact ⟨b, rfl, h, fun h => absurd rfl h⟩
  | cons op ops ih =>
    obtain ⟨b1, e, h1, h2⟩ := runOp_rep h op (fun s hs => hz s (by rw [hs]; exact List.mem_cons_self))
    obtain ⟨b2, e2, h3, h4⟩ := ih (fun s hs => hz s (List.mem_cons_of_mem _ hs)) b1 _ h1
    have e3 : run b (op :: ops) = run b1 ops := by rw [run, List.foldlM_cons, e]; rfl
    refine ⟨b2, by rw [e3, e2], h3, fun _ => ?_⟩
    cases ops with
    | nil =>
      have : b1 = b2 := Option.some.inj e2
      rw [← this]; exact h2
    | cons o os => exact h4 (List.cons_ne_nil _ _)

theorem write_none {b : Buf} {t : List Char} (h : ¬sub64 b.size b.len < t.length) (ok : Bool) : write b t ok = none ↔ b.mem.length < b.len + t.length + 1 := by
  rw [write]
  dsimp only
  rw [if_neg (by simp [h]), if_neg h, if_neg h]
  by_cases h1 : b.len + (strncpy t).length ≤ b.mem.length
  · obtain ⟨m1, e1, e2, -, -⟩ := put_some h1
    rw [e1]
    simp only [Option.bind_eq_bind, Option.bind_some]
    cases h2 : put m1 (b.len + t.length) ['\x00'] with
    | none => 
      have := put_none.1 h2
      simp at this ⊢; omega
    | some m => 
      have : ¬put m1 (b.len + t.length) ['\x00'] = none := by simp [h2]
      rw [put_none] at this
      simp at this ⊢; omega
  · rw [put_none.2 (by omega), strncpy_length] at *
    simp; omega

/-- **C87.** If memory cannot be had the write fails, and the message is what it was; but its size is taken to be greater.  The next write is undefined exactly if it
is beyond the allocation and within the size it is taken to be. -/
theorem C87_failed_exact (b : Buf) (msg : List Char) (h : Rep b msg) (s : List Char) (b' : Buf) (he : write b s false = some (false, b'))
    (hs : b.size + batch s.length < 2 ^ 64) (t : List Char) (ok : Bool) :
    b'.mem = b.mem ∧ b'.len = b.len ∧ (write b' t ok = none ↔ b.size < msg.length + t.length ∧ msg.length + t.length ≤ b.size + batch s.length) := by
  have hl := h.len
  have hm := h.mem
  have hf := h.fits
  rw [write] at he
  dsimp only at he
  have hmore : sub64 b.size b.len < s.length := by
    apply Classical.byContradiction
    intro hn
    rw [if_neg (by simp [hn])] at he
    cases h1 : put (if sub64 b.size b.len < s.length then realloc b.mem ((if sub64 b.size b.len < s.length then b.size + batch s.length else b.size) + 1) else b.mem) b.len (strncpy s) with
    | none => rw [h1] at he; cases he
    | some m =>
      rw [h1] at he
      simp only [Option.bind_eq_bind, Option.bind_some] at he
      cases h2 : put m (b.len + s.length) ['\x00'] with
      | none => rw [h2] at he; cases he
      | some m2 => rw [h2] at he; simp at he
  rw [if_pos ⟨hmore, by simp⟩, if_pos hmore] at he
  injection he with he
  injection he with _ he
  subst he
  refine ⟨rfl, rfl, ?_⟩
  have hb := batch_gt s.length
  have e : sub64 (b.size + batch s.length) b.len = b.size + batch s.length - b.len := sub64_eq (by omega) hs
  by_cases hr : b.size + batch s.length - b.len < t.length
  · constructor
    · intro hn
      exfalso
      cases ok with
      | false =>
        rw [write] at hn
        dsimp only at hn
        rw [if_pos ⟨by rw [e]; exact hr, by simp⟩] at hn
        cases hn
      | true =>
        rw [write] at hn
        dsimp only at hn
        have hr' : sub64 (b.size + batch s.length) b.len < t.length := by rw [e]; exact hr
        rw [if_neg (by simp), if_pos hr', if_pos hr'] at hn
        have ht := batch_gt t.length
        have hrl := realloc_length b.mem (b.size + batch s.length + batch t.length + 1) (by omega)
        obtain ⟨m1, e1, e2, -, -⟩ := put_some (mem := realloc b.mem (b.size + batch s.length + batch t.length + 1)) (k := b.len) (s := strncpy t) (by rw [strncpy_length]; omega)
        rw [e1] at hn
        simp only [Option.bind_eq_bind, Option.bind_some] at hn
        obtain ⟨m2, f1, -, -, -⟩ := put_some (mem := m1) (k := b.len + t.length) (s := ['\x00']) (by simp; omega)
        rw [f1] at hn
        cases hn
    · omega
  · rw [write_none (by dsimp only; rw [e]; exact hr)]
    dsimp only
    omega

/-- **C87.** A write of ten characters fails; a write of twenty is then made outside of the allocation. -/
theorem C87_failed_refuted :
    let b : Buf := { mem := (List.replicate 60 (some 'x')) ++ List.replicate 5 none, size := 64, len := 60 }
    Rep b (List.replicate 60 'x') ∧ ((write b (List.replicate 10 'y') false).bind fun r => write r.2 (List.replicate 20 'z') true) = none :=
  ⟨⟨by decide, by decide, by decide, by decide⟩, by decide +kernel⟩

/-! ## The text before the message -/

theorem line_length (line : BitVec 32) : (lineText line).length ≤ 11 := by
  have h1 := BitVec.toInt_lt (x := line)
  have h2 := BitVec.le_toInt (x := line)
  rw [lineText]
  generalize line.toInt = z at h1 h2
  cases z with
  | ofNat n =>
    show (Nat.repr n).toList.length ≤ 11
    rw [String.length_toList]
    have hz : Int.ofNat n = (n : Int) := rfl
    have := (Nat.length_repr_le_iff (n := n) (k := 10) (by omega)).2 (by omega)
    omega
  | negSucc n =>
    show ("-" ++ Nat.repr (n + 1)).toList.length ≤ 11
    rw [String.toList_append, List.length_append, String.length_toList, String.length_toList]
    have := (Nat.length_repr_le_iff (n := n + 1) (k := 10) (by omega)).2 (by omega)
    have : "-".length = 1 := rfl
    omega

theorem prefix_length (tag : List Char) (file func : Option (List Char)) (line : BitVec 32) : (prefixText tag file func line).length + 1 ≤ bound tag file func := by
  have := line_length line
  cases file <;> cases func <;> simp [prefixText, bound] <;> omega

theorem snprintf_rep {mem : List (Option Char)} {n : Nat} {s : List Char} (h : s.length + 1 ≤ n) (hm : s.length + 1 ≤ mem.length) :
    ∃ mem', snprintf mem n s = some mem' ∧ mem'.length = mem.length ∧ mem'.take s.length = s.map some := by
  rw [snprintf, if_neg (by omega), List.take_of_length_le (by omega)]
  obtain ⟨m, e1, e2, -, e4⟩ := put_some (mem := mem) (k := 0) (s := s ++ ['\x00']) (by simp; omega)
  refine ⟨m, e1, e2, ?_⟩
  have : m.take s.length = (m.take (0 + (s ++ ['\x00']).length)).take s.length := by
    rw [List.take_take, Nat.min_eq_left]; simp
  rw [this, e4]
  simp

section
variable {α : Type}

/-- **C88.** Without filters of specifiers: the message is the tag, the place and the text `printf` makes.  Nothing outside of the allocation is written. -/
theorem C88_plain (printf : List Char → List α → List Char) (tag : List Char) (file func : Option (List Char)) (line : BitVec 32) (fmt : List Char) (args : List α) :
    ∃ b, composePlain printf tag file func line fmt args = some b ∧ b.len = (prefixText tag file func line ++ printf fmt args).length ∧
      b.mem.take b.len = (prefixText tag file func line ++ printf fmt args).map some ∧ Terminated b ∧ b.size = 0 ∧
      b.mem.length = bound tag file func + (printf fmt args).length := by
  have hp := prefix_length tag file func line
  rw [composePlain]
  obtain ⟨m, e1, e2, e3⟩ := snprintf_rep (mem := List.replicate (bound tag file func + (printf fmt args).length) none) hp (by simp; omega)
  rw [e1]
  simp only [Option.bind_eq_bind, Option.bind_some]
  rw [List.length_replicate] at e2
  obtain ⟨m2, f1, f2, -, f4⟩ := put_some (mem := m) (k := (prefixText tag file func line).length) (s := printf fmt args ++ ['\x00']) (by simp; omega)
  refine ⟨_, by rw [f1]; rfl, by simp, ?_, ?_, rfl, by rw [f2, e2]⟩
  · show m2.take ((prefixText tag file func line).length + (printf fmt args).length) = _
    have : m2.take ((prefixText tag file func line).length + (printf fmt args).length) =
        (m2.take ((prefixText tag file func line).length + (printf fmt args ++ ['\x00']).length)).take ((prefixText tag file func line).length + (printf fmt args).length) := by
      rw [List.take_take, Nat.min_eq_left]; simp
    rw [this, f4, e3, List.map_append, ← List.append_assoc, ← List.map_append, List.take_left' (by simp)]
  · show m2[(prefixText tag file func line).length + (printf fmt args).length]? = _
    have hlt : (prefixText tag file func line).length + (printf fmt args).length < (prefixText tag file func line).length + (printf fmt args ++ ['\x00']).length := by simp
    rw [← List.getElem?_take_of_lt hlt, f4, e3, List.map_append, ← List.append_assoc, List.getElem?_append_right (by simp)]
    simp

/-- **C88.** Without filters of specifiers, a filter of messages that writes: undefined exactly if what it writes does not fit in what happens to be left.  Nothing is
left but the digits a number of a line does not need. -/
theorem C88_plain_write_exact (printf : List Char → List α → List Char) (tag : List Char) (file func : Option (List Char)) (line : BitVec 32) (fmt : List Char) (args : List α)
    (t : List Char) (ok : Bool) (b : Buf) (hb : composePlain printf tag file func line fmt args = some b)
    (hs : (prefixText tag file func line).length + (printf fmt args).length + t.length ≤ 2 ^ 64) :
    write b t ok = none ↔ (match file with | some _ => 11 - (lineText line).length | none => 0) < t.length := by
  obtain ⟨b', e, h1, -, -, h2, h3⟩ := C88_plain printf tag file func line fmt args
  rw [hb] at e
  injection e with e
  subst e
  have hpos : 0 < (prefixText tag file func line).length := by
    cases file <;> cases func <;> simp only [prefixText, List.length_append, List.length_cons, List.length_nil] <;> omega
  have hll := line_length line
  rw [List.length_append] at h1
  have hsub : sub64 b.size b.len = 2 ^ 64 - b.len := by
    rw [h2, sub64, Nat.zero_add, Nat.mod_eq_of_lt (by omega)]
  rw [write_none (by rw [hsub]; omega), h1, h3]
  cases file <;> cases func <;> simp [prefixText, bound] <;> omega

/-- **C88.** With no name of a file, a filter of messages cannot write even one character. -/
theorem C88_plain_write_refuted : ((composePlain (fun f (_ : List Nat) => f) "Info".toList none none 0 "hi".toList []).bind fun b => write b ['!'] true) = none := by
  decide +kernel

/-! ## The loop over the specifiers -/

/-- The filters leave the specifiers of C alone and take the others. -/
def Fine (fs : List (Filter α)) (std : Specifier → List α → List Char) (custom : List Char → List Char → List α → List Char × List α) :
    List Piece → List Char → List α → Prop
  | [], _, _ => True
  | .std s lit :: ps, msg, args =>
    (∀ rest b, Rep b msg → runFilters fs (s.text ++ rest) b args = some (0, b, args)) ∧ Fine fs std custom ps (msg ++ std s args ++ lit) (args.drop (arguments s))
  | .custom t lit :: ps, msg, args =>
    (∀ rest b, Rep b msg → ∃ b', runFilters fs (t ++ rest) b args = some (t.length, b', (custom t msg args).2) ∧ Rep b' (custom t msg args).1) ∧
      Fine fs std custom ps ((custom t msg args).1 ++ lit) (custom t msg args).2

/-- The pieces of a format: every text between two specifiers is without `%`, and the specifiers of C are without `*`. -/
def PieceOk : Piece → Prop
  | .std s lit => s.WF ∧ '%' ∉ lit ∧ s.width ≠ .star ∧ s.precision ≠ .star ∧ s.width.value < 2 ^ 31 ∧ s.precision.value < 2 ^ 31 ∧
      (s.conv ∈ conversions ∨ s.text = ['%', '%'])
  | .custom t lit => t.head? = some '%' ∧ '%' ∉ lit

theorem takeWhile_lit {lit rest : List Char} (h : '%' ∉ lit) (hr : rest = [] ∨ rest.head? = some '%') :
    (lit ++ rest).takeWhile notPercent = lit ∧ (lit ++ rest).dropWhile notPercent = rest := by
  induction lit with
  | nil =>
    rcases hr with rfl | hr
    · exact ⟨rfl, rfl⟩
    · cases rest with
      | nil => cases hr
      | cons c cs =>
        simp at hr
        subst hr
        exact ⟨rfl, rfl⟩
  | cons c cs ih =>
    have hc : notPercent c = true := by
      simp only [notPercent, decide_eq_true_eq, ne_eq]
      rintro rfl; exact h (by simp)
    obtain ⟨h1, h2⟩ := ih (fun hm => h (by simp [hm]))
    rw [List.cons_append, List.takeWhile_cons, if_pos hc, List.dropWhile_cons, if_pos hc, h1, h2]
    exact ⟨rfl, rfl⟩

theorem flatten_head (ps : List Piece) (h : ∀ p ∈ ps, PieceOk p) : (ps.map Piece.text).flatten = [] ∨ (ps.map Piece.text).flatten.head? = some '%' := by
  cases ps with
  | nil => exact .inl rfl
  | cons p ps =>
    right
    have := h p (by simp)
    cases p with
    | std s lit => simp [Piece.text, Specifier.text]
    | custom t lit =>
      obtain ⟨h1, -⟩ := this
      cases t with
      | nil => cases h1
      | cons c cs => simpa [Piece.text] using h1

/-- The middle of a specifier has no `%`. -/
theorem middle_percent (s : Specifier) (h : s.WF) : '%' ∉ s.middle := by
  have hd : ∀ ds : List Char, (∀ c ∈ ds, isDigit c) → '%' ∉ ds := fun ds hds hm => by
    have := hds _ hm
    simp [isDigit] at this
  simp only [Specifier.middle, List.mem_append, not_or]
  refine ⟨⟨⟨fun hm => ?_, ?_⟩, ?_⟩, ?_⟩
  · have := h.flags _ hm; simp at this
  · cases hw : s.width with
    | absent => simp [Num.text]
    | star => simp [Num.text]
    | digits ds => exact hd ds (h.width ds hw).2.2
  · split
    · simp
    · cases hw : s.precision with
      | absent => simp [Num.text]
      | star => simp [Num.text]
      | digits ds =>
        have := hd ds (h.precision ds hw)
        simp [Num.text, this]
  · cases s.length <;> simp [Len.text]

theorem takes_conversions (c : Char) : c ∈ takes ↔ c ∈ conversions := by
  have : takes = conversions := by decide
  rw [this]

theorem text_drop (s : Specifier) (h : s.WF) (hc : s.conv ∈ conversions ∨ s.text = ['%', '%']) : '%' ∉ s.text.drop 2 ∧ 2 ≤ s.text.length := by
  refine ⟨?_, by simp [Specifier.text]⟩
  rcases hc with hc | hc
  · have hm := middle_percent s h
    have hne : s.conv ≠ '%' := by rintro he; rw [he] at hc; revert hc; decide
    intro hx
    have hx := List.mem_of_mem_drop (i := 1) (l := s.middle ++ [s.conv]) hx
    simp only [List.mem_append, List.mem_singleton] at hx
    rcases hx with hx | hx
    · exact hm hx
    · exact hne hx.symm
  · rw [hc]; simp

theorem consumed_std (s : Specifier) (h : s.WF) (hw : s.width.value < 2 ^ 31) (hp : s.precision.value < 2 ^ 31) (lit : List Char) :
    consumed (s.text ++ lit) = some (if s.conv ∈ takes then 1 else 0) := by
  have hl : s.text.length - 1 < s.text.length := by simp [Specifier.text]
  have hg : (s.text ++ lit)[s.text.length - 1]? = some s.conv := by
    rw [List.getElem?_append_left hl, Specifier.text, List.length_append]
    rw [List.getElem?_append_right (by simp)]
    simp
  rw [consumed, C85_read s h lit, if_pos ⟨hw, hp⟩]
  simp only [Option.bind_eq_bind, Option.bind_some, hg]

/-- How `vsnprintf` formats one specifier and a text. -/
def PrintfLaw (printf : List Char → List α → List Char) (std : Specifier → List α → List Char) : Prop :=
  ∀ (s : Specifier) (lit : List Char) (args : List α), PieceOk (.std s lit) → printf (s.text ++ lit) args = std s args ++ lit

theorem loop_eq (fs : List (Filter α)) (printf : List Char → List α → List Char) (std : Specifier → List α → List Char)
    (custom : List Char → List Char → List α → List Char × List α) (hlaw : PrintfLaw printf std) :
    ∀ (ps : List Piece), (∀ p ∈ ps, PieceOk p) → ∀ (msg : List Char) (args : List α) (b : Buf), Rep b msg → Fine fs std custom ps msg args →
      ∃ b', loop fs printf (ps.map Piece.text).flatten b args = some b' ∧ Rep b' (expand std custom ps msg args)
  | [], _, msg, args, b, h, _ => ⟨b, by rw [loop]; simp, h⟩
  | p :: ps, hok, msg, args, b, h, hfine => by
    have hp := hok p (by simp)
    have hr := flatten_head ps (fun q hq => hok q (by simp [hq]))
    have ih := loop_eq fs printf std custom hlaw ps (fun q hq => hok q (by simp [hq]))
    rw [List.map_cons, List.flatten_cons]
    generalize hrest : (ps.map Piece.text).flatten = rest at hr ih
    cases p with
    | std s lit =>
      obtain ⟨hf, hfine⟩ := hfine
      have hp' := hp
      obtain ⟨h1, h2, h3, h4, h5, h6, h7⟩ := hp
      obtain ⟨hd, hl2⟩ := text_drop s h1 h7
      have htake : ((s.text ++ lit) ++ rest).take 2 ++ (((s.text ++ lit) ++ rest).drop 2).takeWhile notPercent = s.text ++ lit ∧
          (((s.text ++ lit) ++ rest).drop 2).dropWhile notPercent = rest := by
        have e1 : ((s.text ++ lit) ++ rest).take 2 = s.text.take 2 := by
          rw [List.append_assoc, List.take_append_of_le_length hl2]
        have e2 : ((s.text ++ lit) ++ rest).drop 2 = (s.text.drop 2 ++ lit) ++ rest := by
          rw [List.append_assoc, List.drop_append_of_le_length hl2, List.append_assoc]
        have := takeWhile_lit (lit := s.text.drop 2 ++ lit) (rest := rest) (by simp only [List.mem_append, not_or]; exact ⟨hd, h2⟩) hr
        rw [e1, e2, this.1, this.2]
        refine ⟨?_, rfl⟩
        rw [← List.append_assoc, List.take_append_drop]
      have hlen : ¬((s.text ++ lit) ++ rest).length < 2 := by simp; omega
      have hne : (s.text ++ lit) ++ rest ≠ [] := by intro he; rw [he] at hlen; simp at hlen
      have hfl := hf (lit ++ rest) b h
      rw [← List.append_assoc] at hfl
      obtain ⟨b1, e1, r1⟩ := append_rep h (printf (s.text ++ lit) args) true
      rw [hlaw s lit args hp', ← List.append_assoc] at r1
      have harg : (if s.conv ∈ takes then 1 else 0) = arguments s := by
        rw [arguments, if_neg h3, if_neg h4]
        rcases h7 with h7 | h7
        · rw [if_pos ((takes_conversions _).2 h7), if_neg]
          rintro he; rw [he] at h7; revert h7; decide
        · have : s.conv = '%' := by
            have hx : s.text.getLast? = some '%' := by rw [h7]; rfl
            rw [Specifier.text, List.getLast?_append] at hx
            simpa using hx
          rw [this]; rfl
      obtain ⟨b2, e2, r2⟩ := ih _ _ b1 r1 hfine
      refine ⟨b2, ?_, r2⟩
      show loop fs printf (s.text ++ lit ++ rest) b args = _
      rw [loop, dif_neg hne, hfl]
      simp only [dif_pos, if_neg hlen]
      rw [htake.1, htake.2, e1]
      simp only []
      rw [consumed_std s h1 h5 h6, harg]
      exact e2
    | custom t lit =>
      obtain ⟨hf, hfine⟩ := hfine
      obtain ⟨h1, h2⟩ := hp
      have hne : t ≠ [] := by rintro rfl; cases h1
      have hpos : t.length ≠ 0 := by simpa using hne
      obtain ⟨b0, e0, r0⟩ := hf (lit ++ rest) b h
      rw [← List.append_assoc] at e0
      obtain ⟨w1, w2⟩ := takeWhile_lit h2 hr
      have hap : ∃ b1, (if lit.length > 0 then append b0 lit false else some b0) = some b1 ∧ Rep b1 ((custom t msg args).1 ++ lit) := by
        by_cases hl : lit.length > 0
        · rw [if_pos hl]; exact append_rep r0 lit false
        · rw [if_neg hl]
          have : lit = [] := by simpa using hl
          rw [this, List.append_nil]
          exact ⟨b0, rfl, r0⟩
      obtain ⟨b1, e1, r1⟩ := hap
      obtain ⟨b2, e2, r2⟩ := ih _ _ b1 r1 hfine
      refine ⟨b2, ?_, r2⟩
      show loop fs printf (t ++ lit ++ rest) b args = _
      rw [loop, dif_neg (by simp [hne]), e0]
      simp only [dif_neg hpos]
      rw [if_pos (by simp), List.append_assoc, List.drop_left, w1, w2, e1]
      exact e2

/-- **C88.** With filters of specifiers: the message is the tag, the place, and the text the format stands for, where each filter sees the message so far and the
arguments that are left, and C's `printf` formats the other specifiers, each with the arguments that are left.  Nothing outside of the allocation is written. -/
theorem C88_filters_partial (fs : List (Filter α)) (printf : List Char → List α → List Char) (std : Specifier → List α → List Char)
    (custom : List Char → List Char → List α → List Char × List α) (hlaw : PrintfLaw printf std)
    (tag : List Char) (file func : Option (List Char)) (line : BitVec 32) (lit : List Char) (ps : List Piece) (args : List α)
    (hlit : '%' ∉ lit) (hok : ∀ p ∈ ps, PieceOk p) (hfine : Fine fs std custom ps (prefixText tag file func line ++ lit) args) :
    ∃ b, composeFilters fs printf tag file func line (format lit ps) args = some b ∧ Rep b (expand std custom ps (prefixText tag file func line ++ lit) args) ∧ Terminated b := by
  have hp := prefix_length tag file func line
  have hb := batch_gt (bound tag file func)
  rw [composeFilters]
  obtain ⟨m, e1, e2, e3⟩ := snprintf_rep (mem := List.replicate (batch (bound tag file func) + 1) none) hp (by simp; omega)
  rw [e1]
  simp only [Option.bind_eq_bind, Option.bind_some]
  rw [List.length_replicate] at e2
  have r0 : Rep ⟨m, batch (bound tag file func), (prefixText tag file func line).length⟩ (prefixText tag file func line) := ⟨e2, by dsimp only; omega, rfl, e3⟩
  obtain ⟨w1, w2⟩ := takeWhile_lit hlit (flatten_head ps hok)
  have hap : ∃ b1, (if lit.length > 0 then append ⟨m, batch (bound tag file func), (prefixText tag file func line).length⟩ lit false
      else some ⟨m, batch (bound tag file func), (prefixText tag file func line).length⟩) = some b1 ∧ Rep b1 (prefixText tag file func line ++ lit) := by
    by_cases hl : lit.length > 0
    · rw [if_pos hl]; exact append_rep r0 lit false
    · rw [if_neg hl]
      have : lit = [] := by simpa using hl
      rw [this, List.append_nil]
      exact ⟨_, rfl, r0⟩
  obtain ⟨b1, f1, r1⟩ := hap
  rw [format, w1, w2, f1]
  simp only [Option.bind_some]
  obtain ⟨b2, g1, r2⟩ := loop_eq fs printf std custom hlaw ps hok _ args b1 r1 hfine
  rw [g1]
  simp only [Option.bind_some]
  have hl := r2.len
  have hf := r2.fits
  have hm := r2.mem
  obtain ⟨m3, k1, k2, k3, -⟩ := put_some (mem := b2.mem) (k := b2.len) (s := ['\x00']) (by simp; omega)
  rw [k1]
  refine ⟨_, rfl, ⟨by rw [k2]; exact hm, hf, hl, ?_⟩, put_get k1⟩
  show m3.take b2.len = _
  rw [k3 _ (Nat.le_refl _), r2.text]

end

/-! ## Cases -/

/-- A filter that takes `%B`, without `*`. -/
def binFilter : Filter (BitVec 64) := fun spec b args =>
  match binarySpecifier spec (args.headD 0) with
  | none => none
  | some (0, _) => some (0, b, args)
  | some (n, out) => match write b out true with
    | none => none
    | some (_, b) => some (n, b, args.drop 1)

/-- It leaves the other specifiers alone. -/
theorem binFilter_skips (s : Specifier) (h : s.WF) (hB : s.conv ≠ 'B') (hw : s.width.value < 2 ^ 31) (hp : s.precision.value < 2 ^ 31) (rest : List Char) (b : Buf)
    (args : List (BitVec 64)) : runFilters [binFilter] (s.text ++ rest) b args = some (0, b, args) := by
  simp only [runFilters, binFilter, C86_others s h hB hw hp]
  rfl

/-- It writes the number and passes the argument over. -/
theorem binFilter_takes (s : Specifier) (h : s.WF) (hB : s.conv = 'B') (hw : s.width ≠ .star ∧ s.width.value < 2 ^ 31) (hp : s.precision ≠ .star ∧ s.precision.value < 2 ^ 31)
    (v : BitVec 64) (args : List (BitVec 64)) (hv : v.toNat < 2 ^ s.length.bits) (rest : List Char) (b : Buf) (msg : List Char) (hb : Rep b msg) :
    ∃ ds b', runFilters [binFilter] (s.text ++ rest) b (v :: args) = some (s.text.length, b', args) ∧
      Rep b' (msg ++ field ('-' ∈ s.flags) ('0' ∈ s.flags) s.width.value s.precision.value ds) ∧
      if '#' ∈ s.flags then IsShortest ds v.toNat else IsBinary ds s.length.bits v.toNat := by
  obtain ⟨ds, e, hds⟩ := C86_binary_partial s h hB hw hp v hv rest
  have hc : ∀ c ∈ ds, c = '0' ∨ c = '1' := by
    by_cases ha : '#' ∈ s.flags
    · rw [if_pos ha] at hds; exact hds.1
    · rw [if_neg ha] at hds; exact hds.2.1
  have hz : '\x00' ∉ field ('-' ∈ s.flags) ('0' ∈ s.flags) s.width.value s.precision.value ds := by
    have h0 : '\x00' ∉ ds := fun hm => by rcases hc _ hm with he | he <;> exact absurd he (by decide)
    rw [field]
    split
    · simp [h0]
    · split <;> simp [h0]
  obtain ⟨b', e2, r, -⟩ := write_rep hb (field ('-' ∈ s.flags) ('0' ∈ s.flags) s.width.value s.precision.value ds)
  rw [strncpy_eq hz] at r
  obtain ⟨n, hn⟩ : ∃ n, s.text.length = n + 1 := ⟨s.text.length - 1, by simp [Specifier.text]⟩
  refine ⟨ds, b', ?_, r, hds⟩
  simp only [runFilters, binFilter, List.headD_cons, e, hn, e2, List.drop_succ_cons, List.drop_zero, Option.bind_eq_bind, Option.bind_some]
  simp

/-- A `printf` that writes after each specifier how many arguments are left. -/
def demo (f : List Char) (args : List (BitVec 64)) : List Char :=
  match parse f with
  | some (n, _) => f.take (n + 1) ++ (toString args.length).toList ++ f.drop (n + 1)
  | none => f

theorem demo_law : PrintfLaw demo fun s args => s.text ++ (toString args.length).toList := by
  intro s lit args h
  obtain ⟨h1, h2, h3, h4, h5, h6, h7⟩ := h
  have hl : s.text.length - 1 + 1 = s.text.length := by simp [Specifier.text]
  rw [demo, C85_read s h1 lit, if_pos ⟨h5, h6⟩]
  simp only [hl, List.take_left, List.drop_left]

/-- The text of a message. -/
def shown (b : Option Buf) : Option (List (Option Char)) := b.map fun b => b.mem.take b.len

example : shown (composeFilters [binFilter] demo "Info".toList (some "a.c".toList) none 7 "x %d%% %#Bb %s.".toList [1, 5, 2]) =
    some ("Info:[a.c:7]: x %d3%%2 101b %s1.".toList.map some) := by decide +kernel

/-- **C88.** `%*d` takes two arguments, but only one is passed over: the specifier after it gets the wrong one. -/
theorem C88_star_refuted :
    let s : Specifier := { width := .star, conv := 'd' }
    let t : Specifier := { conv := 'd' }
    let std := fun (s : Specifier) (args : List (BitVec 64)) => s.text ++ (toString args.length).toList
    shown (composeFilters [binFilter] demo "Info".toList none none 0 (format [] [.std s [], .std t []]) [5, 1, 2]) =
      some ("Info: %*d3%d2".toList.map some) ∧
    expand std (fun _ m a => (m, a)) [.std s [], .std t []] "Info: ".toList [5, 1, 2] = "Info: %*d3%d1".toList := by
  decide +kernel

/-- A `%` at the end: what is after the terminator is read. -/
example : composeFilters [binFilter] demo "Info".toList none none 0 "100%".toList [] = none := by decide +kernel

example : PieceOk (.std { width := .digits ['5'], conv := 'd' } "ab".toList) :=
  ⟨⟨by decide, by simp [isDigit], by simp, by decide⟩, by decide, by decide, by decide, by decide, by decide, by decide⟩

example : run { mem := List.replicate 5 none, size := 4, len := 0 } [.write "hello".toList, .remove 2] =
    some { mem := "hel\x00o\x00".toList.map some ++ List.replicate 63 none, size := 68, len := 3 } := by decide +kernel
example : Rep { mem := List.replicate 5 none, size := 4, len := 0 } [] := ⟨by decide, by decide, by decide, by decide⟩

/-- What `%B` makes of a message. -/
def binCustom (t msg : List Char) (args : List (BitVec 64)) : List Char × List (BitVec 64) :=
  match binarySpecifier t (args.headD 0) with
  | some (_, out) => (msg ++ out, args.drop 1)
  | none => (msg, args)

/-- A format the theorem holds of. -/
example : Fine [binFilter] (fun s args => s.text ++ (toString args.length).toList) binCustom [.std { conv := 'd' } " ".toList, .custom "%hhB".toList []] "Info: ".toList [1, 5] := by
  refine ⟨fun rest b _ => binFilter_skips _ ⟨by decide, by simp, by simp, by decide⟩ (by decide) (by decide) (by decide) rest b _, fun rest b hb => ?_, trivial⟩
  obtain ⟨ds, b', e, r, hds⟩ := binFilter_takes { length := .hh, conv := 'B' } ⟨by decide, by simp, by simp, by decide⟩ rfl ⟨by decide, by decide⟩ ⟨by decide, by decide⟩
    5 [] (by decide) rest b _ hb
  refine ⟨b', e, ?_⟩
  have : ds = "00000101".toList := by
    obtain ⟨h1, h2, h3⟩ := hds
    match ds, h1 with
    | [a, b, c, d, e, f, g, h], _ =>
      simp only [List.mem_cons, List.not_mem_nil, or_false, forall_eq_or_imp, forall_eq] at h2
      obtain ⟨ha, hb, hc, hd, he, hf, hg, hh⟩ := h2
      rcases ha with rfl | rfl <;> rcases hb with rfl | rfl <;> rcases hc with rfl | rfl <;> rcases hd with rfl | rfl <;>
        rcases he with rfl | rfl <;> rcases hf with rfl | rfl <;> rcases hg with rfl | rfl <;> rcases hh with rfl | rfl <;>
        first | rfl | (exact absurd h3 (by decide))
  rw [this] at r
  exact r

#print axioms C87_buffer_partial
#print axioms C87_failed_exact
#print axioms C87_failed_refuted
#print axioms C88_plain
#print axioms C88_plain_write_exact
#print axioms C88_plain_write_refuted
#print axioms C88_filters_partial
#print axioms C88_star_refuted

end Verif.LogMsg
