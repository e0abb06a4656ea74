import Verif.LogFormat
import Verif.LogFormatSpec
import Verif.BitTricksProps

/-!
# C85, C86: format specifiers
-/
namespace Verif.LogFormat
open Spec

/-! ## Reading -/

/-- What the code is to find out about a specifier. -/
def Spec.Specifier.info (s : Specifier) : Info :=
  { optFlags := !s.flags.isEmpty, optWidth := s.width ≠ .absent, optPrecision := s.precision ≠ .absent, optLength := s.length ≠ .none
    left := '-' ∈ s.flags, plus := '+' ∈ s.flags, space := ' ' ∈ s.flags, alt := '#' ∈ s.flags, zero := '0' ∈ s.flags
    width := s.width.value, widthArg := s.width = .star, precision := s.precision.value, precisionArg := s.precision = .star
    length := s.length.code }

theorem digit_iff {c : Char} : digit c = true ↔ isDigit c := by
  constructor
  · intro h
    simp only [digit, Bool.and_eq_true, decide_eq_true_eq] at h
    have h1 : 48 ≤ c.toNat := h.1
    have h2 : c.toNat ≤ 57 := h.2
    have : c = Char.ofNat c.toNat := (Char.ofNat_toNat c).symm
    rw [this]
    generalize c.toNat = n at h1 h2
    have : n = 48 ∨ n = 49 ∨ n = 50 ∨ n = 51 ∨ n = 52 ∨ n = 53 ∨ n = 54 ∨ n = 55 ∨ n = 56 ∨ n = 57 := by omega
    rcases this with rfl | rfl | rfl | rfl | rfl | rfl | rfl | rfl | rfl | rfl <;> simp [isDigit] <;> decide
  · intro h
    simp only [isDigit, List.mem_cons, List.not_mem_nil, or_false] at h
    rcases h with rfl | rfl | rfl | rfl | rfl | rfl | rfl | rfl | rfl | rfl <;> decide

/-- The flags are noted one by one. -/
def setFlag (i : Info) (c : Char) : Info :=
  { i with optFlags := true, left := i.left || c == '-', plus := i.plus || c == '+', space := i.space || c == ' ', alt := i.alt || c == '#', zero := i.zero || c == '0' }

theorem scan_flags : ∀ (fs : List Char), (∀ c ∈ fs, c ∈ ['-', '+', ' ', '#', '0']) → ∀ (i : Info) (p : Nat) (rest : List Char),
    scan 0 i p (fs ++ rest) = scan 0 (fs.foldl setFlag i) (p + fs.length) rest
  | [], _, i, p, rest => rfl
  | c :: fs, h, i, p, rest => by
    have hs : step 0 i c = .next 0 (setFlag i c) := by
      have := h c (by simp)
      simp only [List.mem_cons, List.not_mem_nil, or_false] at this
      rcases this with rfl | rfl | rfl | rfl | rfl <;> (simp [step, stepFlags, setFlag]) 
    rw [List.cons_append, scan, hs]
    dsimp only
    rw [scan_flags fs (fun d hd => h d (by simp [hd]))]
    simp [Nat.add_comm, Nat.add_left_comm]

theorem beq_decide (c d : Char) : (c == d) = decide (d = c) := by
  by_cases h : c = d
  · subst h; simp
  · rw [beq_false_of_ne h, decide_eq_false (Ne.symm h)]

theorem foldl_flag : ∀ (fs : List Char) (i : Info), fs.foldl setFlag i =
    { i with optFlags := i.optFlags || !fs.isEmpty, left := i.left || decide ('-' ∈ fs), plus := i.plus || decide ('+' ∈ fs), space := i.space || decide (' ' ∈ fs),
             alt := i.alt || decide ('#' ∈ fs), zero := i.zero || decide ('0' ∈ fs) }
  | [], i => by simp
  | c :: fs, i => by
    rw [List.foldl_cons, foldl_flag fs]
    simp only [setFlag, Info.mk.injEq, List.isEmpty_cons, Bool.true_or, Bool.not_false, Bool.or_true, List.mem_cons, Bool.decide_or, Bool.or_assoc, true_and, and_true]
    simp only [beq_decide, and_self]

/-- A number is added to. -/
def numFrom (v : Nat) (ds : List Char) : Nat := ds.foldl (fun n c => 10 * n + (c.toNat - '0'.toNat)) v

theorem le_numFrom : ∀ (ds : List Char) (v : Nat), v ≤ numFrom v ds
  | [], v => Nat.le_refl _
  | c :: ds, v => by
    have := le_numFrom ds (10 * v + (c.toNat - '0'.toNat))
    show v ≤ numFrom (10 * v + (c.toNat - '0'.toNat)) ds
    omega

theorem val_eq (v : Nat) (c : Char) : v * 10 + digitVal c = 10 * v + (c.toNat - '0'.toNat) := by
  show v * 10 + (c.toNat - 48) = 10 * v + (c.toNat - 48); omega

theorem digit_ne {c d : Char} (h : digit c = true) (hd : digit d = false) : c ≠ d := by
  rintro rfl; rw [h] at hd; cases hd

theorem scan_width : ∀ (ds : List Char), (∀ c ∈ ds, isDigit c) → ∀ (i : Info), i.optWidth = true → ∀ (p : Nat) (rest : List Char), i.width < 2 ^ 31 →
    scan 1 i p (ds ++ rest) = if numFrom i.width ds < 2 ^ 31 then scan 1 { i with width := numFrom i.width ds } (p + ds.length) rest else none
  | [], _, i, _, p, rest, hw => by
    rw [show numFrom i.width [] = i.width from rfl, if_pos hw]; rfl
  | c :: ds, h, i, ho, p, rest, hw => by
    have hc := digit_iff.2 (h c (by simp))
    have hn : numFrom i.width (c :: ds) = numFrom (10 * i.width + (c.toNat - '0'.toNat)) ds := rfl
    rw [List.cons_append, scan, step, stepWidth, if_pos hc, grow, val_eq, hn]
    by_cases hv : 10 * i.width + (c.toNat - '0'.toNat) < 2 ^ 31
    · rw [if_pos hv]
      dsimp only
      rw [scan_width ds (fun d hd => h d (by simp [hd])) _ rfl _ _ hv]
      simp only [ho, List.length_cons, Nat.add_assoc, Nat.add_comm 1]
    · have := le_numFrom ds (10 * i.width + (c.toNat - '0'.toNat))
      rw [if_neg hv, if_neg (by omega)]

theorem scan_precision : ∀ (ds : List Char), (∀ c ∈ ds, isDigit c) → ∀ (i : Info), i.optPrecision = true → ∀ (p : Nat) (rest : List Char), i.precision < 2 ^ 31 →
    scan 2 i p (ds ++ rest) = if numFrom i.precision ds < 2 ^ 31 then scan 2 { i with precision := numFrom i.precision ds } (p + ds.length) rest else none
  | [], _, i, _, p, rest, hw => by
    rw [show numFrom i.precision [] = i.precision from rfl, if_pos hw]; rfl
  | c :: ds, h, i, ho, p, rest, hw => by
    have hc := digit_iff.2 (h c (by simp))
    have hn : numFrom i.precision (c :: ds) = numFrom (10 * i.precision + (c.toNat - '0'.toNat)) ds := rfl
    rw [List.cons_append, scan, step, stepPrecision, if_neg (digit_ne hc (by decide)), if_pos ho, if_pos hc, grow, val_eq, hn]
    by_cases hv : 10 * i.precision + (c.toNat - '0'.toNat) < 2 ^ 31
    · rw [if_pos hv]
      dsimp only
      rw [scan_precision ds (fun d hd => h d (by simp [hd])) { i with precision := 10 * i.precision + (c.toNat - '0'.toNat) } ho _ _ hv]
      simp only [List.length_cons, Nat.add_assoc, Nat.add_comm 1]
    · have := le_numFrom ds (10 * i.precision + (c.toNat - '0'.toNat))
      rw [if_neg hv, if_neg (by omega)]

/-- A character that is no flag and no part of a width. -/
def Later (c : Char) : Prop := c ∉ ['-', '+', ' ', '#', '0', '*'] ∧ digit c = false

theorem step_later {c : Char} (h : Later c) (i : Info) : step 0 i c = step 2 i c ∧ step 1 i c = step 2 i c := by
  obtain ⟨h1, h2⟩ := h
  simp only [List.mem_cons, List.not_mem_nil, or_false, not_or] at h1
  simp only [step, stepFlags, stepWidth]
  simp [h1, h2]

theorem scan_later {c : Char} (h : Later c) (i : Info) (p : Nat) (cs : List Char) {o : Nat} (ho : o ≤ 2) : scan o i p (c :: cs) = scan 2 i p (c :: cs) := by
  have : o = 0 ∨ o = 1 ∨ o = 2 := by omega
  rcases this with rfl | rfl | rfl
  · rw [scan, (step_later h i).1, scan]
  · rw [scan, (step_later h i).2, scan]
  · rfl

theorem step_length {c : Char} (h : Later c) (hd : c ≠ '.') (i : Info) : step 2 i c = step 3 i c := by
  obtain ⟨h1, h2⟩ := h
  simp only [List.mem_cons, List.not_mem_nil, or_false, not_or] at h1
  simp only [step, stepPrecision]
  simp [h1, h2, hd]

theorem scan_length {c : Char} (h : Later c) (hd : c ≠ '.') (i : Info) (p : Nat) (cs : List Char) {o : Nat} (ho : o ≤ 3) : scan o i p (c :: cs) = scan 3 i p (c :: cs) := by
  have : o ≤ 2 ∨ o = 3 := by omega
  rcases this with ho | rfl
  · rw [scan_later h i p cs ho, scan, step_length h hd, scan]
  · rfl

theorem conv_later {c : Char} (h : c ∉ reserved) : Later c ∧ c ≠ '.' ∧ ∀ i, step 3 i c = .stop 0 i := by
  simp only [reserved, List.mem_cons, List.not_mem_nil, or_false, not_or] at h
  refine ⟨⟨by simp [h], ?_⟩, by simp [h], fun i => by simp [step, stepLength, h]⟩
  cases hd : digit c
  · rfl
  · have := digit_iff.1 hd
    simp only [isDigit, List.mem_cons, List.not_mem_nil, or_false] at this
    simp [h] at this

theorem step_h (i : Info) : step 3 i 'h' = .next 3 { i with optLength := true, length := i.length * 256 + 104 } := rfl
theorem step_l (i : Info) : step 3 i 'l' = .next 3 { i with optLength := true, length := i.length * 256 + 108 } := rfl

/-- The length and the conversion. -/
theorem scan_end (l : Len) {conv : Char} (hc : conv ∉ reserved) (i : Info) (hi : i.length = 0 ∧ i.optLength = false) (p : Nat) (rest : List Char) {o : Nat} (ho : o ≤ 3) :
    scan o i p (l.text ++ conv :: rest) = some (p + l.text.length, { i with optLength := decide (l ≠ .none), length := l.code }) := by
  obtain ⟨h1, h2, h3⟩ := conv_later hc
  have hl : ∀ c ∈ ['h', 'l', 'j', 'z', 't', 'L'], Later c ∧ c ≠ '.' := by
    intro c hc
    simp only [List.mem_cons, List.not_mem_nil, or_false] at hc
    rcases hc with rfl | rfl | rfl | rfl | rfl | rfl <;> (refine ⟨⟨?_, ?_⟩, ?_⟩ <;> decide)
  obtain ⟨i1, i2⟩ := hi
  cases l
  case none =>
    show scan o i p (conv :: rest) = _
    rw [scan_length h1 h2 i p rest ho, scan, h3]
    simp [Len.text, Len.code, ← i1, ← i2]
  case hh =>
    show scan o i p ('h' :: 'h' :: conv :: rest) = _
    rw [scan_length (hl _ (by simp)).1 (hl _ (by simp)).2 i p _ ho, scan, step_h]
    dsimp only
    rw [scan, step_h]
    dsimp only
    rw [scan, h3, i1]
    rfl
  case h =>
    show scan o i p ('h' :: conv :: rest) = _
    rw [scan_length (hl _ (by simp)).1 (hl _ (by simp)).2 i p _ ho, scan, step_h]
    dsimp only
    rw [scan, h3, i1]
    rfl
  case l =>
    show scan o i p ('l' :: conv :: rest) = _
    rw [scan_length (hl _ (by simp)).1 (hl _ (by simp)).2 i p _ ho, scan, step_l]
    dsimp only
    rw [scan, h3, i1]
    rfl
  case ll =>
    show scan o i p ('l' :: 'l' :: conv :: rest) = _
    rw [scan_length (hl _ (by simp)).1 (hl _ (by simp)).2 i p _ ho, scan, step_l]
    dsimp only
    rw [scan, step_l]
    dsimp only
    rw [scan, h3, i1]
    rfl
  all_goals
    simp only [Len.text, List.cons_append, List.nil_append]
    rw [scan_length (hl _ (by simp)).1 (hl _ (by simp)).2 i p _ ho]
    rfl

/-- The precision, the length and the conversion. -/
theorem scan_rest (s : Specifier) (h : s.WF) (i : Info) (hi : i.length = 0 ∧ i.optLength = false ∧ i.optPrecision = false ∧ i.precision = 0 ∧ i.precisionArg = false)
    (p : Nat) (rest : List Char) {o : Nat} (ho : o ≤ 2) :
    scan o i p ((if s.precision = .absent then [] else '.' :: s.precision.text) ++ (s.length.text ++ s.conv :: rest)) =
      if s.precision.value < 2 ^ 31 then
        some (p + (if s.precision = .absent then [] else '.' :: s.precision.text).length + s.length.text.length,
          { i with optPrecision := decide (s.precision ≠ .absent), precision := s.precision.value, precisionArg := decide (s.precision = .star),
                   optLength := decide (s.length ≠ .none), length := s.length.code })
      else none := by
  obtain ⟨i1, i2, i3, i4, i5⟩ := hi
  have hp := h.precision
  cases hs : s.precision with
  | absent =>
    rw [if_pos rfl, List.nil_append, scan_end s.length h.conv i ⟨i1, i2⟩ p rest (by omega), if_pos (by decide)]
    simp [Num.value, i3, i4, i5]
  | star =>
    rw [if_neg (by simp)]
    show scan o i p ('.' :: '*' :: (s.length.text ++ s.conv :: rest)) = _
    rw [scan_later (by constructor <;> decide) i p _ ho, scan, show step 2 i '.' = .next 2 { i with optPrecision := true } from rfl]
    dsimp only
    rw [scan, show step 2 { i with optPrecision := true } '*' = .next 3 { i with optPrecision := true, precisionArg := true } from rfl]
    dsimp only
    rw [scan_end s.length h.conv _ ⟨by exact i1, by exact i2⟩ _ rest (by omega), if_pos (by decide)]
    simp [Num.value, Num.text, i4]
  | digits ds =>
    rw [if_neg (by simp)]
    show scan o i p ('.' :: (ds ++ (s.length.text ++ s.conv :: rest))) = _
    rw [scan_later (by constructor <;> decide) i p _ ho, scan, show step 2 i '.' = .next 2 { i with optPrecision := true } from rfl]
    dsimp only
    rw [scan_precision ds (hp ds hs) { i with optPrecision := true } rfl (p + 1) _ (by rw [i4]; decide)]
    have hn : numFrom i.precision ds = (Num.digits ds).value := by rw [i4]; rfl
    dsimp only
    rw [hn]
    by_cases hv : (Num.digits ds).value < 2 ^ 31
    · rw [if_pos hv, if_pos hv, scan_end s.length h.conv _ ⟨by exact i1, by exact i2⟩ _ rest (by omega)]
      simp [Num.text, ← i5, Nat.add_assoc, Nat.add_comm 1]
    · rw [if_neg hv, if_neg hv]

/-- **C85.** A specifier is read: the number of characters before its conversion, and what it says.  Whatever follows it.  It is undefined exactly if a number
does not fit in an `int`. -/
theorem C85_read (s : Specifier) (h : s.WF) (rest : List Char) :
    parse (s.text ++ rest) = if s.width.value < 2 ^ 31 ∧ s.precision.value < 2 ^ 31 then some (s.text.length - 1, s.info) else none := by
  have hw := h.width
  have e : parse (s.text ++ rest) =
      scan 0 {} 1 (s.flags ++ (s.width.text ++ ((if s.precision = .absent then [] else '.' :: s.precision.text) ++ (s.length.text ++ s.conv :: rest)))) := by
    simp only [Specifier.text, Specifier.middle, List.cons_append, List.append_assoc, List.nil_append, parse]
  have hl : s.text.length - 1 = 1 + s.flags.length + s.width.text.length + (if s.precision = .absent then [] else '.' :: s.precision.text).length + s.length.text.length := by
    simp only [Specifier.text, Specifier.middle, List.length_append, List.length_cons, List.length_nil]; omega
  rw [e, hl, scan_flags s.flags h.flags, foldl_flag]
  cases hs : s.width with
  | absent =>
    rw [show (Num.absent).text = [] from rfl, List.nil_append]
    rw [scan_rest s h _ ⟨rfl, rfl, rfl, rfl, rfl⟩ _ rest (by omega)]
    simp [Num.value, Specifier.info, hs]
  | star =>
    have e2 : ∀ (i : Info) p cs, scan 0 i p ('*' :: cs) = scan 2 { i with optWidth := true, widthArg := true } (p + 1) cs := fun _ _ _ => rfl
    rw [show (Num.star).text = ['*'] from rfl, List.cons_append, List.nil_append, e2]
    rw [scan_rest s h _ ⟨rfl, rfl, rfl, rfl, rfl⟩ _ rest (by omega)]
    simp [Num.value, Specifier.info, hs]
  | digits ds =>
    obtain ⟨h1, h2, h3⟩ := hw ds hs
    cases ds with
    | nil => exact absurd rfl h1
    | cons d ds =>
      have hd := digit_iff.2 (h3 d (by simp))
      have hd0 : d ≠ '0' := by simpa using h2
      have e2 : ∀ (i : Info) p cs, i.width = 0 → scan 0 i p (d :: cs) = scan 1 { i with optWidth := true, width := numFrom 0 [d] } (p + 1) cs := by
        intro i p cs hi
        have : d.toNat ≤ 57 := by
          simp only [digit, Bool.and_eq_true, decide_eq_true_eq] at hd
          exact hd.2
        rw [scan, step, stepFlags, if_neg (digit_ne hd (by decide)), if_neg (digit_ne hd (by decide)), if_neg (digit_ne hd (by decide)), if_neg (digit_ne hd (by decide)),
          if_neg hd0, stepWidth, if_pos hd, grow, val_eq, hi, if_pos (by show 10 * 0 + (d.toNat - 48) < 2147483648; omega)]
        rfl
      have hlt : numFrom 0 [d] < 2 ^ 31 := by
        have : d.toNat ≤ 57 := by
          simp only [digit, Bool.and_eq_true, decide_eq_true_eq] at hd
          exact hd.2
        show 10 * 0 + (d.toNat - 48) < 2147483648; omega
      rw [show (Num.digits (d :: ds)).text = d :: ds from rfl, List.cons_append, e2 _ _ _ rfl,
        scan_width ds (fun c hc => h3 c (by simp [hc])) _ rfl _ _ hlt]
      have hn : numFrom (numFrom 0 [d]) ds = (Num.digits (d :: ds)).value := rfl
      dsimp only
      rw [hn]
      by_cases hv : (Num.digits (d :: ds)).value < 2 ^ 31
      · rw [if_pos hv, scan_rest s h _ ⟨rfl, rfl, rfl, rfl, rfl⟩ _ rest (by omega)]
        simp only [hv, true_and]
        have hlen : (Num.digits (d :: ds)).text.length = ds.length + 1 := rfl
        simp [Specifier.info, hs, hlen, Nat.add_assoc, Nat.add_comm, Nat.add_left_comm]
      · rw [if_neg hv, if_neg (by simp [hv])]

theorem grow_stop {v : Nat} {c : Char} {f : Nat → Step} {e : Nat} {j : Info} (hf : ∀ v, f v ≠ .stop e j) : grow v c f ≠ .stop e j := by
  rw [grow]; split
  · exact hf _
  · simp

theorem stop_length {i : Info} {c : Char} {e : Nat} {j : Info} (h : stepLength i c = .stop e j) : e ≤ 1 := by
  rw [stepLength] at h
  repeat' split at h
  all_goals (first | (injection h with h1 h2; omega) | cases h)

theorem stop_precision {i : Info} {c : Char} {e : Nat} {j : Info} (h : stepPrecision i c = .stop e j) : e ≤ 1 := by
  rw [stepPrecision] at h
  repeat' split at h
  all_goals (first | exact stop_length h | exact absurd h (by simp) | exact absurd h (grow_stop (by simp)))

theorem stop_width {i : Info} {c : Char} {e : Nat} {j : Info} (h : stepWidth i c = .stop e j) : e ≤ 1 := by
  rw [stepWidth] at h
  repeat' split at h
  all_goals (first | exact stop_precision h | exact absurd h (by simp) | exact absurd h (grow_stop (by simp)))

theorem stop_le {o : Nat} {i : Info} {c : Char} {e : Nat} {j : Info} (h : step o i c = .stop e j) : e ≤ 1 := by
  unfold step at h
  split at h
  · rw [stepFlags] at h
    repeat' split at h
    all_goals (first | exact stop_width h | exact absurd h (by simp))
  · exact stop_width h
  · exact stop_precision h
  · exact stop_length h

theorem scan_le : ∀ (cs : List Char) (o : Nat) (i : Info) (p n : Nat) (j : Info), scan o i p cs = some (n, j) → n ≤ p + cs.length
  | [], o, i, p, n, j, h => by simp [scan] at h; simp; omega
  | c :: cs, o, i, p, n, j, h => by
    rw [scan] at h
    split at h
    · have := scan_le cs _ _ _ _ _ h
      simp only [List.length_cons]; omega
    · rename_i e i' he
      have : e ≤ 1 := by
        exact stop_le he
      simp only [Option.some.injEq, Prod.mk.injEq] at h
      simp only [List.length_cons]; omega
    · simp only [Option.some.injEq, Prod.mk.injEq] at h
      have := List.takeWhile_sublist (p := digit) (l := cs) |>.length_le
      simp only [List.length_cons]; omega
    · cases h

/-- **C85.** Of any string, no character beyond the terminator is asked for. -/
theorem C85_inside (cs : List Char) (n : Nat) (i : Info) (h : parse cs = some (n, i)) : n ≤ cs.length := by
  unfold parse at h
  split at h
  · have := scan_le _ _ _ _ _ _ h
    simp only [List.length_cons]; omega
  · have := scan_le _ _ _ _ _ _ h
    omega

/-! ## `%B` -/

theorem pad_eq (c : Char) (n : Nat) : pad c n = List.replicate n c := by
  induction n using Nat.strongRecOn with
  | ind n ih =>
    rw [pad]
    split
    · rename_i h; rw [h]; rfl
    · dsimp only
      rw [ih _ (by split <;> omega), List.replicate_append_replicate]
      congr 1
      split <;> omega

theorem binNumber_from : ∀ (ds : List Char) (v : Nat),
    ds.foldl (fun n c => 2 * n + (c.toNat - '0'.toNat)) v = v * 2 ^ ds.length + binNumber ds
  | [], v => by simp [binNumber]
  | d :: ds, v => by
    have e : binNumber (d :: ds) = ds.foldl (fun n c => 2 * n + (c.toNat - '0'.toNat)) (2 * 0 + (d.toNat - '0'.toNat)) := rfl
    rw [List.foldl_cons, e, binNumber_from ds, binNumber_from ds, List.length_cons, Nat.pow_succ]
    generalize d.toNat - '0'.toNat = x
    generalize 2 ^ ds.length = y
    rw [Nat.mul_zero, Nat.zero_add, Nat.add_mul, Nat.mul_comm y 2, ← Nat.mul_assoc, Nat.mul_comm 2 v, Nat.add_assoc]

theorem binNumber_cons (d : Char) (ds : List Char) : binNumber (d :: ds) = (d.toNat - '0'.toNat) * 2 ^ ds.length + binNumber ds := by
  rw [binNumber, List.foldl_cons, binNumber_from]; simp

theorem bits_succ (n : Nat) (v : BitVec 64) : bits (n + 1) v = (if v.getLsbD n then '1' else '0') :: bits n v := by
  rw [bits, List.range_succ_eq_map, List.map_cons, List.map_map, bits]
  congr 1
  apply List.map_congr_left
  intro k hk
  show (if v.getLsbD (n + 1 - 1 - (k + 1)) then '1' else '0') = _
  rw [show n + 1 - 1 - (k + 1) = n - 1 - k by omega]

theorem bits_length (n : Nat) (v : BitVec 64) : (bits n v).length = n := by simp [bits]

theorem bits_chars (n : Nat) (v : BitVec 64) : ∀ c ∈ bits n v, c = '0' ∨ c = '1' := by
  intro c hc
  simp only [bits, List.mem_map] at hc
  obtain ⟨k, -, rfl⟩ := hc
  split <;> simp

theorem bits_number (n : Nat) (v : BitVec 64) : binNumber (bits n v) = v.toNat % 2 ^ n := by
  induction n with
  | zero => simp [bits, binNumber, Nat.mod_one]
  | succ n ih =>
    rw [bits_succ, binNumber_cons, ih, bits_length, Nat.mod_pow_succ]
    have : v.getLsbD n = v.toNat.testBit n := rfl
    rw [this, Nat.testBit_eq_decide_div_mod_eq]
    have h2 : v.toNat / 2 ^ n % 2 = 0 ∨ v.toNat / 2 ^ n % 2 = 1 := by omega
    rcases h2 with h2 | h2 <;> rw [h2] <;> simp [Nat.add_comm]

theorem bits_drop (n k : Nat) (v : BitVec 64) (h : k ≤ n) : (bits n v).drop (n - k) = bits k v := by
  induction n with
  | zero => rw [show k = 0 by omega]; rfl
  | succ n ih =>
    by_cases hk : k = n + 1
    · rw [hk, Nat.sub_self]; rfl
    · rw [bits_succ, show n + 1 - k = (n - k) + 1 by omega, List.drop_succ_cons, ih (by omega)]

open BitTricks BitTricks.Spec in
/-- The index of the highest bit, and one. -/
theorem high_eq {v : BitVec 64} {k : Nat} (h : HighestOne v k) : (countSet (maskForValue (highestSet v))).toNat = k + 1 := by
  rw [C21_count_set, ones, highestSet_eq h]
  have : ∀ i, (maskForValue (BitVec.twoPow 64 k)).getLsbD i = decide (i ≤ k) := by
    intro i
    have hb := bit_mask (BitVec.twoPow 64 k) i
    rw [Bool.eq_iff_iff, decide_eq_true_iff]
    refine hb.trans ⟨?_, fun hi => ⟨k, hi, (bit_twoPow k k h.1).2 rfl⟩⟩
    rintro ⟨j, hj, hb⟩
    have := (bit_twoPow k j h.1).1 hb
    omega
  simp only [this]
  have hc : ∀ n, (List.range n).countP (fun i => decide (i ≤ k)) = min n (k + 1) := by
    intro n
    induction n with
    | zero => simp
    | succ n ih =>
      rw [List.range_succ, List.countP_append, ih]
      by_cases hn : n ≤ k
      · simp [hn]; omega
      · simp [hn]; omega
  rw [hc]
  have := h.1
  omega

open BitTricks.Spec in
theorem highest_bounds {v : BitVec 64} {k : Nat} (h : HighestOne v k) : 2 ^ k ≤ v.toNat ∧ v.toNat < 2 ^ (k + 1) := by
  constructor
  · exact Nat.ge_two_pow_of_testBit h.2.1
  · apply Nat.lt_pow_two_of_testBit
    intro i hi
    have := h.2.2 i (by omega)
    cases hb : v.toNat.testBit i
    · rfl
    · exact absurd hb this

theorem zero_high : (BitTricks.countSet (BitTricks.maskForValue (BitTricks.highestSet 0))).toNat = 0 := by decide +kernel

/-- The digits without `#`. -/
theorem formatted_full (i : Info) (h : i.alt = false) (n : Nat) (v : BitVec 64) : ∃ ds, formatted i n v = some ds ∧ IsBinary ds n (v.toNat % 2 ^ n) :=
  ⟨bits n v, by simp [formatted, h], bits_length n v, bits_chars n v, bits_number n v⟩

/-- The digits with `#`: undefined if the number has more bits than are written. -/
theorem formatted_alt (i : Info) (h : i.alt = true) (n : Nat) (hn : 0 < n) (v : BitVec 64) :
    (v.toNat < 2 ^ n → ∃ ds, formatted i n v = some ds ∧ IsShortest ds v.toNat) ∧ (¬v.toNat < 2 ^ n → formatted i n v = none) := by
  by_cases hv : v = 0
  · subst hv
    have hz : (0 : BitVec 64).toNat = 0 := rfl
    have hp := Nat.two_pow_pos n
    refine ⟨fun _ => ⟨['0'], ?_, by simp, by decide, by simp, by simp⟩, fun hlt => absurd (by rw [hz]; exact hp) hlt⟩
    obtain ⟨m, rfl⟩ : ∃ m, n = m + 1 := ⟨n - 1, by omega⟩
    simp only [formatted, h, if_true, zero_high]
    rw [bits_succ]
    simp
  · obtain ⟨k, hk⟩ := BitTricks.exists_highest hv
    obtain ⟨h1, h2⟩ := highest_bounds hk
    simp only [formatted, h, if_true, high_eq hk, if_neg (Nat.succ_ne_zero k)]
    constructor
    · intro hlt
      have hkn : k < n := (Nat.pow_lt_pow_iff_right (a := 2) (by omega)).1 (Nat.lt_of_le_of_lt h1 hlt)
      refine ⟨bits (k + 1) v, by rw [if_pos (by omega), bits_drop n (k + 1) v (by omega)], bits_chars _ v, ?_, ?_, ?_⟩
      · rw [bits_number, Nat.mod_eq_of_lt h2]
      · rw [bits_succ]; simp
      · rw [bits_succ, show v.getLsbD k = true from hk.2.1]; simp
    · intro hlt
      have hkn : ¬k + 1 ≤ n := by
        intro hle
        have := Nat.pow_le_pow_right (n := 2) (by omega) hle
        omega
      rw [if_neg hkn]

theorem sizeOf_code (l : Len) : sizeOf l.code * 8 = l.bits := by cases l <;> rfl

theorem toSize_nat (n : Nat) : toSize (n : Int) = n := by
  rw [toSize, if_neg (by omega)]; omega

/-- What is written around the digits. -/
theorem binary_field (i : Info) (w p : Nat) (hw : i.optWidth = false → w = 0) (hp : i.optPrecision = false → p = 0) (v : BitVec 64) (ds : List Char)
    (h : formatted i (sizeOf i.length * 8) v = some ds) : binary i w p v = some (field i.left i.zero w p ds) := by
  rw [binary, h]
  simp only [Option.bind_eq_bind, Option.bind_some, toSize_nat, pad_eq, Option.some.injEq]
  have e1 : (if i.optPrecision = true ∧ p > ds.length then ds.length + (p - ds.length) else ds.length) = max p ds.length := by
    cases ho : i.optPrecision
    · have := hp ho; simp; omega
    · simp; split <;> omega
  have e2 : (if i.optPrecision = true ∧ p > ds.length then List.replicate (p - ds.length) '0' else []) = List.replicate (p - ds.length) '0' := by
    split
    · rfl
    · rename_i hn
      have : p - ds.length = 0 := by
        cases ho : i.optPrecision
        · have := hp ho; omega
        · simp [ho] at hn; omega
      rw [this]; rfl
  have e3 : ∀ (b : Prop) [Decidable b] (c : Char), (if b ∧ i.optWidth = true ∧ w > max p ds.length then List.replicate (w - max p ds.length) c else []) =
      if b then List.replicate (w - max p ds.length) c else [] := by
    intro b _ c
    by_cases hb : b
    · simp only [hb, true_and, if_true]
      split
      · rfl
      · rename_i hn
        have : w - max p ds.length = 0 := by
          cases ho : i.optWidth
          · have := hw ho; omega
          · simp [ho] at hn; omega
        rw [this]; rfl
    · simp [hb]
  have e4 : (List.replicate (p - ds.length) '0' ++ ds).length = max p ds.length := by simp; omega
  rw [e1, e2, e3, e3, field, e4]
  cases i.left <;> simp

/-- **C86.** `%B`: a specifier whose numbers are written out is taken, and all of it.  The argument is written in binary, with as many digits as the length has bits
(or, with `#`, the shortest way), in a field of the width.  The rest of the format is not looked at. -/
theorem C86_binary_partial (s : Specifier) (h : s.WF) (hB : s.conv = 'B') (hw : s.width ≠ .star ∧ s.width.value < 2 ^ 31) (hp : s.precision ≠ .star ∧ s.precision.value < 2 ^ 31)
    (v : BitVec 64) (hv : v.toNat < 2 ^ s.length.bits) (rest : List Char) :
    ∃ ds, binarySpecifier (s.text ++ rest) v = some (s.text.length, field ('-' ∈ s.flags) ('0' ∈ s.flags) s.width.value s.precision.value ds) ∧
      if '#' ∈ s.flags then IsShortest ds v.toNat else IsBinary ds s.length.bits v.toNat := by
  have hr := C85_read s h rest
  rw [if_pos ⟨hw.2, hp.2⟩] at hr
  have hl : s.text.length - 1 < s.text.length := by simp [Specifier.text]
  have hg : (s.text ++ rest)[s.text.length - 1]? = some 'B' := by
    rw [List.getElem?_append_left hl, Specifier.text, List.length_append]
    rw [List.getElem?_append_right (by simp)]
    simp [hB]
  have hlen : s.text.length - 1 + 1 = s.text.length := by omega
  rw [binarySpecifier, hr]
  simp only [Option.bind_eq_bind, Option.bind_some, hg, if_true, hlen]
  have hs : sizeOf s.info.length * 8 = s.length.bits := sizeOf_code s.length
  have hf : ∃ ds, formatted s.info (sizeOf s.info.length * 8) v = some ds ∧ if '#' ∈ s.flags then IsShortest ds v.toNat else IsBinary ds s.length.bits v.toNat := by
    rw [hs]
    by_cases ha : '#' ∈ s.flags
    · simp only [if_pos ha]
      exact (formatted_alt s.info (by simp [Specifier.info, ha]) _ (by cases s.length <;> decide) v).1 hv
    · simp only [if_neg ha]
      have := formatted_full s.info (by simp [Specifier.info, ha]) s.length.bits v
      rwa [Nat.mod_eq_of_lt hv] at this
  obtain ⟨ds, h1, h2⟩ := hf
  refine ⟨ds, ?_, h2⟩
  have hb := binary_field s.info s.width.value s.precision.value ?_ ?_ v ds h1
  · have e1 : (s.info.width : Int) = (s.width.value : Nat) := rfl
    have e2 : (s.info.precision : Int) = (s.precision.value : Nat) := rfl
    rw [e1, e2, hb]
    rfl
  · intro ho
    have : s.width = .absent := by simpa [Specifier.info] using ho
    rw [this]; rfl
  · intro ho
    have : s.precision = .absent := by simpa [Specifier.info] using ho
    rw [this]; rfl

/-- **C86.** An argument with more bits than are written: without `#` the low bits are written, with `#` it is undefined, characters before the digits being
read.  (Such an argument is a negative `char` or `short`, which is passed as an `int`.) -/
theorem C86_wide (i : Info) (v : BitVec 64) (w p : Int) (hn : 0 < sizeOf i.length) :
    binary i w p v = none ↔ i.alt = true ∧ ¬v.toNat < 2 ^ (sizeOf i.length * 8) := by
  have hb : binary i w p v = none ↔ formatted i (sizeOf i.length * 8) v = none := by
    rw [binary]
    cases formatted i (sizeOf i.length * 8) v <;> simp
  rw [hb]
  cases ha : i.alt
  · obtain ⟨ds, h, -⟩ := formatted_full i ha (sizeOf i.length * 8) v
    simp [h]
  · have := formatted_alt i ha (sizeOf i.length * 8) (by omega) v
    by_cases hv : v.toNat < 2 ^ (sizeOf i.length * 8)
    · obtain ⟨ds, h, -⟩ := this.1 hv
      simp [h, hv]
    · simp [this.2 hv, hv]

/-- **C86.** `%#hhB` of the `char` `-1`, which is passed as the `int` `-1`, is undefined. -/
theorem C86_negative_refuted : binarySpecifier "%#hhB".toList 0xffffffff#64 = none := by decide +kernel

/-- **C86.** A specifier with another conversion is left to others. -/
theorem C86_others (s : Specifier) (h : s.WF) (hB : s.conv ≠ 'B') (hw : s.width.value < 2 ^ 31) (hp : s.precision.value < 2 ^ 31) (v : BitVec 64) (rest : List Char) :
    binarySpecifier (s.text ++ rest) v = some (0, []) := by
  have hr := C85_read s h rest
  rw [if_pos ⟨hw, hp⟩] at hr
  have hl : s.text.length - 1 < s.text.length := by simp [Specifier.text]
  have hg : (s.text ++ rest)[s.text.length - 1]? = some s.conv := by
    rw [List.getElem?_append_left hl, Specifier.text, List.length_append]
    rw [List.getElem?_append_right (by simp)]
    simp
  rw [binarySpecifier, hr]
  simp [hg, hB]

/-- **C86.** A negative width of an argument (`%*B`), which C takes for `-` and a width, is converted to a huge number: that many characters of padding are
written. -/
theorem C86_star (i : Info) (hw : i.optWidth = true) (hl : i.left = false) (hp : i.optPrecision = false) (w : Int) (h0 : w < 0) (h1 : -2 ^ 31 ≤ w) (p : Int)
    (v : BitVec 64) (out : List Char) (h : binary i w p v = some out) : 2 ^ 63 < out.length := by
  rw [binary] at h
  cases hf : formatted i (sizeOf i.length * 8) v with
  | none => rw [hf] at h; cases h
  | some ds =>
    have hd : ds.length ≤ 64 := by
      have hs : sizeOf i.length ≤ 8 := by
        rw [sizeOf]; (repeat' split) <;> omega
      have : ∀ n, formatted i n v = some ds → 0 < n → ds.length ≤ n := by
        intro n h hn
        rw [formatted] at h
        split at h
        · dsimp only at h
          split at h
          · injection h with h; subst h; simp; omega
          · split at h
            · injection h with h; subst h; simp [bits_length]
            · cases h
        · injection h with h; subst h; rw [bits_length]; omega
      have := this _ hf (by rw [sizeOf]; (repeat' split) <;> omega)
      omega
    have ht : 2 ^ 63 + 64 < toSize w := by rw [toSize, if_pos h0]; omega
    rw [hf] at h
    simp only [Option.bind_eq_bind, Option.bind_some, hw, hl, hp, Option.some.injEq, pad_eq] at h
    subst h
    simp
    rw [if_pos (by omega)]
    simp
    omega

/-- **C86.** `0` is not ignored if there is a precision, as it is for the numbers of C. -/
theorem C86_zero_refuted : binarySpecifier "%#08.4B".toList 5 = some (7, "00000101".toList) := by decide +kernel

/-! ## Cases -/

example : ({ flags := ['-', '#'], width := .digits ['1', '2'], precision := .digits ['4'], length := .ll, conv := 'B' } : Specifier).text = "%-#12.4llB".toList := by decide
example : (⟨['-', '#'], .digits ['1', '2'], .digits ['4'], .ll, 'B'⟩ : Specifier).WF :=
  ⟨by decide, by simp [isDigit], by simp [isDigit], by decide⟩
example : parse "%-#12.4llB, %d".toList = some (9, { optFlags := true, optWidth := true, optPrecision := true, optLength := true, left := true, alt := true, width := 12, precision := 4, length := 0x6c6c }) := by
  decide +kernel
example : parse "%*.*f".toList = some (4, { optWidth := true, optPrecision := true, widthArg := true, precisionArg := true }) := by decide +kernel
/-- A negative precision: the digits are skipped, but the length is not read. -/
example : (parse "%.-5ld".toList).map (·.1) = some 4 := by decide +kernel
example : binarySpecifier "%-#12.4llB|".toList 5 = some (10, "0101        ".toList) := by decide +kernel
example : binarySpecifier "%hhB".toList 5 = some (4, "00000101".toList) := by decide +kernel
example : binarySpecifier "%#hhB".toList 0x1ff = none := by decide +kernel
example : IsShortest "101".toList 5 := by refine ⟨?_, ?_, ?_, ?_⟩ <;> decide
example : field true false 12 4 "101".toList = "0101        ".toList := by decide

#print axioms C85_read
#print axioms C85_inside
#print axioms C86_binary_partial
#print axioms C86_wide
#print axioms C86_negative_refuted
#print axioms C86_others
#print axioms C86_star
#print axioms C86_zero_refuted

end Verif.LogFormat
