import Verif.CustomFmt
import Verif.CustomFmtSpec
import Verif.LogMsgProps

/-!
# The format specifiers of arrays, deletion, strings and characters
-/
namespace Verif.CustomFmt
open LogFormat LogFormat.Spec LogMsg LogMsg.Spec Spec

variable {V : Type}

/-! ## Writing -/

theorem put_rep {b : Buf} {msg : List Char} (h : Rep b msg) {s : List Char} (hz : '\x00' ∉ s) : ∃ b', put b s = some b' ∧ Rep b' (msg ++ s) := by
  obtain ⟨b1, e, h1, -⟩ := write_rep h s
  rw [strncpy_eq hz] at h1
  exact ⟨b1, by simp only [put, e, Option.map_some], h1⟩

theorem grown_ok {cap : Option Nat} {out : List Char} (h : cap = none → out ≠ []) : ∃ k, grown cap out.length true = some k ∧ out.length ≤ k := by
  cases cap with
  | none =>
    have := List.length_pos_iff.2 (h rfl)
    exact ⟨_, if_pos ⟨by simpa using this, rfl⟩, Nat.le_refl _⟩
  | some k =>
    by_cases hlt : k < out.length
    · exact ⟨_, if_pos ⟨hlt, rfl⟩, Nat.le_refl _⟩
    · exact ⟨k, if_neg (fun hh => hlt hh.1), by omega⟩

theorem print_rep (render : List Char → V → List Char) (spec sep : List Char) (vs : List V) (hz : ∀ v ∈ vs, '\x00' ∉ render spec v) (hsep : '\x00' ∉ sep) :
    ∀ (left i : Nat) (cap : Option Nat) (b : Buf) (msg : List Char), Rep b msg → i + (left + 1) ≤ vs.length →
      (cap = none → ∀ v, vs[i]? = some v → render spec v ≠ []) →
      ∃ b', printArray render (fun _ => true) spec sep vs i (left + 1) cap b = some b' ∧
        Rep b' (msg ++ joined sep (((vs.drop i).take (left + 1)).map (render spec))) := by
  intro left
  induction left with
  | zero =>
    intro i cap b msg h hi hcap
    have hv : vs[i]? = some vs[i] := List.getElem?_eq_getElem (by omega)
    have hd : (vs.drop i).take 1 = [vs[i]] := by
      rw [List.drop_eq_getElem_cons (by omega)]; rfl
    have hk := grown_ok (fun h => hcap h _ hv)
    obtain ⟨k, ek, hle⟩ := hk
    obtain ⟨b1, e1, r1⟩ := put_rep h (hz vs[i] (List.getElem_mem _))
    refine ⟨b1, ?_, by rw [hd]; exact r1⟩
    rw [printArray, hv]
    simp only [Option.bind_eq_bind, Option.bind_some]
    rw [ek]
    simp only [List.take_of_length_le hle, Nat.sub_eq_zero_of_le hle, List.replicate_zero, List.append_nil, e1, Option.bind_some, if_true]
  | succ left ih =>
    intro i cap b msg h hi hcap
    have hv : vs[i]? = some vs[i] := List.getElem?_eq_getElem (by omega)
    have hd : (vs.drop i).take (left + 1 + 1) = vs[i] :: (vs.drop (i + 1)).take (left + 1) := by
      rw [List.drop_eq_getElem_cons (by omega)]; rfl
    have hk := grown_ok (fun h => hcap h _ hv)
    obtain ⟨k, ek, hle⟩ := hk
    obtain ⟨b1, e1, r1⟩ := put_rep h (hz vs[i] (List.getElem_mem _))
    obtain ⟨b2, e2, r2⟩ := put_rep r1 hsep
    obtain ⟨b3, e3, r3⟩ := ih (i + 1) (some k) b2 _ r2 (by omega) (fun h => by cases h)
    refine ⟨b3, ?_, ?_⟩
    · rw [printArray, hv]
      simp only [Option.bind_eq_bind, Option.bind_some]
      rw [ek]
      dsimp only
      rw [List.take_of_length_le hle, Nat.sub_eq_zero_of_le hle, List.replicate_zero, List.append_nil, e1, Option.bind_some,
        if_neg (Nat.succ_ne_zero left), e2, Option.bind_some]
      exact e3
    · rw [hd, List.map_cons]
      have hne : ∃ x xs, ((vs.drop (i + 1)).take (left + 1)).map (render spec) = x :: xs := by
        rw [List.drop_eq_getElem_cons (by omega)]
        exact ⟨_, _, rfl⟩
      obtain ⟨x, xs, ex⟩ := hne
      rw [ex] at r3 ⊢
      have e4 : msg ++ joined sep (render spec vs[i] :: x :: xs) = msg ++ render spec vs[i] ++ sep ++ joined sep (x :: xs) := by
        simp only [joined, List.append_assoc]
      rw [e4]
      exact r3

/-- When the first element has no text. -/
theorem print_null (render : List Char → V → List Char) (ok : Nat → Bool) (spec sep : List Char) (vs : List V) (left : Nat) (b : Buf) (v : V) (hv : vs[0]? = some v)
    (hr : render spec v = []) : printArray render ok spec sep vs 0 (left + 1) none b = none := by
  rw [printArray, hv]
  simp only [Option.bind_eq_bind, Option.bind_some, hr]
  rfl

/-! ## Reading the specifier -/

theorem scan_shift : ∀ (cs : List Char) (o : Nat) (i : Info) (p : Nat), scan o i (p + 1) cs = (scan o i p cs).map fun r => (r.1 + 1, r.2)
  | [], _, _, _ => rfl
  | c :: cs, o, i, p => by
    rw [scan, scan]
    cases hs : step o i c with
    | next o' i' => exact scan_shift cs o' i' (p + 1)
    | stop e i' => simp only [Option.map_some]; congr 2; omega
    | skip i' => simp only [Option.map_some]; congr 2; omega
    | bad => rfl

theorem middle_head (s : Specifier) (h : s.WF) (hc : s.conv ≠ '%') (rest : List Char) : (s.middle ++ s.conv :: rest).head? ≠ some '%' := by
  rw [Specifier.middle]
  cases hf : s.flags with
  | cons c cs =>
    have := h.flags c (by rw [hf]; exact List.mem_cons_self)
    simp only [List.cons_append, List.head?_cons, ne_eq, Option.some.injEq]
    rintro rfl
    revert this; decide
  | nil =>
    cases hw : s.width with
    | digits ds =>
      obtain ⟨h1, -, h3⟩ := h.width ds hw
      cases ds with
      | nil => exact absurd rfl h1
      | cons d ds =>
        have := h3 d List.mem_cons_self
        simp only [Num.text, List.nil_append, List.cons_append, List.head?_cons, ne_eq, Option.some.injEq]
        rintro rfl
        revert this; rw [isDigit]; decide
    | star => simp [Num.text]
    | absent =>
      by_cases hp : s.precision = .absent
      · rw [if_pos hp]
        cases hl : s.length <;> simp [Num.text, Len.text, hc]
      · rw [if_neg hp]
        simp [Num.text]

theorem parse_inner (s : Specifier) (h : s.WF) (hc : s.conv ≠ '%') (hv : s.width.value < 2 ^ 31 ∧ s.precision.value < 2 ^ 31) (rest : List Char) :
    parse (s.middle ++ s.conv :: rest) = some (s.middle.length, s.info) := by
  have e := C85_read s h rest
  rw [if_pos hv] at e
  have e1 : s.text ++ rest = '%' :: (s.middle ++ s.conv :: rest) := by simp [Specifier.text]
  rw [e1, show parse ('%' :: (s.middle ++ s.conv :: rest)) = scan 0 {} 1 (s.middle ++ s.conv :: rest) from rfl, scan_shift] at e
  have e2 : parse (s.middle ++ s.conv :: rest) = scan 0 {} 0 (s.middle ++ s.conv :: rest) := by
    have hh := middle_head s h hc rest
    generalize s.middle ++ s.conv :: rest = cs at hh
    cases cs with
    | nil => rfl
    | cons c cs =>
      rw [parse]
      intro cs' he
      injection he with he _
      exact hh (by rw [he]; rfl)
  rw [e2]
  cases hs : scan 0 {} 0 (s.middle ++ s.conv :: rest) with
  | none => rw [hs] at e; cases e
  | some r =>
    rw [hs] at e
    simp only [Option.map_some, Option.some.injEq, Prod.mk.injEq] at e
    have hl : s.text.length - 1 = s.middle.length + 1 := by simp [Specifier.text]
    rw [hl] at e
    exact congrArg some (Prod.ext (by omega) e.2)

/-- The type of the elements that a specifier of C is for; `%f` is for `float`, since arguments are not promoted. -/
def typeOf (conv : Char) (l : Len) : Ty :=
  if conv ∈ ['d', 'i', 'o', 'u', 'x', 'X'] then
    match l with
    | .hh => .uchar | .h => .ushort | .l => .ulong | .ll => .ullong | .j => .uintmax | .z => .size | .t => .ptrdiff | _ => .uint
  else if conv ∈ ['f', 'F', 'e', 'E', 'g', 'G', 'a', 'A'] then
    match l with
    | .l => .double | .L => .ldouble | _ => .float
  else if conv = 'c' then
    match l with
    | .l => .wchar | _ => .uchar
  else .ptr

theorem element_type {conv : Char} (h : conv ∈ ['d', 'i', 'o', 'u', 'x', 'X', 'f', 'F', 'e', 'E', 'g', 'G', 'a', 'A', 'c', 's', 'p']) (l : Len) : elementType conv l.code = some (typeOf conv l) := by
  simp only [List.mem_cons, List.not_mem_nil, or_false] at h
  rcases h with rfl | rfl | rfl | rfl | rfl | rfl | rfl | rfl | rfl | rfl | rfl | rfl | rfl | rfl | rfl | rfl | rfl <;> cases l <;> decide

/-! ## Arrays -/

/-- What the specifier says, with the arguments: how many elements, and what is put between them. -/
def Means (s : ArraySpecifier) (n : Nat) (sep : List Char) : Prop :=
  (∀ ds, s.count = .digits ds → n = number ds) ∧ (s.sep = .comma → sep = [',', ' ']) ∧ (∀ t, s.sep = .text t → sep = t)

/-- The arguments before the array. -/
def before (s : ArraySpecifier) (n : Nat) (sep : List Char) : List (Arg V) :=
  (match s.count with | .star => [.size n] | _ => []) ++ (match s.sep with | .star => [.text sep] | _ => [])

theorem sizeNumber_eq {ds : List Char} (h : number ds < 2 ^ 64) : sizeNumber ds = number ds := by
  have key : ∀ (ds : List Char) (v : Nat), ds.foldl (fun n c => 10 * n + (c.toNat - '0'.toNat)) v < 2 ^ 64 →
      ds.foldl (fun n c => (n * 10 + digitVal c) % 2 ^ 64) v = ds.foldl (fun n c => 10 * n + (c.toNat - '0'.toNat)) v := by
    intro ds
    induction ds with
    | nil => intros; rfl
    | cons d ds ih =>
      intro v hv
      rw [List.foldl_cons, List.foldl_cons] at *
      have hle : 10 * v + (d.toNat - '0'.toNat) ≤ ds.foldl (fun n c => 10 * n + (c.toNat - '0'.toNat)) (10 * v + (d.toNat - '0'.toNat)) :=
        le_numFrom ds _
      rw [val_eq, Nat.mod_eq_of_lt (by omega)]
      exact ih _ hv
  exact key ds 0 h

/-- After the number of elements. -/
theorem separator_read (render : List Char → V → List Char) (ok : Nat → Bool) (s : ArraySpecifier) (hs : s.WF) (n : Nat) (sep : List Char) (hm : Means s n sep)
    (f : List Char) (at_ : Nat) (b : Buf) (args : List (Arg V)) :
    arraySeparator render ok n (s.sep.written ++ ']' :: f) at_ b ((match s.sep with | .star => [.text sep] | _ => []) ++ args) =
      arrayElements render ok n sep f (at_ + s.sep.written.length + 1) b args := by
  cases hsep : s.sep with
  | comma =>
    rw [hm.2.1 hsep]
    rfl
  | star => rfl
  | text t =>
    obtain ⟨h1, h2, h3, -⟩ := hs.sep t hsep
    rw [hm.2.2 t hsep]
    cases t with
    | nil => exact absurd rfl h1
    | cons c cs =>
      have hc1 : c ≠ ']' := fun h => h2 (by rw [h]; exact List.mem_cons_self)
      have hc2 : c ≠ '*' := fun h => h3 (by rw [h]; rfl)
      have hmem : ']' ∈ c :: (cs ++ ']' :: f) := by simp
      have htw : (c :: (cs ++ ']' :: f)).takeWhile (fun x => decide (x ≠ ']')) = c :: cs := by
        rw [← List.cons_append, List.takeWhile_append_of_pos (by
          intro x hx
          simp only [decide_eq_true_eq]
          rintro rfl; exact h2 hx)]
        simp
      rw [show Sep.written (.text (c :: cs)) = c :: cs from rfl, List.cons_append, arraySeparator, if_neg hc1, if_neg hc2, if_pos hmem, htw]
      dsimp only
      have hdrop : (c :: (cs ++ ']' :: f)).drop ((c :: cs).length + 1) = f := by
        rw [← List.cons_append, ← List.drop_drop, List.drop_left]; rfl
      rw [hdrop]
      rfl

/-- After the opening bracket. -/
theorem count_read (render : List Char → V → List Char) (ok : Nat → Bool) (s : ArraySpecifier) (hs : s.WF) (n : Nat) (sep : List Char) (hm : Means s n sep)
    (f : List Char) (b : Buf) (args : List (Arg V)) :
    arrayFilter render ok (['%', '['] ++ s.count.text ++ s.sep.written ++ [']'] ++ f) b (before s n sep ++ args) =
      arrayElements render ok n sep f ((['%', '['] ++ s.count.text ++ s.sep.written ++ [']']).length) b args := by
  have e : ['%', '['] ++ s.count.text ++ s.sep.written ++ [']'] ++ f = '%' :: '[' :: (s.count.text ++ (s.sep.written ++ ']' :: f)) := by simp
  rw [e, arrayFilter, before, List.append_assoc]
  cases hc : s.count with
  | star =>
    have := separator_read render ok s hs n sep hm f 3 b args
    simp only [Count.text, List.cons_append, List.nil_append, List.head?_cons, if_true, List.tail_cons, takeSize]
    rw [this]
    simp only [List.length_cons, List.length_append, List.length_nil]
    congr 1; omega
  | digits ds =>
    obtain ⟨h1, h2, h3⟩ := hs.count ds hc
    have hn : n = number ds := hm.1 ds hc
    cases ds with
    | nil => exact absurd rfl h1
    | cons d ds =>
      have hd : d ≠ '*' := by
        have := h2 d List.mem_cons_self
        rintro rfl
        revert this; rw [isDigit]; decide
      have hfd : ∀ c, (s.sep.written ++ ']' :: f).head? = some c → digit c = false := by
        intro c hh
        cases hsep : s.sep with
        | comma => rw [hsep] at hh; simp [Sep.written] at hh; subst hh; decide
        | star => rw [hsep] at hh; simp [Sep.written] at hh; subst hh; decide
        | text t =>
          obtain ⟨g1, -, -, g4⟩ := hs.sep t hsep
          rw [hsep] at hh
          cases t with
          | nil => exact absurd rfl g1
          | cons x xs =>
            have hx : ¬ isDigit c := g4 ⟨_, hc⟩ c hh
            exact Bool.eq_false_iff.2 (fun h => hx (digit_iff.1 h))
      have htw : ((d :: ds) ++ (s.sep.written ++ ']' :: f)).takeWhile digit = d :: ds := by
        rw [List.takeWhile_append_of_pos (fun c hc => digit_iff.2 (h2 c hc))]
        have : (s.sep.written ++ ']' :: f).takeWhile digit = [] := by
          generalize s.sep.written ++ ']' :: f = cs at hfd
          cases cs with
          | nil => rfl
          | cons c cs => rw [List.takeWhile_cons, if_neg (by rw [hfd c rfl]; decide)]
        rw [this, List.append_nil]
      have hh : ((Count.digits (d :: ds)).text ++ (s.sep.written ++ ']' :: f)).head? ≠ some '*' := by
        simp [Count.text, hd]
      dsimp only
      rw [if_neg hh, show (Count.digits (d :: ds)).text = d :: ds from rfl, htw, if_pos (by simp), List.drop_left, sizeNumber_eq h3, ← hn, List.nil_append,
        separator_read render ok s hs n sep hm f _ b args]
      congr 1
      simp only [List.length_cons, List.length_append, List.length_nil]

/-- The specifier, with the arguments it is for, whatever the array is. -/
theorem array_read (render : List Char → V → List Char) (ok : Nat → Bool) (s : ArraySpecifier) (hs : s.WF) (n : Nat) (sep : List Char) (hm : Means s n sep)
    (vs : List V) (rest : List Char) (b : Buf) (args : List (Arg V)) :
    arrayFilter render ok (s.text ++ rest) b (before s n sep ++ .array (typeOf s.inner.conv s.inner.length) vs :: args) =
      if n = 0 then some (s.text.length, b, .array (typeOf s.inner.conv s.inner.length) vs :: args)
      else if ok 0 = false then some (0, b, .array (typeOf s.inner.conv s.inner.length) vs :: args)
      else (printArray render ok s.inner.text sep vs 0 n none b).map fun b => (s.text.length, b, args) := by
  have hc : s.inner.conv ≠ '%' := by
    intro h
    have := hs.conv
    rw [h] at this
    revert this; decide
  have e : s.text ++ rest = ['%', '['] ++ s.count.text ++ s.sep.written ++ [']'] ++ (s.inner.middle ++ s.inner.conv :: rest) := by
    simp [ArraySpecifier.text]
  have hlen : s.text.length = (['%', '['] ++ s.count.text ++ s.sep.written ++ [']']).length + s.inner.middle.length + 1 := by
    simp [ArraySpecifier.text]; omega
  rw [e, count_read render ok s hs n sep hm, arrayElements, parse_inner s.inner hs.inner hc hs.small]
  simp only [Option.bind_eq_bind, Option.bind_some, ← hlen]
  by_cases hn : n = 0
  · rw [if_pos hn, if_pos hn]
  rw [if_neg hn, if_neg hn]
  by_cases h0 : ok 0 = false
  · rw [if_pos h0, if_pos h0]
  rw [if_neg h0, if_neg h0]
  have hg : (s.inner.middle ++ s.inner.conv :: rest)[s.inner.middle.length]? = some s.inner.conv := by simp
  have ht : '%' :: (s.inner.middle ++ s.inner.conv :: rest).take (s.inner.middle.length + 1) = s.inner.text := by
    rw [List.take_append, List.take_of_length_le (by omega), Nat.add_sub_cancel_left]
    simp [Specifier.text]
  have hl : s.inner.info.length = s.inner.length.code := rfl
  have hw : s.inner.info.widthArg = false ∧ s.inner.info.precisionArg = false := by
    refine ⟨?_, ?_⟩
    · show decide (s.inner.width = .star) = false
      simp [hs.noStar.1]
    · show decide (s.inner.precision = .star) = false
      simp [hs.noStar.2]
  rw [hg]
  dsimp only
  rw [hl, element_type hs.conv]
  dsimp only
  rw [if_neg (by simp [hw.1, hw.2]), ht]
  cases printArray render ok s.inner.text sep vs 0 n none b <;> rfl

/-- **C113.** `%[count{separator}]format` with an array of the type the format is for, of which the first element has some text: the texts of the elements are
written, with the separator between each and the next; the arguments it is for are taken, and the specifier, nothing else.  (Memory can be had; no text has a
terminator.) -/
theorem C113_array_partial (render : List Char → V → List Char) (s : ArraySpecifier) (hs : s.WF) (n : Nat) (sep : List Char) (hm : Means s n sep) (vs : List V)
    (h0 : n ≠ 0) (hn : n ≤ vs.length) (hfirst : ∀ v, vs.head? = some v → render s.inner.text v ≠ []) (hz : ∀ v ∈ vs, '\x00' ∉ render s.inner.text v)
    (hsep : '\x00' ∉ sep) (rest : List Char) (b : Buf) (msg : List Char) (h : Rep b msg) (args : List (Arg V)) :
    ∃ b', arrayFilter render (fun _ => true) (s.text ++ rest) b (before s n sep ++ .array (typeOf s.inner.conv s.inner.length) vs :: args) =
        some (s.text.length, b', args) ∧ Rep b' (msg ++ joined sep ((vs.take n).map (render s.inner.text))) := by
  rw [array_read render _ s hs n sep hm, if_neg h0, if_neg (by decide)]
  cases n with
  | zero => exact absurd rfl h0
  | succ n =>
    obtain ⟨b1, e1, r1⟩ := print_rep render s.inner.text sep vs hz hsep n 0 none b msg h (by omega) (fun _ v hv => hfirst v (by rw [← hv, List.head?_eq_getElem?]))
    rw [e1]
    exact ⟨b1, rfl, r1⟩

/-- **C113.** When there are no elements nothing is written, but the array stays among the arguments: the next specifier takes it. -/
theorem C113_empty_exact (render : List Char → V → List Char) (ok : Nat → Bool) (s : ArraySpecifier) (hs : s.WF) (sep : List Char) (hm : Means s 0 sep) (vs : List V)
    (rest : List Char) (b : Buf) (args : List (Arg V)) :
    arrayFilter render ok (s.text ++ rest) b (before s 0 sep ++ .array (typeOf s.inner.conv s.inner.length) vs :: args) =
      some (s.text.length, b, .array (typeOf s.inner.conv s.inner.length) vs :: args) := by
  rw [array_read render ok s hs 0 sep hm, if_pos rfl]

/-- **C113.** There is undefined behaviour just when the first element has no text. -/
theorem C113_null_exact (render : List Char → V → List Char) (s : ArraySpecifier) (hs : s.WF) (n : Nat) (sep : List Char) (hm : Means s n sep) (v : V) (vs : List V)
    (h0 : n ≠ 0) (hn : n ≤ (v :: vs).length) (hz : ∀ w ∈ v :: vs, '\x00' ∉ render s.inner.text w)
    (hsep : '\x00' ∉ sep) (rest : List Char) (b : Buf) (msg : List Char) (h : Rep b msg) (args : List (Arg V)) :
    arrayFilter render (fun _ => true) (s.text ++ rest) b (before s n sep ++ .array (typeOf s.inner.conv s.inner.length) (v :: vs) :: args) = none ↔
      render s.inner.text v = [] := by
  constructor
  · intro hnone
    apply Classical.byContradiction
    intro hne
    obtain ⟨b1, e, -⟩ := C113_array_partial render s hs n sep hm (v :: vs) h0 hn
      (fun w hw => by injection hw with hw; rw [← hw]; exact hne) hz hsep rest b msg h args
    rw [hnone] at e
    cases e
  · intro hr
    rw [array_read render _ s hs n sep hm, if_neg h0, if_neg (by decide)]
    cases n with
    | zero => exact absurd rfl h0
    | succ n => rw [print_null render _ _ sep (v :: vs) n b v rfl hr]; rfl

/-- **C113.** In a message that `CCLogv` composes. -/
theorem C113_message_partial (render : List Char → V → List Char) (printf : List Char → List (Arg V) → List Char) (std : Specifier → List (Arg V) → List Char)
    (hlaw : PrintfLaw printf std) (tag : List Char) (file func : Option (List Char)) (line : BitVec 32) (lit after : List Char) (hlit : '%' ∉ lit) (hafter : '%' ∉ after)
    (s : ArraySpecifier) (hs : s.WF) (n : Nat) (sep : List Char) (hm : Means s n sep) (vs : List V)
    (h0 : n ≠ 0) (hn : n ≤ vs.length) (hfirst : ∀ v, vs.head? = some v → render s.inner.text v ≠ []) (hz : ∀ v ∈ vs, '\x00' ∉ render s.inner.text v)
    (hsep : '\x00' ∉ sep) (args : List (Arg V)) :
    ∃ b, composeFilters [arrayFilter render (fun _ => true)] printf tag file func line (lit ++ s.text ++ after)
        (before s n sep ++ .array (typeOf s.inner.conv s.inner.length) vs :: args) = some b ∧
      Rep b (prefixText tag file func line ++ lit ++ joined sep ((vs.take n).map (render s.inner.text)) ++ after) ∧ Terminated b := by
  have := C88_filters_partial [arrayFilter render (fun _ => true)] printf std
    (fun _ msg _ => (msg ++ joined sep ((vs.take n).map (render s.inner.text)), args)) hlaw tag file func line lit [.custom s.text after]
    (before s n sep ++ .array (typeOf s.inner.conv s.inner.length) vs :: args) hlit ?_ ?_
  · simpa only [format, List.map_cons, List.map_nil, List.flatten_cons, List.flatten_nil, List.append_nil, Piece.text, List.append_assoc, expand] using this
  · intro p hp
    rw [List.mem_singleton] at hp
    subst hp
    exact ⟨rfl, hafter⟩
  · refine ⟨?_, trivial⟩
    intro rest b hb
    obtain ⟨b1, e1, r1⟩ := C113_array_partial render s hs n sep hm vs h0 hn hfirst hz hsep rest b _ hb args
    refine ⟨b1, ?_, r1⟩
    rw [runFilters, e1]
    simp only [Option.bind_eq_bind, Option.bind_some]
    rw [if_neg (by simp [ArraySpecifier.text])]

/-! ## Deletion, strings, characters -/

/-- **C114.** `%DEL`, `%{count}DEL`: the last characters of the message are removed, as many as the count says (one if there is none), or all of them. -/
theorem C114_deletion (c : Option Count) (n : Nat) (hc : ∀ ds, c = some (.digits ds) → ds ≠ [] ∧ (∀ d ∈ ds, isDigit d) ∧ number ds < 2 ^ 64 ∧ n = number ds)
    (h1 : c = none → n = 1) (rest : List Char) (b : Buf) (msg : List Char) (h : Rep b msg) (args : List (Arg V)) :
    ∃ b', deletionFilter (deletionText c ++ rest) b ((match c with | some .star => [.size n] | _ => []) ++ args) =
        some ((deletionText c).length, b', args) ∧ Rep b' (msg.take (msg.length - n)) := by
  obtain ⟨b1, e1, r1, -⟩ := remove_rep h n
  refine ⟨b1, ?_, r1⟩
  cases c with
  | none =>
    rw [h1 rfl] at e1
    show (do let b ← remove b 1; some (4, b, args) : Option (Nat × Buf × List (Arg V))) = _
    rw [e1]; rfl
  | some c =>
    cases c with
    | star =>
      show (do let b ← remove b n; some (5, b, args) : Option (Nat × Buf × List (Arg V))) = _
      rw [e1]; rfl
    | digits ds =>
      obtain ⟨g1, g2, g3, g4⟩ := hc ds rfl
      have e : deletionText (some (.digits ds)) ++ rest = '%' :: (ds ++ 'D' :: 'E' :: 'L' :: rest) := by simp [deletionText, Count.text]
      have hh : (ds ++ 'D' :: 'E' :: 'L' :: rest).head? ≠ some '*' := by
        cases ds with
        | nil => exact absurd rfl g1
        | cons d ds =>
          have := g2 d List.mem_cons_self
          simp only [List.cons_append, List.head?_cons, ne_eq, Option.some.injEq]
          rintro rfl
          revert this; rw [isDigit]; decide
      have htw : (ds ++ 'D' :: 'E' :: 'L' :: rest).takeWhile digit = ds := by
        rw [List.takeWhile_append_of_pos (fun c hc => digit_iff.2 (g2 c hc)), List.takeWhile_cons, if_neg (by decide), List.append_nil]
      have hlen : ds.length ≠ 0 := fun h => g1 (List.length_eq_zero_iff.1 h)
      rw [e, deletionFilter]
      dsimp only
      rw [if_neg hh, htw, List.drop_left, if_pos (show List.take 3 ('D' :: 'E' :: 'L' :: rest) = ['D', 'E', 'L'] from rfl), if_neg hlen, sizeNumber_eq g3, ← g4, e1]
      simp only [Option.bind_eq_bind, Option.bind_some, List.nil_append, deletionText, Count.text, List.length_append, List.length_cons, List.length_nil]

theorem no_D (s : Specifier) (h : s.WF) : 'D' ∉ s.middle := by
  intro hd
  simp only [Specifier.middle, List.mem_append] at hd
  rcases hd with ((hd | hd) | hd) | hd
  · have := h.flags _ hd
    revert this; decide
  · cases hw : s.width with
    | absent => rw [hw] at hd; cases hd
    | star => rw [hw] at hd; revert hd; decide
    | digits ds =>
      rw [hw] at hd
      have := (h.width ds hw).2.2 _ hd
      revert this; rw [isDigit]; decide
  · by_cases hp : s.precision = .absent
    · rw [if_pos hp] at hd; cases hd
    · rw [if_neg hp, List.mem_cons] at hd
      rcases hd with hd | hd
      · revert hd; decide
      · cases hw : s.precision with
        | absent => exact absurd hw hp
        | star => rw [hw] at hd; revert hd; decide
        | digits ds =>
          rw [hw] at hd
          have := h.precision ds hw _ hd
          revert this; rw [isDigit]; decide
  · cases hl : s.length <;> rw [hl] at hd <;> revert hd <;> decide

theorem drop_digits (m : List Char) (c : Char) (rest : List Char) (hm : 'D' ∉ m) (hc : c ≠ 'D') (hd : digit c = false) :
    ((m ++ c :: rest).drop ((m ++ c :: rest).takeWhile digit).length).head? ≠ some 'D' := by
  induction m with
  | nil =>
    rw [List.nil_append, List.takeWhile_cons, if_neg (by rw [hd]; decide)]
    simp [hc]
  | cons x xs ih =>
    rw [List.cons_append, List.takeWhile_cons]
    split
    · exact ih (fun h => hm (List.mem_cons_of_mem _ h))
    · simp only [List.length_nil, List.drop_zero, List.head?_cons, ne_eq, Option.some.injEq]
      rintro rfl
      exact hm List.mem_cons_self

theorem middle_star (s : Specifier) (h : s.WF) (rest : List Char) : (s.middle ++ s.conv :: rest).head? = some '*' ↔ s.flags = [] ∧ s.width = .star := by
  have hconv : s.conv ≠ '*' := by
    intro hc
    have := h.conv
    rw [hc] at this
    exact this (by decide)
  rw [Specifier.middle]
  cases hf : s.flags with
  | cons c cs =>
    have := h.flags c (by rw [hf]; exact List.mem_cons_self)
    simp only [List.cons_append, List.head?_cons, Option.some.injEq, reduceCtorEq, false_and, iff_false]
    rintro rfl
    revert this; decide
  | nil =>
    cases hw : s.width with
    | digits ds =>
      obtain ⟨h1, -, h3⟩ := h.width ds hw
      cases ds with
      | nil => exact absurd rfl h1
      | cons d ds =>
        have := h3 d List.mem_cons_self
        simp only [Num.text, List.nil_append, List.cons_append, List.head?_cons, Option.some.injEq, reduceCtorEq, and_false, iff_false]
        rintro rfl
        revert this; rw [isDigit]; decide
    | star => simp [Num.text]
    | absent =>
      by_cases hp : s.precision = .absent
      · rw [if_pos hp]
        cases hl : s.length <;> simp [Num.text, Len.text, hconv]
      · rw [if_neg hp]
        simp [Num.text]

/-- **C114.** Of the other specifiers, deletion takes nothing, and it leaves the message and the arguments alone, except that it takes the argument of a width `*`
without flags. -/
theorem C114_others_exact (s : Specifier) (h : s.WF) (hD : s.conv ≠ 'D') (rest : List Char) (b : Buf) (args : List (Arg V)) :
    deletionFilter (s.text ++ rest) b args =
      if s.flags = [] ∧ s.width = .star then (match args with | .size _ :: args => some (0, b, args) | _ => none) else some (0, b, args) := by
  have hdig : digit s.conv = false := by
    apply Bool.eq_false_iff.2
    intro hd
    have := digit_iff.1 hd
    apply h.conv
    rw [isDigit] at this
    rw [reserved]
    revert this
    simp only [List.mem_cons, List.not_mem_nil, or_false]
    intro this
    rcases this with h | h | h | h | h | h | h | h | h | h <;> simp [h]
  have e1 : s.text ++ rest = '%' :: (s.middle ++ s.conv :: rest) := by simp [Specifier.text]
  have hne : ∀ (cs : List Char), cs.head? ≠ some 'D' → cs.take 3 ≠ ['D', 'E', 'L'] := by
    intro cs h1 h2
    apply h1
    cases cs with
    | nil => cases h2
    | cons c cs => rw [List.take_succ_cons] at h2; injection h2 with h2; rw [h2]; rfl
  rw [e1, deletionFilter]
  dsimp only
  by_cases hst : s.flags = [] ∧ s.width = .star
  · rw [if_pos hst, if_pos ((middle_star s h rest).2 hst)]
    have hm : (s.middle ++ s.conv :: rest).tail.head? ≠ some 'D' := by
      cases hmid : s.middle with
      | nil => rw [Specifier.middle, hst.1, hst.2] at hmid; cases hmid
      | cons x xs =>
        have hno := no_D s h
        rw [hmid] at hno
        cases xs with
        | nil => simp [hD]
        | cons y ys =>
          simp only [List.cons_append, List.tail_cons, List.head?_cons, ne_eq, Option.some.injEq]
          rintro rfl
          exact hno (by simp)
    cases args with
    | nil => rfl
    | cons a args =>
      cases a with
      | size n => exact if_neg (hne _ hm)
      | _ => rfl
  · rw [if_neg hst, if_neg (fun hh => hst ((middle_star s h rest).1 hh)), if_neg (hne _ (drop_digits _ _ _ (no_D s h) hD hdig))]

/-- **C114.** `%S`: the characters of the string, whether it has a buffer or not, but from a terminator on only terminators; `(null)` if there is no string. -/
theorem C114_string_exact (s : Option (Bool × List Char)) (rest : List Char) (b : Buf) (msg : List Char) (h : Rep b msg) (args : List (Arg V)) :
    ∃ b', stringFilter true (['%', 'S'] ++ rest) b (.string s :: args) = some (2, b', args) ∧
      Rep b' (msg ++ match s with
        | none => ['(', 'n', 'u', 'l', 'l', ')']
        | some (_, t) => t.takeWhile (· ≠ '\x00') ++ List.replicate (t.length - (t.takeWhile (· ≠ '\x00')).length) '\x00') := by
  rw [stringFilter, if_pos (show List.take 2 (['%', 'S'] ++ rest) = ['%', 'S'] from rfl), takeString]
  cases s with
  | none =>
    obtain ⟨b1, e, r, -⟩ := write_rep h "(null)".toList
    exact ⟨b1, by simp only [put, stringText, e, Option.map_some, Option.bind_eq_bind, Option.bind_some], r⟩
  | some s =>
    obtain ⟨tagged, t⟩ := s
    obtain ⟨b1, e, r, -⟩ := write_rep h t
    cases tagged <;> exact ⟨b1, by simp only [put, stringText, e, Option.map_some, Option.bind_eq_bind, Option.bind_some, if_true], r⟩

/-- **C114.** `%S` of a string without terminators. -/
theorem C114_string_partial (tagged : Bool) (t : List Char) (ht : '\x00' ∉ t) (rest : List Char) (b : Buf) (msg : List Char) (h : Rep b msg) (args : List (Arg V)) :
    ∃ b', stringFilter true (['%', 'S'] ++ rest) b (.string (some (tagged, t)) :: args) = some (2, b', args) ∧ Rep b' (msg ++ t) := by
  obtain ⟨b1, e, r⟩ := C114_string_exact (some (tagged, t)) rest b msg h args
  refine ⟨b1, e, ?_⟩
  have := strncpy_eq ht
  rw [strncpy] at this
  dsimp only at r
  rw [this] at r
  exact r

/-- **C114.** `%C`: the character, or its number after a backslash if it cannot be written. -/
theorem C114_char (encode : Nat → Option (List Char)) (c : Nat) (hz : ∀ t, encode c = some t → '\x00' ∉ t) (rest : List Char) (b : Buf) (msg : List Char) (h : Rep b msg)
    (args : List (Arg V)) :
    ∃ b', charFilter encode true (['%', 'C'] ++ rest) b (.char c :: args) = some (2, b', args) ∧
      Rep b' (msg ++ if encode c = none ∨ encode c = some [] then '\\' :: (toString c).toList else (encode c).getD []) := by
  have hdec : '\x00' ∉ '\\' :: (toString c).toList := by
    intro h0
    rcases List.mem_cons.1 h0 with h0 | h0
    · revert h0; decide
    · have : ('\x00' : Char).isDigit = true := by
        have e : (toString c).toList = Nat.toDigits 10 c := by
          show (Nat.repr c).toList = _
          simp [Nat.repr]
        rw [e] at h0
        exact Nat.isDigit_of_mem_toDigits (by decide) (by decide) h0
      revert this; decide
  rw [charFilter, if_pos (show List.take 2 (['%', 'C'] ++ rest) = ['%', 'C'] from rfl), takeChar]
  have key : ∀ out, charText encode c = out → '\x00' ∉ out → ∃ b', (do let b ← put b (if true then charText encode c else "(write failure)".toList); some (2, b, args) : Option (Nat × Buf × List (Arg V))) =
      some (2, b', args) ∧ Rep b' (msg ++ out) := by
    intro out ho hzo
    obtain ⟨b1, e, r⟩ := put_rep h hzo
    exact ⟨b1, by simp only [ho, e, Option.bind_eq_bind, Option.bind_some, if_true], r⟩
  cases hx : encode c with
  | none =>
    rw [if_pos (show (none : Option (List Char)) = none ∨ (none : Option (List Char)) = some [] from .inl rfl)]
    exact key _ (by rw [charText, hx]) hdec
  | some t =>
    cases t with
    | nil =>
      rw [if_pos (show (some [] : Option (List Char)) = none ∨ (some [] : Option (List Char)) = some [] from .inr rfl)]
      exact key _ (by rw [charText, hx]) hdec
    | cons x xs =>
      rw [if_neg (show ¬ (some (x :: xs) = none ∨ some (x :: xs) = some []) from by simp)]
      exact key (x :: xs) (by rw [charText, hx]) (hz _ hx)

/-! ## All of them together -/

theorem run_one (fs : List (Filter (Arg V))) (f0 : Filter (Arg V)) (spec : List Char) (b : Buf) (args : List (Arg V)) (hmem : f0 ∈ fs)
    (hall : ∀ f ∈ fs, f = f0 ∨ f spec b args = some (0, b, args)) (htake : ∀ b' a', f0 spec b args ≠ some (0, b', a')) :
    runFilters fs spec b args = f0 spec b args := by
  induction fs with
  | nil => cases hmem
  | cons f fs ih =>
    rw [runFilters]
    rcases hall f List.mem_cons_self with rfl | he
    · cases hr : f spec b args with
      | none => rfl
      | some r =>
        obtain ⟨n, b', a'⟩ := r
        have hn : n ≠ 0 := by
          rintro rfl
          exact htake b' a' hr
        simp only [Option.bind_eq_bind, Option.bind_some, if_neg hn]
    · rcases List.mem_cons.1 hmem with rfl | hm
      · exact absurd he (htake _ _)
      · rw [he]
        simp only [Option.bind_eq_bind, Option.bind_some, if_true]
        exact ih hm (fun g hg => hall g (List.mem_cons_of_mem _ hg))

/-- **C114.** The four filters, or some of them, in any order: each specifier is handled by its own filter as if there were no others. -/
theorem C114_any_order (render : List Char → V → List Char) (ok : Nat → Bool) (encode : Nat → Option (List Char)) (ok1 ok2 : Bool) (fs : List (Filter (Arg V)))
    (hfs : ∀ f ∈ fs, f ∈ [arrayFilter render ok, deletionFilter, stringFilter ok1, charFilter encode ok2]) (spec : List Char) (b : Buf) (args : List (Arg V)) :
    (spec.take 2 = ['%', '['] → arrayFilter render ok ∈ fs → (∀ b' a', arrayFilter render ok spec b args ≠ some (0, b', a')) →
      runFilters fs spec b args = arrayFilter render ok spec b args) ∧
    (spec.take 2 = ['%', 'S'] → stringFilter ok1 ∈ fs → (∀ b' a', stringFilter ok1 spec b args ≠ some (0, b', a')) →
      runFilters fs spec b args = stringFilter ok1 spec b args) ∧
    (spec.take 2 = ['%', 'C'] → charFilter encode ok2 ∈ fs → (∀ b' a', charFilter encode ok2 spec b args ≠ some (0, b', a')) →
      runFilters fs spec b args = charFilter encode ok2 spec b args) ∧
    (∀ b' n a', deletionFilter spec b args = some (n, b', a') → n ≠ 0 → deletionFilter ∈ fs → runFilters fs spec b args = some (n, b', a')) := by
  have two : ∀ c, spec.take 2 = ['%', c] → ∃ f, spec = '%' :: c :: f := by
    intro c h
    match spec, h with
    | x :: y :: f, h =>
      simp only [List.take_succ_cons, List.take_zero, List.cons.injEq, and_true] at h
      exact ⟨f, by rw [h.1, h.2]⟩
  have hdel : ∀ c f, spec = '%' :: c :: f → c ≠ '*' → c ≠ 'D' → digit c = false → deletionFilter spec b args = some (0, b, args) := by
    intro c f h h1 h2 h3
    rw [h, deletionFilter]
    dsimp only
    have e : (c :: f).takeWhile digit = [] := by rw [List.takeWhile_cons, h3]; rfl
    rw [if_neg (by simp [h1]), e, if_neg (by simp [h2])]
  have harr : ∀ c f, spec = '%' :: c :: f → c ≠ '[' → arrayFilter render ok spec b args = some (0, b, args) := by
    intro c f h h1
    rw [h, arrayFilter]
    intro f' he
    injection he with _ he
    injection he with he
    exact h1 he
  have hstr : spec.take 2 ≠ ['%', 'S'] → stringFilter ok1 spec b args = some (0, b, args) := fun h => if_neg h
  have hchr : spec.take 2 ≠ ['%', 'C'] → charFilter encode ok2 spec b args = some (0, b, args) := fun h => if_neg h
  refine ⟨?_, ?_, ?_, ?_⟩
  · intro h hm ht
    obtain ⟨f, hf⟩ := two _ h
    refine run_one fs _ spec b args hm (fun g hg => ?_) ht
    have := hfs g hg
    simp only [List.mem_cons, List.not_mem_nil, or_false] at this
    rcases this with rfl | rfl | rfl | rfl
    · exact .inl rfl
    · exact .inr (hdel _ _ hf (by decide) (by decide) (by decide))
    · exact .inr (hstr (by rw [h]; decide))
    · exact .inr (hchr (by rw [h]; decide))
  · intro h hm ht
    obtain ⟨f, hf⟩ := two _ h
    refine run_one fs _ spec b args hm (fun g hg => ?_) ht
    have := hfs g hg
    simp only [List.mem_cons, List.not_mem_nil, or_false] at this
    rcases this with rfl | rfl | rfl | rfl
    · exact .inr (harr _ _ hf (by decide))
    · exact .inr (hdel _ _ hf (by decide) (by decide) (by decide))
    · exact .inl rfl
    · exact .inr (hchr (by rw [h]; decide))
  · intro h hm ht
    obtain ⟨f, hf⟩ := two _ h
    refine run_one fs _ spec b args hm (fun g hg => ?_) ht
    have := hfs g hg
    simp only [List.mem_cons, List.not_mem_nil, or_false] at this
    rcases this with rfl | rfl | rfl | rfl
    · exact .inr (harr _ _ hf (by decide))
    · exact .inr (hdel _ _ hf (by decide) (by decide) (by decide))
    · exact .inr (hstr (by rw [h]; decide))
    · exact .inl rfl
  · intro b' n a' he hn hm
    rw [← he]
    have hshape : ∃ c f, spec = '%' :: c :: f ∧ (c = '*' ∨ c = 'D' ∨ digit c = true) := by
      have hcase : (∃ c f, spec = '%' :: c :: f) ∨ ¬ ∃ c f, spec = '%' :: c :: f := Classical.em _
      rcases hcase with ⟨c, f, hf⟩ | hno
      · refine ⟨c, f, hf, ?_⟩
        apply Classical.byContradiction
        intro hc
        simp only [not_or] at hc
        have := hdel c f hf hc.1 hc.2.1 (by simpa using hc.2.2)
        rw [he] at this
        injection this with this
        injection this with this
        exact hn this
      · exfalso
        have hz : deletionFilter spec b args = some (0, b, args) := by
          match spec, hno with
          | [], _ => rfl
          | [x], _ =>
            by_cases hx : x = '%'
            · subst hx; rfl
            · rw [deletionFilter]
              intro f hf
              injection hf with hf
              exact hx hf
          | x :: y :: f, hno =>
            have hx : x ≠ '%' := by
              rintro rfl
              exact hno ⟨y, f, rfl⟩
            rw [deletionFilter]
            intro f hf
            injection hf with hf
            exact hx hf
        rw [he] at hz
        injection hz with hz
        injection hz with hz
        exact hn hz
    obtain ⟨c, f, hf, hc⟩ := hshape
    have hc1 : c ≠ '[' ∧ c ≠ 'S' ∧ c ≠ 'C' := by
      refine ⟨?_, ?_, ?_⟩ <;> rintro rfl <;> revert hc <;> decide
    refine run_one fs _ spec b args hm (fun g hg => ?_) (fun b2 a2 h2 => ?_)
    · have := hfs g hg
      simp only [List.mem_cons, List.not_mem_nil, or_false] at this
      rcases this with rfl | rfl | rfl | rfl
      · exact .inr (harr _ _ hf hc1.1)
      · exact .inl rfl
      · exact .inr (hstr (by rw [hf]; simp [hc1.2.1]))
      · exact .inr (hchr (by rw [hf]; simp [hc1.2.2]))
    · rw [he] at h2
      injection h2 with h2
      injection h2 with h2
      exact hn h2

/-! ## What goes wrong -/

/-- A `printf` that shows what it is given: a number, or an address. -/
def demo (chunk : List Char) (args : List (Arg Nat)) : List Char :=
  (match args.head? with
    | some (.size n) => (toString n).toList
    | some (.array _ _) => "address".toList
    | _ => []) ++ chunk.drop 2

/-- `snprintf` of numbers; with precision `0` the number `0` has no text. -/
def demoRender (spec : List Char) (n : Nat) : List Char := if spec = "%.0u".toList ∧ n = 0 then [] else (toString n).toList

def shown (r : Option Buf) : Option (List (Option Char)) := r.map fun b => b.mem.take b.len

/-- **C113.** An array without elements: the next specifier shows the address of the array, and not its own argument. -/
theorem C113_empty_refuted :
    shown (composeFilters [arrayFilter demoRender (fun _ => true)] demo "Info".toList none none 0 "%[*]u then %d".toList [.size 2, .array .uint [5, 6], .size 7]) =
      some ("Info: 5, 6 then 7".toList.map some) ∧
    shown (composeFilters [arrayFilter demoRender (fun _ => true)] demo "Info".toList none none 0 "%[*]u then %d".toList [.size 0, .array .uint [5, 6], .size 7]) =
      some ("Info:  then address".toList.map some) := by
  decide +kernel

/-- **C113.** A first element without text: a terminator is put through `NULL`.  Not so when it is a later one. -/
theorem C113_null_refuted :
    composeFilters [arrayFilter demoRender (fun _ => true)] demo "Info".toList none none 0 "%[2].0u".toList [.array .uint [0, 6]] = none ∧
    shown (composeFilters [arrayFilter demoRender (fun _ => true)] demo "Info".toList none none 0 "%[2].0u".toList [.array .uint [6, 0]]) =
      some ("Info: 6, ".toList.map some) := by
  decide +kernel

/-- **C113.** A format that ends before the conversion: what is after its terminator is read. -/
theorem C113_end_refuted :
    arrayFilter demoRender (fun _ => true) "%[2]".toList ⟨[none], 0, 0⟩ [.array .uint [0, 6]] = some (5, ⟨[none], 0, 0⟩, []) ∧
    composeFilters [arrayFilter demoRender (fun _ => true)] demo "Info".toList none none 0 "%[2]".toList [.array .uint [0, 6]] = none := by
  decide +kernel

/-- **C113.** Memory that cannot be had for the text of an element: there are terminators in the message. -/
theorem C113_memory_refuted :
    shown (composeFilters [arrayFilter demoRender (fun i => i ≠ 2)] demo "Info".toList none none 0 "%[2]u".toList [.array .uint [5, 678]]) =
      some ("Info: 5, 6\x00\x00".toList.map some) := by
  decide +kernel

/-- **C114.** With deletion among the filters, a width that is an argument is lost: `%*d` gets what follows it. -/
theorem C114_star_refuted :
    shown (composeFilters [stringFilter true] demo "Info".toList none none 0 "%*d".toList [.size 5, .size 7]) = some ("Info: 5d".toList.map some) ∧
    shown (composeFilters [deletionFilter] demo "Info".toList none none 0 "%*d".toList [.size 5, .size 7]) = some ("Info: 7d".toList.map some) := by
  decide +kernel

/-- **C114.** What follows a terminator in a string is lost. -/
theorem C114_string_refuted :
    shown (composeFilters [stringFilter true] demo "Info".toList none none 0 "%S".toList [.string (some (false, "a\x00b".toList))]) =
      some ("Info: a\x00\x00".toList.map some) := by
  decide +kernel

/-! ## Examples -/

/-- The hypotheses of C113 hold for `%[3 | ]hhu`. -/
example : ({ count := .digits ['3'], sep := .text [' ', '|', ' '], inner := { length := .hh, conv := 'u' } } : ArraySpecifier).WF := by
  refine ⟨?_, ?_, ⟨?_, ?_, ?_, ?_⟩, ⟨?_, ?_⟩, ⟨?_, ?_⟩, ?_⟩
  · intro ds h; cases h; simp [isDigit]; decide
  · intro t h; cases h; simp [isDigit]
  · intro c h; cases h
  · intro ds h; cases h
  · intro ds h; cases h
  · decide
  · decide
  · decide
  · decide
  · decide
  · decide

example : ({ count := .digits ['3'], sep := .text [' ', '|', ' '], inner := { length := .hh, conv := 'u' } } : ArraySpecifier).text = "%[3 | ]hhu".toList := by decide +kernel

example : shown (composeFilters [arrayFilter demoRender (fun _ => true), deletionFilter, stringFilter true, charFilter (fun _ => none) true] demo "Info".toList none none 0
    "%[3 | ]hhu.%DEL %S%*DEL%C".toList [.array .uchar [5, 66, 7], .string (some (true, "abcd".toList)), .size 2, .char 233]) =
      some ("Info: 5 | 66 | 7 ab\\233".toList.map some) := by decide +kernel

#print axioms C113_array_partial
#print axioms C113_empty_exact
#print axioms C113_null_exact
#print axioms C113_message_partial
#print axioms C114_deletion
#print axioms C114_others_exact
#print axioms C114_string_exact
#print axioms C114_string_partial
#print axioms C114_char
#print axioms C114_any_order

end Verif.CustomFmt
