import Verif.SysInfo
/-!
# C137: the system version, its literal, and the stripped process name
-/
namespace Verif.SysInfo

/-- The number a list of digits stands for. -/
def value (ds : List Nat) : Nat := ds.foldl (fun v d => v * 10 + d) 0

/-- The characters of a list of digits. -/
def chars (ds : List Nat) : List Nat := ds.map (· + 48)

theorem foldl_mono (ds : List Nat) (v : Nat) : v ≤ ds.foldl (fun v d => v * 10 + d) v := by
  induction ds generalizing v with
  | nil => exact Nat.le_refl _
  | cons d ds ih => exact Nat.le_trans (by omega) (ih (v * 10 + d))

theorem parse_digits (ds : List Nat) (hd : ∀ d ∈ ds, d < 10) : ∀ (idx : Nat) (vals : List Nat) (v : Nat) (rest : List Nat), vals[idx]? = some v →
    ds.foldl (fun v d => v * 10 + d) v < 2 ^ 32 → parse idx vals (chars ds ++ rest) = parse idx (vals.set idx (ds.foldl (fun v d => v * 10 + d) v)) rest := by
  induction ds with
  | nil =>
    intro idx vals v rest hv _
    have hl := List.getElem?_eq_some_iff.1 hv
    have : vals.set idx v = vals := by rw [← hl.2]; exact List.set_getElem_self hl.1
    simp [chars, this]
  | cons d ds ih =>
    intro idx vals v rest hv hlt
    have hl := (List.getElem?_eq_some_iff.1 hv).1
    have hm := foldl_mono ds (v * 10 + d)
    have hd' := hd d (List.mem_cons_self)
    simp only [List.foldl_cons] at hlt
    have e : (v * 10 + (d + 48) + (2 ^ 32 - 48)) % 2 ^ 32 = v * 10 + d := by omega
    have h := ih (fun x hx => hd x (List.mem_cons_of_mem _ hx)) idx (vals.set idx (v * 10 + d)) (v * 10 + d) rest (by simp [hl]) hlt
    simp only [chars, List.map_cons, List.cons_append, parse]
    rw [if_neg (by omega), hv]
    simp only [e]
    simp only [chars] at h
    rw [h, List.set_set]
    rfl

/-- **C137, version.**  A version string of three numbers is read as those numbers, and numbers that are left out are 0. -/
theorem C137_version (a b c : List Nat) (ha : ∀ d ∈ a, d < 10) (hb : ∀ d ∈ b, d < 10) (hc : ∀ d ∈ c, d < 10) (va : value a < 2 ^ 32) (vb : value b < 2 ^ 32) (vc : value c < 2 ^ 32) :
    version (chars a) = some (value a, 0, 0) ∧
    version (chars a ++ 46 :: chars b) = some (value a, value b, 0) ∧
    version (chars a ++ 46 :: (chars b ++ 46 :: chars c)) = some (value a, value b, value c) := by
  refine ⟨?_, ?_, ?_⟩
  · have h := parse_digits a ha 0 zeros 0 [] rfl va
    simp only [List.append_nil] at h
    simp only [version, h]
    rfl
  · have h := parse_digits a ha 0 zeros 0 (46 :: chars b) rfl va
    have h2 := parse_digits b hb 1 [value a, 0, 0] 0 [] rfl vb
    simp only [List.append_nil] at h2
    simp only [version, h, parse, if_true]
    change (match parse 1 [value a, 0, 0] (chars b) with | some [a, b, c] => some (a, b, c) | _ => none) = _
    rw [h2]
    rfl
  · have h := parse_digits a ha 0 zeros 0 (46 :: (chars b ++ 46 :: chars c)) rfl va
    have h2 := parse_digits b hb 1 [value a, 0, 0] 0 (46 :: chars c) rfl vb
    have h3 := parse_digits c hc 2 [value a, value b, 0] 0 [] rfl vc
    simp only [List.append_nil] at h3
    simp only [version, h, parse, if_true]
    change (match parse 1 [value a, 0, 0] (chars b ++ 46 :: chars c) with | some [a, b, c] => some (a, b, c) | _ => none) = _
    rw [h2]
    simp only [parse, if_true]
    change (match parse 2 [value a, value b, 0] (chars c) with | some [a, b, c] => some (a, b, c) | _ => none) = _
    rw [h3]
    rfl

/-- Is there a character other than a dot after the first `n` dots? -/
def after (n : Nat) : List Nat → Bool
  | [] => false
  | c :: cs => if c = 46 then after (n - 1) cs else n == 0 || after n cs

theorem parse_none (s : List Nat) : ∀ (idx : Nat) (vals : List Nat), vals.length = 3 → idx ≤ 3 → ((parse idx vals s = none ↔ after (3 - idx) s = true) ∧ ∀ l, parse idx vals s = some l → l.length = 3) := by
  induction s with
  | nil => exact fun idx vals h _ => ⟨by simp [parse, after], fun l hl => by simp [parse] at hl; rw [← hl]; exact h⟩
  | cons c s ih =>
    intro idx vals h hi
    unfold parse after
    by_cases hc : c = 46
    · simp only [hc, if_true]
      by_cases h3 : idx = 3
      · subst h3
        have key : ∀ (t : List Nat) (k : Nat), 3 ≤ k → parse k vals t = parse 3 vals t := by
          intro t
          induction t with
          | nil => intros; rfl
          | cons d t iht =>
            intro k hk
            unfold parse
            by_cases hd : d = 46
            · simp only [hd, if_true]
              rw [iht (k + 1) (by omega), iht (3 + 1) (by omega)]
            · simp only [hd, if_false]
              rw [List.getElem?_eq_none (by omega), List.getElem?_eq_none (by omega)]
        rw [key s 4 (by omega)]
        exact ih 3 vals h hi
      · have := ih (idx + 1) vals h (by omega)
        rw [show 3 - (idx + 1) = 3 - idx - 1 by omega] at this
        exact this
    · simp only [hc, if_false]
      by_cases h3 : idx = 3
      · subst h3
        rw [List.getElem?_eq_none (by omega)]
        simp
      · rw [List.getElem?_eq_getElem (show idx < vals.length by omega)]
        have := ih idx (vals.set idx ((vals[idx] * 10 + c + (2 ^ 32 - 48)) % 2 ^ 32)) (by simp [h]) hi
        have e : (3 - idx == 0) = false := by simp; omega
        simp only [e, Bool.false_or]
        exact this

/-- **C137, version, exact.**  There is a write outside of the array exactly if a character other than a dot follows the third dot. -/
theorem C137_version_fault (s : List Nat) : version s = none ↔ after 3 s = true := by
  have h := parse_none s 0 zeros rfl (by omega)
  unfold version
  constructor
  · intro hn
    split at hn
    · simp at hn
    · rename_i hx
      rcases e : parse 0 zeros s with _ | l
      · exact h.1.1 e
      · have hl := h.2 l e
        rcases l with _ | ⟨a, _ | ⟨b, _ | ⟨c, _ | _⟩⟩⟩ <;> simp at hl
        exact absurd e (hx a b c)
  · intro ha
    rw [h.1.2 ha]

/-- **C137, literal on iOS.**  Literals compare as the versions do. -/
theorem C137_literal_ios (maj min maj' min' : Nat) (h : maj < 400000) (h' : maj' < 400000) (hm : min < 100) (hm' : min' < 100) :
    literalIOS maj min ≤ literalIOS maj' min' ↔ (maj < maj' ∨ (maj = maj' ∧ min ≤ min')) := by
  unfold literalIOS
  rw [Nat.mod_eq_of_lt (by omega), Nat.mod_eq_of_lt (by omega)]
  omega

/-- The versions of macOS whose literal is right: 10.0 to 10.99, and from then on those with a minor version of at least 10. -/
def Good (maj min : Nat) : Prop := min < 100 ∧ maj < 400000 ∧ (maj = 10 ∨ (10 < maj ∧ 10 ≤ min))

/-- **C137, literal on macOS, partial.**  Literals compare as the versions do.  Missing: the versions from 11 on with a minor version below 10. -/
theorem C137_literal_mac_partial (maj min maj' min' : Nat) (h : Good maj min) (h' : Good maj' min') : literalMac maj min ≤ literalMac maj' min' ↔ (maj < maj' ∨ (maj = maj' ∧ min ≤ min')) := by
  obtain ⟨h1, h2, h3⟩ := h
  obtain ⟨h1', h2', h3'⟩ := h'
  unfold literalMac
  split <;> split <;> (rw [Nat.mod_eq_of_lt (by omega), Nat.mod_eq_of_lt (by omega)]; omega)

/-- **C137 fails** for macOS 11 to 99 with a minor version below 10: the literal is smaller than the one of every version 10.10 to 10.99, so that a check that the system is at least one of these fails. -/
theorem C137_literal_mac_refuted (maj min min' : Nat) (h : 11 ≤ maj) (h' : maj < 100) (hm : min < 10) (hm' : 10 ≤ min') (hm'' : min' < 100) : literalMac maj min < literalMac 10 min' := by
  unfold literalMac
  rw [if_neg (by omega), if_pos (by omega), Nat.mod_eq_of_lt (by omega), Nat.mod_eq_of_lt (by omega)]
  omega

/-- Is a character a letter or a digit? -/
def Alnum (c : Int) : Prop := (48 ≤ c ∧ c ≤ 57) ∨ (65 ≤ c ∧ c ≤ 90) ∨ (97 ≤ c ∧ c ≤ 122)

instance (c : Int) : Decidable (Alnum c) := by unfold Alnum; infer_instance

theorem strip_eq (max : Nat) (cs : List Int) (hp : ∀ c ∈ cs, 0 ≤ c) : ∀ out : List Int, out.length < max →
    strip max out cs = if out.length + (cs.filter (fun c => decide (Alnum c))).length < max then some (out ++ cs.filter (fun c => decide (Alnum c))) else none := by
  induction cs with
  | nil => intro out ho; simp [strip, ho]
  | cons c cs ih =>
    intro out ho
    have hc := hp c List.mem_cons_self
    have ih := ih (fun x hx => hp x (List.mem_cons_of_mem _ hx))
    have e : isAlnum c = some (decide (Alnum c)) := by
      unfold isAlnum
      rw [if_neg (by omega)]
      congr 1
      rw [Bool.eq_iff_iff]
      rw [decide_eq_true_iff]
      simp only [Alnum, Bool.or_eq_true, Bool.and_eq_true, decide_eq_true_eq, or_assoc]
    unfold strip
    rw [e]
    by_cases ha : Alnum c
    · simp only [ha, decide_true, ho, if_true, List.filter_cons]
      by_cases h2 : out.length + 1 < max
      · rw [ih (out ++ [c]) (by simpa using h2)]
        simp only [if_true, List.length_append, List.length_cons, List.length_nil, List.append_assoc, List.cons_append, List.nil_append]
        by_cases h3 : out.length + (0 + 1) + (cs.filter (fun c => decide (Alnum c))).length < max
        · rw [if_pos h3, if_pos (by omega)]
        · rw [if_neg h3, if_neg (by omega)]
      · rw [if_neg (by simp; omega)]
        have : ∀ (t : List Int) (o : List Int), (∀ x ∈ t, 0 ≤ x) → max ≤ o.length → strip max o t = none := by
          intro t
          induction t with
          | nil => intro o _ hm; simp [strip]; omega
          | cons d t iht =>
            intro o hp' hm
            unfold strip
            split
            · rfl
            · rw [if_neg (by omega)]
            · exact iht o (fun x hx => hp' x (List.mem_cons_of_mem _ hx)) hm
        exact this cs _ (fun x hx => hp x (List.mem_cons_of_mem _ hx)) (by simp; omega)
    · simp only [ha, decide_false, List.filter_cons]
      exact ih out ho

/-- **C137, stripped name.**  For a name of ASCII characters the result is its letters and digits, in order, if there is room for them and the terminator; otherwise the buffer is overrun. -/
theorem C137_stripped (max : Nat) (name : List Int) (hm : 0 < max) (hp : ∀ c ∈ name, 0 ≤ c) :
    strippedName max name = if (name.filter (fun c => decide (Alnum c))).length < max then some (name.filter (fun c => decide (Alnum c))) else none := by
  unfold strippedName
  rw [strip_eq max name hp [] hm]
  simp

/-- **C137**, stripped name, fails for names with characters outside of ASCII where `char` is signed: `isalnum` is called with a negative number. -/
theorem C137_stripped_refuted (max : Nat) (c : Int) (hc : c < 0) (rest : List Int) : strippedName max (c :: rest) = none := by
  unfold strippedName strip isAlnum
  rw [if_pos hc]

example : version (chars [1, 0] ++ 46 :: (chars [1, 5] ++ 46 :: chars [7])) = some (10, 15, 7) := by decide
example : version (chars [1] ++ 46 :: (chars [2] ++ 46 :: (chars [3] ++ 46 :: chars [4]))) = none := by decide
example : literalMac 10 9 = 1090 ∧ literalMac 10 15 = 101500 ∧ literalMac 11 6 = 1160 := by decide
example : Good 10 9 ∧ Good 10 15 ∧ Good 13 12 := by unfold Good; decide
example : strippedName 255 [77, 121, 32, 65, 112, 112, 45, 50] = some [77, 121, 65, 112, 112, 50] := by decide

end Verif.SysInfo

#print axioms Verif.SysInfo.C137_version
#print axioms Verif.SysInfo.C137_version_fault
#print axioms Verif.SysInfo.C137_literal_ios
#print axioms Verif.SysInfo.C137_literal_mac_partial
#print axioms Verif.SysInfo.C137_literal_mac_refuted
#print axioms Verif.SysInfo.C137_stripped
#print axioms Verif.SysInfo.C137_stripped_refuted
