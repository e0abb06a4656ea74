import Verif.LastComp

/-!
# C97: the last component of a path

A path that is not made of separators only is what precedes the last component, the component, and separators behind it.
-/
namespace Verif.LastComp

/-- `comp` is the last component of the path `pre ++ comp ++ seps`: it is not empty, has no separator in it, a separator
or nothing precedes it, and only separators follow. -/
structure IsLast (sep : Char) (pre comp seps : List Char) : Prop where
  some : comp ≠ []
  free : sep ∉ comp
  before : pre = [] ∨ ∃ p, pre = p ++ [sep]
  behind : ∀ c ∈ seps, c = sep

/-! ### Lemmas -/

theorem strrchr_none {s : List Char} {sep : Char} (h : sep ∉ s) : strrchr s sep = none := by
  induction s with
  | nil => rfl
  | cons c s ih =>
    simp only [List.mem_cons, not_or] at h
    rw [strrchr, ih h.2]
    exact if_neg (Ne.symm h.1)

theorem strrchr_append {s t : List Char} {sep : Char} (h : sep ∉ t) : strrchr (s ++ [sep] ++ t) sep = some s.length := by
  induction s with
  | nil => simp [strrchr, strrchr_none h]
  | cons c s ih =>
    have ih' : strrchr (s ++ sep :: t) sep = .some s.length := by simpa using ih
    simp [strrchr, ih']

/-- The loop over characters that pass the test, down to one that does not. -/
theorem back_run {s : List Char} {test : Char → Bool} {k : Nat} (n : Nat) (hk : 0 < k) (c : Char) (hc : s[k]? = some c) (hf : test c = false)
    (h : ∀ j, k < j → j < k + 1 + n → ∃ d, s[j]? = some d ∧ test d = true) : back s test (k + 1 + n) = (k : Int) := by
  induction n with
  | zero =>
    obtain ⟨k, rfl⟩ : ∃ k', k = k' + 1 := ⟨k - 1, by omega⟩
    show back s test (k + 2) = _
    rw [back, hc]
    simp [hf]
  | succ n ih =>
    have hx : k + 1 + (n + 1) = (k + n) + 2 := by omega
    rw [hx, back]
    obtain ⟨d, hd, ht⟩ := h (k + n + 1) (by omega) (by omega)
    rw [hd]
    simp only [ht, if_true]
    have := ih fun j h1 h2 => h j h1 (by omega)
    rw [show k + n + 1 = k + 1 + n by omega]
    exact this

/-- The loop over characters that pass the test, down to the start. -/
theorem back_zero {s : List Char} {test : Char → Bool} (n : Nat)
    (h : ∀ j, 0 < j → j < n + 1 → ∃ d, s[j]? = some d ∧ test d = true) : back s test (n + 1) = 0 := by
  induction n with
  | zero => rfl
  | succ n ih =>
    rw [back]
    obtain ⟨d, hd, ht⟩ := h (n + 1) (by omega) (by omega)
    rw [hd]
    simp only [ht, if_true]
    exact ih fun j h1 h2 => h j h1 (by omega)

theorem seps_eq {sep : Char} {l : List Char} (h : ∀ c ∈ l, c = sep) : l = List.replicate l.length sep :=
  List.eq_replicate_iff.2 ⟨rfl, h⟩

/-- A path that ends with a separator. -/
theorem trailing (s : List Char) (sep : Char) (t : List Char) (h : s = t ++ [sep]) :
    lastComponent s sep =
      (let e := back s (fun c => c == sep) t.length
       let l := backInt s (fun c => c != sep) e
       if l < 0 then .null else if l = 0 then .at 0 (e - (-1)) else .at (l + 1) (e - l)) := by
  have h1 : strrchr s sep = some t.length := by
    rw [h]
    have := strrchr_append (s := t) (t := []) (sep := sep) (by simp)
    simpa using this
  rw [lastComponent, h1]
  have : ¬ t.length + 1 < s.length := by rw [h]; simp
  simp only [this, if_false]

/-! ### The property -/

/-- **C97 (exact).**  What `CCLastComponent` returns for a path with a last component.  Without separators behind it, the
component up to the terminator.  With separators behind it: nothing, if the path begins with the component and it is one
character long; the component with the separator before it, if that is the first character of the path; and otherwise the
component and its length. -/
theorem C97_last_exact (sep : Char) (pre comp seps : List Char) (h : IsLast sep pre comp seps) :
    lastComponent (pre ++ comp ++ seps) sep =
      if seps = [] then .at pre.length 0
      else if pre = [] ∧ comp.length = 1 then .null
      else if pre.length = 1 then .at 0 (comp.length + 1)
      else .at pre.length comp.length := by
  have hcl : 0 < comp.length := List.length_pos_iff.2 h.some
  by_cases hs : seps = []
  · rw [if_pos hs, hs, List.append_nil]
    rcases h.before with hp | ⟨p, hp⟩
    · rw [hp, List.nil_append, lastComponent, strrchr_none h.free]
      simp [h.some]
    · rw [hp, lastComponent, strrchr_append h.free]
      have : p.length + 1 < (p ++ [sep] ++ comp).length := by simp; omega
      simp only [this, if_true]
      simp
  · rw [if_neg hs]
    obtain ⟨m, hm⟩ : ∃ m, seps.length = m + 1 := ⟨seps.length - 1, by have := List.length_pos_iff.2 hs; omega⟩
    have hrep := seps_eq h.behind
    rw [hm] at hrep
    have hsplit : pre ++ comp ++ seps = (pre ++ comp ++ List.replicate m sep) ++ [sep] := by
      rw [hrep, List.replicate_succ', List.append_assoc (pre ++ comp)]
    rw [trailing _ sep _ hsplit]
    generalize hS : pre ++ comp ++ seps = S
    -- characters by place
    have hsepAt : ∀ j, pre.length + comp.length ≤ j → j < pre.length + comp.length + (m + 1) → S[j]? = some sep := by
      intro j h1 h2
      rw [← hS, List.getElem?_append_right (by simp; omega), hrep, List.getElem?_replicate]
      simp
      omega
    have hcompAt : ∀ j, pre.length ≤ j → j < pre.length + comp.length → ∃ d, S[j]? = some d ∧ d ≠ sep := by
      intro j h1 h2
      have hj : j - pre.length < comp.length := by omega
      refine ⟨comp[j - pre.length], ?_, fun he => h.free (he ▸ List.getElem_mem hj)⟩
      rw [← hS, List.append_assoc, List.getElem?_append_right h1, List.getElem?_append_left hj, List.getElem?_eq_getElem hj]
    have hlen : (pre ++ comp ++ List.replicate m sep).length = pre.length + comp.length + m := by simp; omega
    rw [hlen]
    by_cases hone : pre = [] ∧ comp.length = 1
    · rw [if_pos hone]
      have hb : back S (fun c => c == sep) (pre.length + comp.length + m) = 0 := by
        rw [hone.1, hone.2]
        have := back_zero (s := S) (test := fun c => c == sep) m fun j h1 h2 =>
          ⟨sep, hsepAt j (by rw [hone.1, hone.2]; simp; omega) (by rw [hone.1, hone.2]; simp; omega), by simp⟩
        simpa [Nat.add_comm] using this
      simp only [hb]
      rfl
    · rw [if_neg hone]
      -- the end of the component
      have hpos : 0 < pre.length + comp.length - 1 := by
        rcases Nat.lt_or_ge 1 comp.length with h' | h'
        · omega
        · have : pre ≠ [] := fun hp => hone ⟨hp, by omega⟩
          have := List.length_pos_iff.2 this
          omega
      obtain ⟨d, hd, hdn⟩ := hcompAt (pre.length + comp.length - 1) (by omega) (by omega)
      have hb : back S (fun c => c == sep) (pre.length + comp.length + m) = ((pre.length + comp.length - 1 : Nat) : Int) := by
        have := back_run (s := S) (test := fun c => c == sep) m hpos d hd (by simpa using hdn) fun j h1 h2 =>
          ⟨sep, hsepAt j (by omega) (by omega), by simp⟩
        rw [← this]
        congr 1
        omega
      simp only [hb]
      have hbi : backInt S (fun c => c != sep) ((pre.length + comp.length - 1 : Nat) : Int) =
          back S (fun c => c != sep) (pre.length + comp.length - 1) := by
        rw [backInt, if_neg (by omega)]
        simp
      rw [hbi]
      by_cases hp2 : 2 ≤ pre.length
      · -- a separator before the component that is not the first character
        rw [if_neg (show ¬ pre.length = 1 by omega)]
        have hl : back S (fun c => c != sep) (pre.length + comp.length - 1) = ((pre.length - 1 : Nat) : Int) := by
          have hsepc : S[pre.length - 1]? = some sep := by
            rcases h.before with hp | ⟨p, hp⟩
            · rw [hp] at hp2; simp at hp2
            · rw [← hS, hp]
              simp
          have := back_run (s := S) (test := fun c => c != sep) (comp.length - 1) (k := pre.length - 1) (by omega) sep hsepc (by simp)
            fun j h1 h2 => by
              obtain ⟨x, hx, hxn⟩ := hcompAt j (by omega) (by omega)
              exact ⟨x, hx, by simpa using hxn⟩
          rw [← this]
          congr 1
          omega
        rw [hl, if_neg (by omega), if_neg (by omega)]
        congr 1 <;> omega
      · -- down to the first character
        have hl : back S (fun c => c != sep) (pre.length + comp.length - 1) = 0 := by
          have := back_zero (s := S) (test := fun c => c != sep) (pre.length + comp.length - 2) fun j h1 h2 => by
            obtain ⟨x, hx, hxn⟩ := hcompAt j (by omega) (by omega)
            exact ⟨x, hx, by simpa using hxn⟩
          rw [← this]
          congr 1
          omega
        rw [hl, if_neg (by omega), if_pos rfl]
        by_cases hp1 : pre.length = 1
        · rw [if_pos hp1]
          congr 1
          omega
        · rw [if_neg hp1]
          have : pre.length = 0 := by omega
          rw [this]
          congr 1
          omega

/-- **C97.**  A path without a component (only separators, or empty) gives null. -/
theorem C97_none (sep : Char) (n : Nat) : lastComponent (List.replicate n sep) sep = .null := by
  cases n with
  | zero => rfl
  | succ n =>
    rw [trailing _ sep (List.replicate n sep) (List.replicate_succ' ..), List.length_replicate]
    cases n with
    | zero => rfl
    | succ n =>
      have hb : back (List.replicate (n + 1 + 1) sep) (fun c => c == sep) (n + 1) = 0 :=
        back_zero n fun j h1 h2 => ⟨sep, by rw [List.getElem?_replicate, if_pos (by omega)], by simp⟩
      simp only [hb]
      rfl

/-- Every path is one of the two: only separators, or with a last component.  (So `C97_last_exact` and `C97_none` together
say what is returned for every path.) -/
theorem C97_cases (sep : Char) (s : List Char) :
    (∃ n, s = List.replicate n sep) ∨ ∃ pre comp seps, IsLast sep pre comp seps ∧ s = pre ++ comp ++ seps := by
  -- cut the separators off the end
  have hcut : ∀ s : List Char, ∃ t seps, s = t ++ seps ∧ (∀ c ∈ seps, c = sep) ∧ (t = [] ∨ ∃ u c, t = u ++ [c] ∧ c ≠ sep) := by
    intro s
    induction s with
    | nil => exact ⟨[], [], rfl, by simp, Or.inl rfl⟩
    | cons c s ih =>
      obtain ⟨t, seps, h1, h2, h3⟩ := ih
      rcases h3 with h3 | ⟨u, d, h3, h4⟩
      · by_cases hc : c = sep
        · refine ⟨[], c :: seps, by simp [h1, h3], ?_, Or.inl rfl⟩
          intro x hx
          rcases List.mem_cons.1 hx with hx | hx
          · rw [hx]; exact hc
          · exact h2 x hx
        · exact ⟨[c], seps, by simp [h1, h3], h2, Or.inr ⟨[], c, rfl, hc⟩⟩
      · exact ⟨c :: t, seps, by simp [h1], h2, Or.inr ⟨c :: u, d, by simp [h3], h4⟩⟩
  -- cut at the last separator
  have hlast : ∀ t : List Char, ∃ pre comp, t = pre ++ comp ∧ sep ∉ comp ∧ (pre = [] ∨ ∃ p, pre = p ++ [sep]) := by
    intro t
    induction t with
    | nil => exact ⟨[], [], rfl, by simp, Or.inl rfl⟩
    | cons c t ih =>
      obtain ⟨pre, comp, h1, h2, h3⟩ := ih
      rcases h3 with h3 | ⟨p, h3⟩
      · by_cases hc : c = sep
        · exact ⟨[c], comp, by simp [h1, h3], h2, Or.inr ⟨[], by simp [hc]⟩⟩
        · exact ⟨[], c :: comp, by simp [h1, h3], by simp [h2, Ne.symm hc], Or.inl rfl⟩
      · exact ⟨c :: pre, comp, by simp [h1], h2, Or.inr ⟨c :: p, by simp [h3]⟩⟩
  obtain ⟨t, seps, h1, h2, h3⟩ := hcut s
  rcases h3 with h3 | ⟨u, c, h3, h4⟩
  · left
    exact ⟨seps.length, by rw [h1, h3, List.nil_append]; exact seps_eq h2⟩
  · right
    obtain ⟨pre, comp, h5, h6, h7⟩ := hlast t
    refine ⟨pre, comp, seps, ⟨?_, h6, h7, h2⟩, by rw [h1, h5]⟩
    intro hc
    rw [hc, List.append_nil] at h5
    rcases h7 with h7 | ⟨p, h7⟩
    · rw [h5, h7] at h3
      simp at h3
    · rw [h5, h7] at h3
      have := (List.append_inj' h3 rfl).2
      simp at this
      exact h4 this.symm

/-- **C97 (partial).**  The result is the last component, with its length if separators follow, exactly if no separator
follows, or at least two characters precede it, or none precedes it and it is longer than one character.  Missing: the
other paths, for which the result is wrong. -/
theorem C97_last_partial (sep : Char) (pre comp seps : List Char) (h : IsLast sep pre comp seps) :
    lastComponent (pre ++ comp ++ seps) sep = .at pre.length (if seps = [] then 0 else comp.length) ↔
      seps = [] ∨ 2 ≤ pre.length ∨ (pre = [] ∧ 2 ≤ comp.length) := by
  have hcl : 0 < comp.length := List.length_pos_iff.2 h.some
  rw [C97_last_exact sep pre comp seps h]
  by_cases hs : seps = []
  · simp [hs]
  · rw [if_neg hs, if_neg hs]
    by_cases hone : pre = [] ∧ comp.length = 1
    · rw [if_pos hone]
      simp [hs, hone.1, hone.2]
    · rw [if_neg hone]
      by_cases hp : pre.length = 1
      · rw [if_pos hp, hp]
        have : pre ≠ [] := fun he => by rw [he] at hp; simp at hp
        simp [hs, this]
      · rw [if_neg hp]
        simp only [true_iff]
        by_cases he : pre = []
        · right; right
          have hne : comp.length ≠ 1 := fun h => hone ⟨he, h⟩
          exact ⟨he, by omega⟩
        · right; left
          have := List.length_pos_iff.2 he
          omega

/-- The function's own comment promises "last" for all of these. -/
example : lastComponent "////last////".toList '/' = .at 4 4 ∧ lastComponent "last".toList '/' = .at 0 0 ∧
    lastComponent "/////last".toList '/' = .at 5 0 ∧ lastComponent "last/".toList '/' = .at 0 4 ∧
    lastComponent "first/last/".toList '/' = .at 6 4 := by decide

example : IsLast '/' "//first/".toList "last".toList "//".toList :=
  ⟨by decide, by decide, Or.inr ⟨"//first".toList, by decide⟩, by decide⟩

/-- **C97 (refuted).**  "a/" has the last component "a" but gives null; "/last/" gives "/last". -/
theorem C97_last_refuted :
    lastComponent "a/".toList '/' = .null ∧ lastComponent "/last/".toList '/' = .at 0 5 := by decide

#print axioms C97_last_exact
#print axioms C97_none
#print axioms C97_cases
#print axioms C97_last_partial
#print axioms C97_last_refuted

end Verif.LastComp
