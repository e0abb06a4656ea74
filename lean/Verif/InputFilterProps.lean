import Verif.InputFilter

/-!
# C98: stripping paths from file names

Stated with single removals: a path that begins the name and was added after all others that begin it is taken off.
-/
namespace Verif.InputFilter

/-- `g` is `f` without a path at its beginning, where no path added later begins `f`. -/
def Removes (paths : List (List Char)) (f g : List Char) : Prop :=
  ∃ earlier p later, paths = earlier ++ p :: later ∧ f = p ++ g ∧ ∀ q ∈ later, ¬ q <+: f

/-- `g` comes from `f` by removals and none is possible any more. -/
inductive Strips (paths : List (List Char)) : List Char → List Char → Prop where
  | done (f) : (∀ p ∈ paths, ¬ p <+: f) → Strips paths f f
  | step (f g h) : Removes paths f g → Strips paths g h → Strips paths f h

theorem find_none {ps : List (List Char)} {f : List Char} : find ps f = none ↔ ∀ p ∈ ps, ¬ p <+: f := by
  induction ps with
  | nil => simp [find]
  | cons p ps ih =>
    rw [find]
    by_cases h : p <+: f
    · rw [if_pos (by rw [matches_, List.isPrefixOf_iff_prefix]; exact h)]
      simp [h]
    · rw [if_neg (by rw [matches_, List.isPrefixOf_iff_prefix]; exact h), ih]
      simp [h]

theorem find_some {ps : List (List Char)} {f : List Char} {n : Nat} (h : find ps f = some n) :
    ∃ before p after, ps = before ++ p :: after ∧ n = p.length ∧ p <+: f ∧ ∀ q ∈ before, ¬ q <+: f := by
  induction ps with
  | nil => cases h
  | cons p ps ih =>
    rw [find] at h
    by_cases hp : p <+: f
    · rw [if_pos (by rw [matches_, List.isPrefixOf_iff_prefix]; exact hp)] at h
      cases h
      exact ⟨[], p, ps, rfl, rfl, hp, by simp⟩
    · rw [if_neg (by rw [matches_, List.isPrefixOf_iff_prefix]; exact hp)] at h
      obtain ⟨b, q, a, h1, h2, h3, h4⟩ := ih h
      refine ⟨p :: b, q, a, by simp [h1], h2, h3, ?_⟩
      intro x hx
      rcases List.mem_cons.1 hx with hx | hx
      · rw [hx]; exact hp
      · exact h4 x hx

theorem find_removes {paths : List (List Char)} {f : List Char} {n : Nat} (h : find paths.reverse f = some n) :
    Removes paths f (f.drop n) ∧ ∃ p ∈ paths, n = p.length ∧ p.length ≤ f.length := by
  obtain ⟨b, p, a, h1, h2, ⟨g, hg⟩, h4⟩ := find_some h
  have hpaths : paths = a.reverse ++ p :: b.reverse := by
    have := congrArg List.reverse h1
    simpa using this
  refine ⟨⟨a.reverse, p, b.reverse, hpaths, ?_, by simpa using h4⟩, p, by rw [hpaths]; simp, h2, by rw [← hg]; simp⟩
  rw [h2, ← hg]
  simp

/-- The name with everything removed. -/
theorem strips_exists {paths : List (List Char)} (hne : [] ∉ paths) (f : List Char) : ∃ g, Strips paths f g := by
  generalize hn : f.length = n
  induction n using Nat.strongRecOn generalizing f with
  | ind n ih =>
    cases h : find paths.reverse f with
    | none => exact ⟨f, .done f fun p hp => find_none.1 h p (by simpa using hp)⟩
    | some k =>
      obtain ⟨hr, p, hp, hk, hle⟩ := find_removes h
      have hpos : 0 < p.length := List.length_pos_iff.2 fun he => hne (he ▸ hp)
      obtain ⟨g, hg⟩ := ih (f.drop k).length (by rw [List.length_drop]; omega) (f.drop k) rfl
      exact ⟨g, .step f _ g hr hg⟩

theorem removes_find {paths : List (List Char)} {f g : List Char} (h : Removes paths f g) :
    ∃ n, find paths.reverse f = some n ∧ f.drop n = g := by
  obtain ⟨e, p, l, rfl, hf, hl⟩ := h
  refine ⟨p.length, ?_, by rw [hf]; simp⟩
  have : (e ++ p :: l).reverse = l.reverse ++ p :: e.reverse := by simp
  rw [this]
  have hl' : ∀ q ∈ l.reverse, ¬ q <+: f := fun q hq => hl q (by simpa using hq)
  generalize l.reverse = m at hl'
  induction m with
  | nil =>
    rw [List.nil_append, find, if_pos]
    rw [matches_, List.isPrefixOf_iff_prefix]
    exact ⟨g, hf.symm⟩
  | cons q m ih =>
    rw [List.cons_append, find, if_neg]
    · exact ih fun x hx => hl' x (by simp [hx])
    · rw [matches_, List.isPrefixOf_iff_prefix]
      exact hl' q (by simp)

/-- **C98.**  The name is stripped in one way only. -/
theorem C98_strips_unique {paths : List (List Char)} {f g g' : List Char} (h : Strips paths f g) (h' : Strips paths f g') :
    g = g' := by
  induction h with
  | done f hf =>
    cases h' with
    | done => rfl
    | step _ x _ hr _ =>
      obtain ⟨e, p, l, hp, hfp, _⟩ := hr
      exact absurd ⟨x, hfp.symm⟩ (hf p (by rw [hp]; simp))
  | step f x g hr _ ih =>
    cases h' with
    | done _ hf =>
      obtain ⟨e, p, l, hp, hfp, _⟩ := hr
      exact absurd ⟨x, hfp.symm⟩ (hf p (by rw [hp]; simp))
    | step _ y _ hr' hs =>
      obtain ⟨n, h1, h2⟩ := removes_find hr
      obtain ⟨m, h3, h4⟩ := removes_find hr'
      rw [h1] at h3
      cases h3
      rw [h2] at h4
      subst h4
      exact ih hs

theorem isEmpty_false {paths : List (List Char)} (h : paths ≠ []) : ¬ paths.isEmpty = true := by simpa using h

/-- Nothing matches: the message goes out as it is, if it is to. -/
theorem run_done {filters : List Filter} {paths : List (List Char)} {fuel : Nat} {f : List Char}
    (h : find paths.reverse f = none) (left : List Filter) (on : Bool) :
    runFilters filters paths fuel left on (some f) = .done (if on then [some f] else []) := by
  induction left with
  | nil => rw [runFilters]
  | cons x left ih =>
    cases x with
    | other => rw [runFilters]; exact ih
    | file =>
      rw [runFilters]
      split
      · exact ih
      · simp only [h]
        exact ih

/-- The message is printed once by a filter that strips, and not again by what follows. -/
theorem log_strips {filters : List Filter} {paths : List (List Char)} (hfile : .file ∈ filters) {f g : List Char}
    (h : Strips paths f g) (hne : [] ∉ paths) : ∃ fuel, ∀ k on, log filters paths (fuel + k) on (some f) = .done (if on then [some g] else []) := by
  induction h with
  | done f hf =>
    refine ⟨0, fun k on => ?_⟩
    rw [log]
    exact run_done (find_none.2 fun p hp => hf p (by simpa using hp)) filters on
  | step f x g hr _ ih =>
    obtain ⟨fuel, ih⟩ := ih
    obtain ⟨n, h1, h2⟩ := removes_find hr
    have hps : ∃ p ps, paths = p :: ps := by
      obtain ⟨e, p, l, hp, _⟩ := hr
      cases e with
      | nil => exact ⟨p, l, by simp [hp]⟩
      | cons a e => exact ⟨a, e ++ p :: l, by simp [hp]⟩
    obtain ⟨p, ps, hps⟩ := hps
    refine ⟨fuel + 1, fun k on => ?_⟩
    rw [log, show fuel + 1 + k = (fuel + k) + 1 by omega]
    -- a filter that strips
    have hstrip : ∀ left on, runFilters filters paths (fuel + k + 1) (.file :: left) on (some f) =
        (match runFilters filters paths (fuel + k + 1) left false (some f) with
        | .done out' => .done ((if on then [some g] else []) ++ out')
        | r => r) := by
      intro left on
      rw [runFilters, if_neg (isEmpty_false (by simp [hps]))]
      simp only [h1, h2, ih k on]
      cases runFilters filters paths (fuel + k + 1) left false (some f) <;> rfl
    -- what is cancelled prints nothing
    have hoff : ∀ left, runFilters filters paths (fuel + k + 1) left false (some f) = .done [] := by
      intro left
      induction left with
      | nil => rw [runFilters]; rfl
      | cons y left ih2 =>
        cases y with
        | other => rw [runFilters]; exact ih2
        | file => rw [hstrip, ih2]; rfl
    have hon : ∀ left, .file ∈ left → runFilters filters paths (fuel + k + 1) left on (some f) = .done (if on then [some g] else []) := by
      intro left
      induction left with
      | nil => intro h; cases h
      | cons y left ih2 =>
        intro hm
        cases y with
        | other =>
          rw [runFilters]
          exact ih2 (by simpa using hm)
        | file =>
          rw [hstrip, hoff]
          simp
    exact hon filters hfile

/-- **C98 (partial).**  If the filter has been added, with whatever others that only look and however often, and no added
path is empty, then a message is printed exactly once, with the file name from which paths have been removed, the last
added first, until none begins it; and a message that is cancelled is not printed.  Missing: with an empty path or a null
file name it fails (`C98_empty_refuted`, `C98_null_refuted`). -/
theorem C98_strip_partial {filters : List Filter} {paths : List (List Char)} (hfile : .file ∈ filters) (hne : [] ∉ paths)
    (f : List Char) : ∃ g, Strips paths f g ∧
      ∃ fuel, ∀ k on, log filters paths (fuel + k) on (some f) = .done (if on then [some g] else []) := by
  obtain ⟨g, hg⟩ := strips_exists hne f
  exact ⟨g, hg, log_strips hfile hg hne⟩

/-- **C98.**  Without the filter, or without paths, the file name is left alone. -/
theorem C98_alone {filters : List Filter} {paths : List (List Char)} (h : .file ∉ filters ∨ paths = []) (fuel : Nat) (on : Bool)
    (file : Option (List Char)) : log filters paths fuel on file = .done (if on then [file] else []) := by
  rw [log]
  have : ∀ left, (.file ∉ left ∨ paths = []) → runFilters filters paths fuel left on file = .done (if on then [file] else []) := by
    intro left
    induction left with
    | nil => intro _; rw [runFilters]
    | cons x left ih =>
      intro h
      cases x with
      | other =>
        rw [runFilters]
        refine ih ?_
        rcases h with h | h
        · left; simpa using h
        · right; exact h
      | file =>
        rcases h with h | h
        · simp at h
        · rw [runFilters.eq_def]
          dsimp only
          rw [if_pos (by simp [h])]
          exact ih (Or.inr h)
  exact this filters h

/-- **C98.**  A path added is the last in the list, so it is the first to be tried; if there is no memory for it nothing
changes. -/
theorem C98_add (paths : List (List Char)) (p : List Char) (file : List Char) :
    find (addPath paths p true).reverse file = (if p <+: file then some p.length else find paths.reverse file) ∧
      addPath paths p false = paths := by
  refine ⟨?_, rfl⟩
  simp only [addPath, if_true, List.reverse_append, List.reverse_cons, List.reverse_nil, List.nil_append, List.cons_append, find,
    matches_, List.isPrefixOf_iff_prefix]

/-- **C98 (refuted).**  Once the empty path has been added a message never returns from the logger, whatever its file: it
calls itself without end. -/
theorem C98_empty_refuted {filters : List Filter} {paths : List (List Char)} (hfile : .file ∈ filters) (he : [] ∈ paths)
    (fuel : Nat) (on : Bool) (f : List Char) : log filters paths fuel on (some f) = .deep := by
  induction fuel generalizing on f with
  | zero =>
    rw [log]
    have : ∀ left, .file ∈ left → runFilters filters paths 0 left on (some f) = .deep := by
      intro left
      induction left with
      | nil => intro h; cases h
      | cons x left ih =>
        intro hm
        cases x with
        | other => rw [runFilters]; exact ih (by simpa using hm)
        | file =>
          rw [runFilters, if_neg (isEmpty_false (List.ne_nil_of_mem he))]
          cases hf : find paths.reverse f with
          | none => exact absurd (List.nil_prefix) (find_none.1 hf [] (by simpa using he))
          | some n => simp only [hf]
    exact this filters hfile
  | succ fuel ih =>
    rw [log]
    have : ∀ left, .file ∈ left → runFilters filters paths (fuel + 1) left on (some f) = .deep := by
      intro left
      induction left with
      | nil => intro h; cases h
      | cons x left ih2 =>
        intro hm
        cases x with
        | other => rw [runFilters]; exact ih2 (by simpa using hm)
        | file =>
          rw [runFilters, if_neg (isEmpty_false (List.ne_nil_of_mem he))]
          cases hf : find paths.reverse f with
          | none => exact absurd (List.nil_prefix) (find_none.1 hf [] (by simpa using he))
          | some n => simp only [hf, ih]
    exact this filters hfile

/-- **C98 (refuted).**  A message without a file name, which `CCLogv` allows, is compared with the first path all the same. -/
theorem C98_null_refuted {filters : List Filter} {paths : List (List Char)} (hfile : .file ∈ filters) (hp : paths ≠ [])
    (fuel : Nat) (on : Bool) : log filters paths fuel on none = .fault := by
  rw [log]
  have : ∀ left, .file ∈ left → runFilters filters paths fuel left on none = .fault := by
    intro left
    induction left with
    | nil => intro h; cases h
    | cons x left ih =>
      intro hm
      cases x with
      | other => rw [runFilters]; exact ih (by simpa using hm)
      | file =>
        rw [runFilters, if_neg (isEmpty_false hp)]
  exact this filters hfile

/-- Paths of which several apply, one of them twice. -/
example : ∃ fuel, log [.other, .file, .file] ["/home/".toList, "/home/me/".toList, "src/".toList] fuel true
    (some "/home/me/src/src/a.c".toList) = .done [some "a.c".toList] := by
  have hs : Strips ["/home/".toList, "/home/me/".toList, "src/".toList] "/home/me/src/src/a.c".toList "a.c".toList := by
    refine .step _ "src/src/a.c".toList _ ⟨["/home/".toList], "/home/me/".toList, ["src/".toList], rfl, by decide, by decide⟩ ?_
    refine .step _ "src/a.c".toList _ ⟨["/home/".toList, "/home/me/".toList], "src/".toList, [], rfl, by decide, by decide⟩ ?_
    refine .step _ "a.c".toList _ ⟨["/home/".toList, "/home/me/".toList], "src/".toList, [], rfl, by decide, by decide⟩ ?_
    exact .done _ (by decide)
  obtain ⟨g, hg, fuel, h⟩ := C98_strip_partial (filters := [.other, .file, .file]) (by decide)
    (paths := ["/home/".toList, "/home/me/".toList, "src/".toList]) (by decide) "/home/me/src/src/a.c".toList
  rw [C98_strips_unique hs hg]
  exact ⟨fuel + 0, h 0 true⟩

#print axioms C98_strip_partial
#print axioms C98_strips_unique
#print axioms C98_alone
#print axioms C98_add
#print axioms C98_empty_refuted
#print axioms C98_null_refuted

end Verif.InputFilter
