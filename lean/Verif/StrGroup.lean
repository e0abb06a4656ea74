import Verif.StrMake
/-!
# Joining, replacing and splitting strings
-/
namespace Verif.Str
open Utf8.Spec (Scalar encode encodeAll)
open Spec (IsFirst replaceAll splitAll)

section
variable {M : Maps}

/-- `(j, f)`: the `f`-th of `ms` occurs at `j`, none occurs from `i` to before `j`, none before it in the list occurs at `j`.  `none`: none occurs from `i` on. -/
def IsClosest (l : List Nat) (ms : List (List Nat)) (i : Nat) : Option (Nat × Nat) → Prop
  | some (j, f) => i ≤ j ∧ (∃ m, ms[f]? = some m ∧ m <+: l.drop j ∧ ∀ g m', g < f → ms[g]? = some m' → ¬ m' <+: l.drop j) ∧ ∀ m ∈ ms, ∀ k, i ≤ k → k < j → ¬ m <+: l.drop k
  | none => ∀ m ∈ ms, ∀ k, i ≤ k → ¬ m <+: l.drop k

theorem closest_single {l m : List Nat} {i : Nat} : ∀ {r : Option Nat}, IsFirst l m i r → IsClosest l [m] i (r.map fun j => (j, 0))
  | none, h => by intro x hx k hk; rw [List.mem_singleton.1 hx]; exact h k hk
  | some j, h => ⟨h.1, ⟨m, rfl, h.2.1, fun g _ hg => by omega⟩, fun x hx k h1 h2 => by rw [List.mem_singleton.1 hx]; exact h.2.2 k h1 h2⟩

theorem find_at {ms : List (List Nat)} {f : Nat} {m x : List Nat} (h : ms[f]? = some m) (hp : m <+: x) (hb : ∀ g m', g < f → ms[g]? = some m' → ¬ m' <+: x) : (ms.find? fun m => m.isPrefixOf x) = some m := by
  induction ms generalizing f with
  | nil => simp at h
  | cons a ms ih =>
    cases f with
    | zero =>
      simp only [List.getElem?_cons_zero, Option.some.injEq] at h
      rw [List.find?_cons_of_pos (by rw [h]; exact List.isPrefixOf_iff_prefix.2 hp), h]
    | succ f =>
      rw [List.getElem?_cons_succ] at h
      rw [List.find?_cons_of_neg (by rw [List.isPrefixOf_iff_prefix]; exact hb 0 a (by omega) rfl)]
      exact ih h fun g m' hg hm => hb (g + 1) m' (by omega) (by rw [List.getElem?_cons_succ]; exact hm)

theorem find_at2 {ps : List (List Nat × List Nat)} {f : Nat} {p : List Nat × List Nat} {x : List Nat} (h : ps[f]? = some p) (hp : p.1 <+: x) (hb : ∀ g m', g < f → (ps.map Prod.fst)[g]? = some m' → ¬ m' <+: x) : (ps.find? fun p => p.1.isPrefixOf x) = some p := by
  induction ps generalizing f with
  | nil => simp at h
  | cons a ms ih =>
    cases f with
    | zero =>
      simp only [List.getElem?_cons_zero, Option.some.injEq] at h
      rw [List.find?_cons_of_pos (by rw [h]; exact List.isPrefixOf_iff_prefix.2 hp), h]
    | succ f =>
      rw [List.getElem?_cons_succ] at h
      rw [List.find?_cons_of_neg (by rw [List.isPrefixOf_iff_prefix]; exact hb 0 a.1 (by omega) rfl)]
      exact ih h fun g m' hg hm => hb (g + 1) m' (by omega) (by rw [List.map_cons, List.getElem?_cons_succ]; exact hm)

theorem replaceAll_none {ps : List (List Nat × List Nat)} {l : List Nat} (h : IsClosest l (ps.map Prod.fst) 0 none) : replaceAll ps l = l := by
  induction l with
  | nil => rw [replaceAll]
  | cons c l ih =>
    rw [replaceAll]
    have : (ps.find? fun p => p.1.isPrefixOf (c :: l)) = none := by
      rw [List.find?_eq_none]
      intro p hp
      rw [List.isPrefixOf_iff_prefix]
      exact h p.1 (List.mem_map_of_mem hp) 0 (Nat.le_refl 0)
    rw [this]
    dsimp only
    rw [ih fun m hm k _ => by have := h m hm (k + 1) (by omega); rwa [List.drop_succ_cons] at this]

theorem replaceAll_some {ps : List (List Nat × List Nat)} (hne : ∀ p ∈ ps, p.1 ≠ []) {l : List Nat} {j f : Nat} (h : IsClosest l (ps.map Prod.fst) 0 (some (j, f))) {p : List Nat × List Nat} (hp : ps[f]? = some p) :
    replaceAll ps l = l.take j ++ p.2 ++ replaceAll ps (l.drop (j + p.1.length)) := by
  obtain ⟨-, ⟨m, h1, h2, h3⟩, h4⟩ := h
  have hm : m = p.1 := by rw [List.getElem?_map, hp] at h1; exact (Option.some.inj h1).symm
  subst hm
  have hpne := hne p (List.mem_of_getElem? hp)
  have hplen : 0 < p.1.length := List.length_pos_iff.2 hpne
  induction j generalizing l with
  | zero =>
    rw [List.drop_zero] at *
    cases l with
    | nil => exact absurd (List.prefix_nil.1 h2) hpne
    | cons c l =>
      rw [replaceAll, find_at2 hp h2 (by simpa using h3)]
      dsimp only
      rw [List.take_zero, List.nil_append, show 0 + p.1.length = (p.1.length - 1) + 1 by omega, List.drop_succ_cons]
  | succ j ih =>
    cases l with
    | nil => rw [List.drop_nil] at h2; exact absurd (List.prefix_nil.1 h2) hpne
    | cons c l =>
      rw [replaceAll]
      have : (ps.find? fun p => p.1.isPrefixOf (c :: l)) = none := by
        rw [List.find?_eq_none]
        intro q hq
        rw [List.isPrefixOf_iff_prefix]
        exact h4 q.1 (List.mem_map_of_mem hq) 0 (Nat.le_refl 0) (by omega)
      rw [this]
      dsimp only
      rw [ih (fun m hm k _ hk => by have := h4 m hm (k + 1) (by omega) (by omega); rwa [List.drop_succ_cons] at this) (fun g m' h5 h6 => by simpa using h3 g m' h5 h6) (by simpa using h2)]
      rw [List.take_succ_cons, show j + 1 + p.1.length = (j + p.1.length) + 1 by omega, List.drop_succ_cons]
      simp

theorem splitAll_none {ms : List (List Nat)} {l : List Nat} (h : IsClosest l ms 0 none) : splitAll ms l = [l] := by
  induction l with
  | nil => rw [splitAll]
  | cons c l ih =>
    rw [splitAll]
    have : (ms.find? fun p => p.isPrefixOf (c :: l)) = none := by
      rw [List.find?_eq_none]
      intro p hp
      rw [List.isPrefixOf_iff_prefix]
      exact h p hp 0 (Nat.le_refl 0)
    rw [this]
    dsimp only
    rw [ih fun m hm k _ => by have := h m hm (k + 1) (by omega); rwa [List.drop_succ_cons] at this]
    rfl

theorem splitAll_some {ms : List (List Nat)} (hne : ∀ m ∈ ms, m ≠ []) {l : List Nat} {j f : Nat} (h : IsClosest l ms 0 (some (j, f))) {p : List Nat} (hp : ms[f]? = some p) :
    splitAll ms l = l.take j :: splitAll ms (l.drop (j + p.length)) := by
  obtain ⟨-, ⟨m, h1, h2, h3⟩, h4⟩ := h
  have hm : m = p := by rw [hp] at h1; exact (Option.some.inj h1).symm
  subst hm
  have hpne := hne m (List.mem_of_getElem? hp)
  have hplen : 0 < m.length := List.length_pos_iff.2 hpne
  induction j generalizing l with
  | zero =>
    rw [List.drop_zero] at *
    cases l with
    | nil => exact absurd (List.prefix_nil.1 h2) hpne
    | cons c l =>
      rw [splitAll, find_at hp h2 (by simpa using h3)]
      dsimp only
      rw [List.take_zero, show 0 + m.length = (m.length - 1) + 1 by omega, List.drop_succ_cons]
  | succ j ih =>
    cases l with
    | nil => rw [List.drop_nil] at h2; exact absurd (List.prefix_nil.1 h2) hpne
    | cons c l =>
      rw [splitAll]
      have : (ms.find? fun p => p.isPrefixOf (c :: l)) = none := by
        rw [List.find?_eq_none]
        intro q hq
        rw [List.isPrefixOf_iff_prefix]
        exact h4 q hq 0 (Nat.le_refl 0) (by omega)
      rw [this]
      dsimp only
      rw [ih (fun m hm k _ hk => by have := h4 m hm (k + 1) (by omega) (by omega); rwa [List.drop_succ_cons] at this) (by simpa using h2) (fun g m' h5 h6 => by simpa using h3 g m' h5 h6)]
      rw [List.take_succ_cons, show j + 1 + m.length = (j + m.length) + 1 by omega, List.drop_succ_cons]
      rfl

/-- Searching after a prefix is searching in the rest. -/
theorem closest_drop {p q : List Nat} {ms : List (List Nat)} : ∀ {r : Option (Nat × Nat)}, IsClosest (p ++ q) ms p.length r →
    match r with
    | none => IsClosest q ms 0 none
    | some (j, f) => ∃ j', j = p.length + j' ∧ IsClosest q ms 0 (some (j', f)) := by
  have hd : ∀ k, (p ++ q).drop (p.length + k) = q.drop k := fun k => by rw [List.drop_append, List.drop_of_length_le (by omega)]; simp
  intro r h
  match r with
  | none => exact fun m hm k _ => by rw [← hd]; exact h m hm _ (by omega)
  | some (j, f) =>
    obtain ⟨h1, h2, h3⟩ := h
    obtain ⟨j', rfl⟩ : ∃ j', j = p.length + j' := ⟨j - p.length, by omega⟩
    refine ⟨j', rfl, Nat.zero_le _, ?_, fun m hm k _ hk => by rw [← hd]; exact h3 m hm _ (by omega) (by omega)⟩
    rw [hd] at h2
    exact h2

/-- The values of an optional string: null is the empty one. -/
def ValMaybe (M : Maps) : Option Str → List Nat → Prop
  | none, r => r = []
  | some t, r => Val M t r

theorem lengthMaybe_eq (hM : GoodMaps M) {t : Option Str} {r : List Nat} (h : ValMaybe M t r) : lengthMaybe M t = some r.length := by
  cases t with
  | none => rw [show r = [] from h]; rfl
  | some t => exact Val.length hM h

theorem insertMaybe_eq (hM : GoodMaps M) (hdr : Nat) {s : Str} {t : Option Str} {l m : List Nat} (hs : Val M s l) (ht : ValMaybe M t m) {i : Nat} (hi : i ≤ l.length) (hlen : (encodeAll l).length + (encodeAll m).length + 1 < sizeMax) :
    ∃ r, insertMaybe M hdr s i t = some r ∧ Val M r (l.take i ++ m ++ l.drop i) ∧ (Safe s → Safe r) := by
  cases t with
  | none =>
    rw [show m = [] from ht, List.append_nil, List.take_append_drop]
    exact ⟨s, rfl, hs, id⟩
  | some t =>
    obtain ⟨r, h1, h2, h3⟩ := insert_eq hM hdr hs ht hi hlen
    exact ⟨r, h1, h2, fun _ => h3⟩

/-! ## Join -/

theorem intercalate_cons2 (sep a b : List Nat) (ms : List (List Nat)) : sep.intercalate (a :: b :: ms) = sep.intercalate ((a ++ sep ++ b) :: ms) := by
  cases ms with
  | nil => simp [List.intercalate]
  | cons c ms => simp [List.intercalate, List.intersperse]

theorem intercalate_ge (sep a : List Nat) (ms : List (List Nat)) : (encodeAll a).length ≤ (encodeAll (sep.intercalate (a :: ms))).length := by
  cases ms with
  | nil => simp [List.intercalate]
  | cons b ms =>
    rw [show sep.intercalate (a :: b :: ms) = a ++ (sep ++ sep.intercalate (b :: ms)) by simp [List.intercalate, List.intersperse], Utf8.encodeAll_append, List.length_append]
    omega

/-- Strings and their values, in order. -/
def Vals (M : Maps) : List Str → List (List Nat) → Prop
  | [], [] => True
  | t :: ts, m :: ms => Val M t m ∧ Vals M ts ms
  | _, _ => False

theorem joinLoop_eq (hM : GoodMaps M) (hdr : Nat) {sep : Option Str} {x : List Nat} (hx : ValMaybe M sep x) {ts : List Str} : ∀ {ms : List (List Nat)} {s : Str} {l : List Nat}, Vals M ts ms → Val M s l →
    (encodeAll (x.intercalate (l :: ms))).length + 1 < sizeMax → ∃ r, joinLoop M hdr sep s ts = some r ∧ Val M r (x.intercalate (l :: ms)) ∧ (Safe s → Safe r) := by
  induction ts with
  | nil =>
    intro ms s l h1 h2 _
    cases ms with
    | nil => exact ⟨s, rfl, by simpa [List.intercalate] using h2, id⟩
    | cons _ _ => exact h1.elim
  | cons t ts ih =>
    intro ms s l h1 h2 hlen
    cases ms with
    | nil => exact h1.elim
    | cons m ms =>
      rw [intercalate_cons2] at hlen ⊢
      have hge := intercalate_ge x (l ++ x ++ m) ms
      rw [Utf8.encodeAll_append, Utf8.encodeAll_append] at hge
      simp only [List.length_append] at hge
      rw [joinLoop, h2.length hM]
      simp only [Option.bind_eq_bind, Option.bind_some]
      obtain ⟨r, h3, h4, h5⟩ := insertMaybe_eq hM hdr h2 hx (Nat.le_refl _) (by omega)
      rw [List.take_length, List.drop_length, List.append_nil] at h4
      rw [h3]
      simp only [Option.bind_some]
      rw [h4.length hM]
      simp only [Option.bind_some]
      obtain ⟨r', h6, h7, h8⟩ := insert_eq hM hdr h4 h1.1 (Nat.le_refl _) (by rw [Utf8.encodeAll_append, List.length_append]; omega)
      rw [List.take_length, List.drop_length, List.append_nil] at h7
      rw [h6]
      simp only [Option.bind_some]
      obtain ⟨r2, h9, h10, h11⟩ := ih h1.2 h7 hlen
      exact ⟨r2, h9, h10, fun _ => h11 h8⟩

theorem join_eq (hM : GoodMaps M) (hdr : Nat) {sep : Option Str} {x : List Nat} (hx : ValMaybe M sep x) {ts : List Str} {ms : List (List Nat)} (h : Vals M ts ms) (hlen : (encodeAll (x.intercalate ms)).length + 1 < sizeMax) :
    ∃ r, join M hdr ts sep = some r ∧ Val M r (x.intercalate ms) ∧ ((∀ t ∈ ts, Safe t) → Safe r) := by
  cases ts with
  | nil =>
    cases ms with
    | cons _ _ => exact h.elim
    | nil =>
      obtain ⟨s, h1, h2, -⟩ := create_eq hM (e := .ascii) (l := []) (rest := []) (by simp) (mode := .ref) (pre := none) (by simp [bytesOf, sizeMax])
      refine ⟨s, h1, by simpa [List.intercalate] using h2, fun _ => ?_⟩
      obtain ⟨s', h3, h4, h5⟩ := create_eq hM (e := .ascii) (l := []) (rest := []) (by simp) (mode := .ref) (pre := none) (by simp [bytesOf, sizeMax])
      obtain ⟨r, hr, hs⟩ := createTagged_spec hM (rest := [0]) (e := .ascii) (l := []) (by simp) 3 (Nat.le_refl 3)
      cases r with
      | none => exact absurd fits_nil (hs 1 (Nat.le_refl 1) (by omega))
      | some w =>
        have : s = .tagged w := by
          have e1 : create M .ascii .ref none ([0] : List Nat) = createFromString M .ascii .ref none (bytesOf .ascii [] ++ [0]) (bytesOf .ascii []).length true := rfl
          have e2 : create M .ascii .ref none ([0] : List Nat) = some s := h1
          rw [e1, createFromString, hr] at e2
          exact (Option.some.inj e2).symm
        rw [this]; rfl
  | cons t ts =>
    cases ms with
    | nil => exact h.elim
    | cons m ms =>
      rw [join]
      obtain ⟨r, h1, h2, h3⟩ := copy_eq hM h.1
      rw [h1]
      simp only [Option.bind_eq_bind, Option.bind_some]
      obtain ⟨r', h4, h5, h6⟩ := joinLoop_eq hM hdr hx h.2 h2 hlen
      exact ⟨r', h4, h5, fun h => h6 (h3 (h t (by simp)))⟩

/-! ## Replace -/

/-- A search that starts at the beginning of a string that does not end in `m` is not missed. -/
theorem not_missed_of {s t : Str} {l m : List Nat} {i : Nat} (h : isTagged t = false ∨ ¬ m <:+ l ∨ i ≠ 0) : ¬ Missed s t l m i := by
  rintro ⟨h1, h2, -, h3⟩
  rcases h with h | h | h
  · cases s <;> cases t <;> simp [sameSet, isTagged] at h1 h
  · refine h ?_
    obtain ⟨-, h4, -⟩ := h3
    have h5 := h4.length_le
    rw [List.length_drop] at h5
    have : l.drop (l.length - m.length) = m := (h4.eq_of_length (by rw [List.length_drop]; omega)).symm
    rw [← this]
    exact List.drop_suffix _ _
  · exact h h2

theorem size_split (a b : List Nat) : (encodeAll (a ++ b)).length = (encodeAll a).length + (encodeAll b).length := by
  rw [Utf8.encodeAll_append, List.length_append]

/-- One replacement: `p` stands, `q` is `a ++ m ++ b`. -/
theorem replaceStep (hM : GoodMaps M) (hdr : Nat) {s : Str} {p q m : List Nat} (hs : Val M s (p ++ q)) {rep : Option Str} {x : List Nat} (hx : ValMaybe M rep x) {j : Nat} (hp : m <+: q.drop j) (hm : m ≠ []) (hlen : (encodeAll (p ++ q)).length + (encodeAll x).length + 1 < sizeMax) :
    ∃ s1 s2, without M hdr s (p.length + j) m.length = some s1 ∧ insertMaybe M hdr s1 (p.length + j) rep = some s2 ∧ Val M s2 ((p ++ (q.take j ++ x)) ++ q.drop (j + m.length)) ∧ (Safe s → Safe s2) ∧ j + m.length ≤ q.length := by
  have hmp : 0 < m.length := List.length_pos_iff.2 hm
  have h0 := hp.length_le
  rw [List.length_drop] at h0
  obtain ⟨s1, h1, h2, h3⟩ := without_eq hM hdr hs (off := p.length + j) (n := m.length) (by rw [List.length_append]; omega)
  have e1 : (p ++ q).take (p.length + j) = p ++ q.take j := by
    rw [List.take_append, List.take_of_length_le (by omega)]; simp
  have e2 : (p ++ q).drop (p.length + j + m.length) = q.drop (j + m.length) := by
    rw [List.drop_append, List.drop_of_length_le (by omega), Nat.add_assoc]; simp
  rw [e1, e2] at h2
  have hl : (p ++ q.take j).length = p.length + j := by rw [List.length_append, List.length_take]; omega
  have hsz : (encodeAll (p ++ q.take j ++ q.drop (j + m.length))).length ≤ (encodeAll (p ++ q)).length := by
    have : q = q.take j ++ ((q.drop j).take m.length ++ q.drop (j + m.length)) := by
      rw [show q.drop (j + m.length) = (q.drop j).drop m.length by rw [List.drop_drop], List.take_append_drop, List.take_append_drop]
    conv => rhs; rw [this]
    simp only [size_split]; omega
  obtain ⟨s2, h4, h5, h6⟩ := insertMaybe_eq hM hdr h2 hx (i := p.length + j) (by rw [List.length_append, hl]; omega) (by omega)
  rw [← hl, List.take_left, List.drop_left] at h5
  exact ⟨s1, s2, h1, h4, by simpa [List.append_assoc] using h5, fun h => h6 (h3 h), by omega⟩

theorem replaceLoop_eq (hM : GoodMaps M) (hdr : Nat) {occ : Str} {m : List Nat} (ho : Val M occ m) (hm : m ≠ []) {rep : Option Str} {x : List Nat} (hx : ValMaybe M rep x) :
    ∀ (fuel : Nat) {s : Str} {p q : List Nat} {i : Nat}, Val M s (p ++ q) → i + x.length = p.length → q.length ≤ fuel → (isTagged occ = false ∨ ¬ m <:+ q ∨ p ≠ []) →
      (isTagged occ = false ∨ ¬ m <:+ q ∨ x ≠ []) →
      (encodeAll (p ++ q)).length + q.length * (encodeAll x).length + 1 < sizeMax →
      ∃ r, replaceLoop M hdr occ rep m.length x.length s i (p ++ q).length fuel = some r ∧ Val M r (p ++ replaceAll [(m, x)] q) ∧ (Safe s → Safe r) := by
  have hmp : 0 < m.length := List.length_pos_iff.2 hm
  intro fuel
  induction fuel with
  | zero =>
    intro s p q i hs _ hf _ _ _
    have : q = [] := List.length_eq_zero_iff.1 (by omega)
    subst this
    exact ⟨s, rfl, by rw [replaceAll]; exact hs, id⟩
  | succ fuel ih =>
    intro s p q i hs hi hf hno hno' hlen
    rw [replaceLoop, hi]
    by_cases hc : p.length < (p ++ q).length
    · rw [if_pos hc]
      have hq : 0 < q.length := by rw [List.length_append] at hc; omega
      obtain ⟨r, h1, h2⟩ := find_eq hM hs ho (i := p.length) (by omega) hm
      have hnm : ¬ Missed s occ (p ++ q) m p.length := by
        rcases hno with h | h | h
        · exact not_missed_of (.inl h)
        · by_cases hp : p = []
          · subst hp; exact not_missed_of (.inr (.inl h))
          · exact not_missed_of (.inr (.inr (by simpa using hp)))
        · exact not_missed_of (.inr (.inr (by simpa using h)))
      rcases h2 with ⟨h2, -⟩ | ⟨-, h2⟩
      · rw [h1]
        simp only [Option.bind_eq_bind, Option.bind_some]
        have h3 := closest_drop (closest_single h2)
        cases r with
        | none =>
          dsimp only
          rw [replaceAll_none (ps := [(m, x)]) h3]
          exact ⟨s, rfl, hs, id⟩
        | some j =>
          dsimp only
          obtain ⟨j', rfl, h4⟩ := h3
          have h5 := replaceAll_some (ps := [(m, x)]) (by simpa using hm) h4 (p := (m, x)) rfl
          obtain ⟨-, ⟨m', h6, h7, -⟩, -⟩ := h4
          cases h6
          have hmul : 1 * (encodeAll x).length ≤ q.length * (encodeAll x).length := Nat.mul_le_mul_right _ hq
          obtain ⟨s1, s2, h8, h9, h10, h11, h12⟩ := replaceStep hM hdr hs hx h7 hm (by omega)
          rw [h8]
          simp only [Option.bind_some]
          rw [h9]
          simp only [Option.bind_some]
          have e0 : (p ++ q).length - m.length + x.length = ((p ++ (q.take j' ++ x)) ++ q.drop (j' + m.length)).length := by
            simp only [List.length_append, List.length_take, List.length_drop]; omega
          rw [e0]
          have hsuf : m <:+ q.drop (j' + m.length) → m <:+ q := fun h => h.trans (List.drop_suffix _ _)
          have hsz : (encodeAll q).length = (encodeAll (q.take j')).length + ((encodeAll ((q.drop j').take m.length)).length + (encodeAll (q.drop (j' + m.length))).length) := by
            have : q = q.take j' ++ ((q.drop j').take m.length ++ q.drop (j' + m.length)) := by
              rw [show q.drop (j' + m.length) = (q.drop j').drop m.length by rw [List.drop_drop], List.take_append_drop, List.take_append_drop]
            conv => lhs; rw [this]
            simp only [size_split]
          have hmul2 : ((q.drop (j' + m.length)).length + 1) * (encodeAll x).length ≤ q.length * (encodeAll x).length := Nat.mul_le_mul_right _ (by rw [List.length_drop]; omega)
          rw [Nat.add_mul] at hmul2
          obtain ⟨r, h13, h14, h15⟩ := ih (i := p.length + j') (p := p ++ (q.take j' ++ x)) h10 (by simp only [List.length_append, List.length_take]; omega) (by rw [List.length_drop]; omega)
            (by
              rcases hno' with h | h | h
              · exact .inl h
              · exact .inr (.inl fun h' => h (hsuf h'))
              · exact .inr (.inr (by simp [h])))
            (by
              rcases hno' with h | h | h
              · exact .inl h
              · exact .inr (.inl fun h' => h (hsuf h'))
              · exact .inr (.inr h))
            (by simp only [size_split] at hlen ⊢; omega)
          refine ⟨r, h13, ?_, fun h => h15 (h11 h)⟩
          rw [h5]
          simpa [List.append_assoc] using h14
      · exact absurd h2 hnm
    · rw [if_neg hc]
      have : q = [] := List.length_eq_zero_iff.1 (by rw [List.length_append] at hc; omega)
      subst this
      exact ⟨s, rfl, by rw [replaceAll]; exact hs, id⟩

theorem replace_eq (hM : GoodMaps M) (hdr : Nat) {s occ : Str} {l m : List Nat} (hs : Val M s l) (ho : Val M occ m) (hm : m ≠ []) {rep : Option Str} {x : List Nat} (hx : ValMaybe M rep x)
    (hno : isTagged occ = false ∨ ¬ m <:+ l ∨ (x ≠ [] ∧ ¬ Missed s occ l m 0)) (hlen : (encodeAll l).length + l.length * (encodeAll x).length + 1 < sizeMax) :
    ∃ r, replace M hdr s occ rep = some r ∧ Val M r (replaceAll [(m, x)] l) ∧ (Safe s → Safe r) := by
  have hmp : 0 < m.length := List.length_pos_iff.2 hm
  have hnm : ¬ Missed s occ l m 0 := by
    rcases hno with h | h | h
    · exact not_missed_of (.inl h)
    · exact not_missed_of (.inr (.inl h))
    · exact h.2
  obtain ⟨r, h1, h2⟩ := find_eq hM hs ho (i := 0) (Nat.zero_le _) hm
  rcases h2 with ⟨h2, -⟩ | ⟨-, h2⟩
  · rw [replace, h1]
    simp only [Option.bind_eq_bind, Option.bind_some]
    have h3 := closest_single h2
    cases r with
    | none =>
      dsimp only
      rw [replaceAll_none (ps := [(m, x)]) h3]
      exact copy_eq hM hs
    | some j =>
      dsimp only
      have h5 := replaceAll_some (ps := [(m, x)]) (by simpa using hm) h3 (p := (m, x)) rfl
      have h7 := h2.2.1
      have hq : 0 < l.length := by
        have := h7.length_le
        rw [List.length_drop] at this; omega
      have hmul : 1 * (encodeAll x).length ≤ l.length * (encodeAll x).length := Nat.mul_le_mul_right _ hq
      rw [ho.length hM]
      simp only [Option.bind_some]
      obtain ⟨s1, s2, h8, h9, h10, h11, h12⟩ := replaceStep (p := []) hM hdr hs hx h7 hm (by simp only [List.nil_append]; omega)
      simp only [List.length_nil, Nat.zero_add, List.nil_append] at h8 h9 h10
      rw [h8]
      simp only [Option.bind_some]
      rw [h9]
      simp only [Option.bind_some]
      rw [lengthMaybe_eq hM hx, h10.length hM, hs.length hM]
      simp only [Option.bind_some]
      have hsuf : m <:+ l.drop (j + m.length) → m <:+ l := fun h => h.trans (List.drop_suffix _ _)
      have hsz : (encodeAll l).length = (encodeAll (l.take j)).length + ((encodeAll ((l.drop j).take m.length)).length + (encodeAll (l.drop (j + m.length))).length) := by
        have : l = l.take j ++ ((l.drop j).take m.length ++ l.drop (j + m.length)) := by
          rw [show l.drop (j + m.length) = (l.drop j).drop m.length by rw [List.drop_drop], List.take_append_drop, List.take_append_drop]
        conv => lhs; rw [this]
        simp only [size_split]
      have hmul2 : ((l.drop (j + m.length)).length + 1) * (encodeAll x).length ≤ l.length * (encodeAll x).length := Nat.mul_le_mul_right _ (by rw [List.length_drop]; omega)
      rw [Nat.add_mul] at hmul2
      have hno' : isTagged occ = false ∨ ¬ m <:+ l.drop (j + m.length) ∨ x ≠ [] := by
        rcases hno with h | h | h
        · exact .inl h
        · exact .inr (.inl fun h' => h (hsuf h'))
        · exact .inr (.inr h.1)
      obtain ⟨r, h13, h14, h15⟩ := replaceLoop_eq hM hdr ho hm hx l.length (i := j) (p := l.take j ++ x) h10 (by simp only [List.length_append, List.length_take]; omega) (by rw [List.length_drop]; omega)
        (by
          rcases hno' with h | h | h
          · exact .inl h
          · exact .inr (.inl h)
          · exact .inr (.inr (by simp [h])))
        hno' (by simp only [size_split] at hlen ⊢; omega)
      refine ⟨r, h13, ?_, fun h => h15 (h11 h)⟩
      rw [h5]
      simpa [List.append_assoc] using h14
  · exact absurd h2 hnm

/-- A missed occurrence: the copy is unchanged. -/
theorem replace_missed (hM : GoodMaps M) (hdr : Nat) {s occ : Str} {l m : List Nat} (hs : Val M s l) (ho : Val M occ m) (hm : m ≠ []) (rep : Option Str) (h : Missed s occ l m 0) :
    replace M hdr s occ rep = some s := by
  obtain ⟨r, h1, h2⟩ := find_eq hM hs ho (i := 0) (Nat.zero_le _) hm
  rcases h2 with ⟨-, h2⟩ | ⟨rfl, -⟩
  · exact absurd h h2
  · rw [replace, h1]
    obtain ⟨-, -, ⟨w, rfl, -⟩, -⟩ := h
    rfl

/-! ## Split -/

theorem splitLoop_eq (hM : GoodMaps M) (hdr : Nat) {s occ : Str} {l m : List Nat} (hs : Val M s l) (ho : Val M occ m) (hm : m ≠ []) :
    ∀ (fuel : Nat) {off : Nat}, 0 < off → off ≤ l.length → l.length < off + fuel → ∃ rs, splitLoop M hdr s occ m.length off fuel = some rs ∧ Vals M rs (splitAll [m] (l.drop off)) ∧ ∀ r ∈ rs, Safe r := by
  have hmp : 0 < m.length := List.length_pos_iff.2 hm
  intro fuel
  induction fuel with
  | zero => intro off _ _ _; omega
  | succ fuel ih =>
    intro off h0 h1 h2
    obtain ⟨r, h3, h4⟩ := find_eq hM hs ho h1 hm
    have hnm : ¬ Missed s occ l m off := not_missed_of (.inr (.inr (by omega)))
    replace h4 : IsFirst l m off r := by
      rcases h4 with h | h
      · exact h.1
      · exact absurd h.2 hnm
    rw [splitLoop, h3]
    simp only [Option.bind_eq_bind, Option.bind_some]
    have h5 : IsClosest (l.take off ++ l.drop off) [m] (l.take off).length (r.map fun j => (j, 0)) := by
      rw [List.take_append_drop, List.length_take, Nat.min_eq_left h1]; exact closest_single h4
    have h6 := closest_drop h5
    cases r with
    | none =>
      dsimp only
      rw [splitAll_none h6, hs.length hM]
      simp only [Option.bind_some]
      rw [sub64, if_pos h1]
      obtain ⟨t, h7, h8, h9⟩ := copySubstring_eq hM hdr hs (off := off) (n := l.length - off) (by omega)
      rw [h7]
      rw [List.take_of_length_le (by rw [List.length_drop]; omega)] at h8
      exact ⟨[t], rfl, ⟨h8, trivial⟩, by simpa using h9⟩
    | some j =>
      dsimp only
      obtain ⟨j', h7, h8⟩ := h6
      rw [List.length_take, Nat.min_eq_left h1] at h7
      subst h7
      have h9 := splitAll_some (ms := [m]) (by simpa using hm) h8 (p := m) rfl
      have h10 := h4.2.1.length_le
      rw [List.length_drop] at h10
      obtain ⟨t, h11, h12, h13⟩ := copySubstring_eq hM hdr hs (off := off) (n := j') (by omega)
      rw [show off + j' - off = j' by omega, h11]
      obtain ⟨rs, h14, h15, h16⟩ := ih (off := off + j' + m.length) (by omega) (by omega) (by omega)
      rw [h14, h9]
      rw [List.drop_drop, show off + (j' + m.length) = off + j' + m.length by omega]
      refine ⟨t :: rs, rfl, ⟨h12, h15⟩, ?_⟩
      intro r hr
      rcases List.mem_cons.1 hr with rfl | hr
      · exact h13
      · exact h16 r hr

theorem split_eq (hM : GoodMaps M) (hdr : Nat) {s occ : Str} {l m : List Nat} (hs : Val M s l) (ho : Val M occ m) (hm : m ≠ []) (hnm : ¬ Missed s occ l m 0) :
    ∃ rs, split M hdr s occ = some rs ∧ Vals M rs (splitAll [m] l) ∧ (Safe s → ∀ r ∈ rs, Safe r) := by
  have hmp : 0 < m.length := List.length_pos_iff.2 hm
  obtain ⟨r, h3, h4⟩ := find_eq hM hs ho (Nat.zero_le _) hm
  replace h4 : IsFirst l m 0 r := by
    rcases h4 with h | h
    · exact h.1
    · exact absurd h.2 hnm
  rw [split, h3]
  simp only [Option.bind_eq_bind, Option.bind_some]
  have h6 := closest_single h4
  cases r with
  | none =>
    dsimp only
    rw [splitAll_none h6]
    obtain ⟨t, h7, h8, h9⟩ := copy_eq hM hs
    rw [h7]
    exact ⟨[t], rfl, ⟨h8, trivial⟩, by simpa using h9⟩
  | some j =>
    dsimp only
    have h9 := splitAll_some (ms := [m]) (by simpa using hm) h6 (p := m) rfl
    have h10 := h4.2.1.length_le
    rw [List.length_drop] at h10
    obtain ⟨t, h11, h12, h13⟩ := copySubstring_eq hM hdr hs (off := 0) (n := j) (by omega)
    obtain ⟨rs, h14, h15, h16⟩ := splitLoop_eq hM hdr hs ho hm (l.length + 1) (off := j + m.length) (by omega) (by omega) (by omega)
    rw [ho.length hM, h11, hs.length hM]
    simp only [Option.bind_some]
    rw [h14, h9]
    refine ⟨t :: rs, rfl, ⟨h12, h15⟩, ?_⟩
    intro _ r hr
    rcases List.mem_cons.1 hr with rfl | hr
    · exact h13
    · exact h16 r hr

/-- A missed occurrence: one piece, the whole string. -/
theorem split_missed (hM : GoodMaps M) (hdr : Nat) {s occ : Str} {l m : List Nat} (hs : Val M s l) (ho : Val M occ m) (hm : m ≠ []) (h : Missed s occ l m 0) :
    split M hdr s occ = some [s] := by
  obtain ⟨r, h1, h2⟩ := find_eq hM hs ho (i := 0) (Nat.zero_le _) hm
  rcases h2 with ⟨-, h2⟩ | ⟨rfl, -⟩
  · exact absurd h h2
  · rw [split, h1]
    obtain ⟨-, -, ⟨w, rfl, -⟩, -⟩ := h
    rfl

end
end Verif.Str
