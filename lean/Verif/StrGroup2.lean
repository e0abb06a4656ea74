import Verif.StrGroup
/-!
# Replacing and splitting by several strings
-/
namespace Verif.Str
open Utf8.Spec (Scalar encode encodeAll)
open Spec (IsFirst replaceAll splitAll)

section
variable {M : Maps}

theorem Vals.length {ts : List Str} : ∀ {ms : List (List Nat)}, Vals M ts ms → ts.length = ms.length := by
  induction ts with
  | nil => intro ms h; cases ms with
    | nil => rfl
    | cons _ _ => exact h.elim
  | cons t ts ih => intro ms h; cases ms with
    | nil => exact h.elim
    | cons m ms => rw [List.length_cons, List.length_cons, ih h.2]

theorem Vals.get {ts : List Str} : ∀ {ms : List (List Nat)}, Vals M ts ms → ∀ {f : Nat} {m : List Nat}, ms[f]? = some m → ∃ t, ts[f]? = some t ∧ Val M t m := by
  induction ts with
  | nil => intro ms h f m hm; cases ms with
    | nil => simp at hm
    | cons _ _ => exact h.elim
  | cons t ts ih =>
    intro ms h f m hm
    cases ms with
    | nil => exact h.elim
    | cons m' ms =>
      cases f with
      | zero => simp only [List.getElem?_cons_zero, Option.some.injEq] at hm; exact ⟨t, rfl, hm ▸ h.1⟩
      | succ f => rw [List.getElem?_cons_succ] at hm ⊢; exact ih h.2 hm

/-- The same for strings that may be null. -/
def ValsMaybe (M : Maps) : List (Option Str) → List (List Nat) → Prop
  | [], [] => True
  | t :: ts, m :: ms => ValMaybe M t m ∧ ValsMaybe M ts ms
  | _, _ => False

theorem ValsMaybe.get {ts : List (Option Str)} : ∀ {ms : List (List Nat)}, ValsMaybe M ts ms → ∀ {f : Nat} {m : List Nat}, ms[f]? = some m → ∃ t, ts[f]? = some t ∧ ValMaybe M t m := by
  induction ts with
  | nil => intro ms h f m hm; cases ms with
    | nil => simp at hm
    | cons _ _ => exact h.elim
  | cons t ts ih =>
    intro ms h f m hm
    cases ms with
    | nil => exact h.elim
    | cons m' ms =>
      cases f with
      | zero => simp only [List.getElem?_cons_zero, Option.some.injEq] at hm; exact ⟨t, rfl, hm ▸ h.1⟩
      | succ f => rw [List.getElem?_cons_succ] at hm ⊢; exact ih h.2 hm

theorem getElem?_snoc_cases {pre : List (List Nat)} {m m' : List Nat} {g : Nat} (h : (pre ++ [m])[g]? = some m') : pre[g]? = some m' ∨ g = pre.length ∧ m' = m := by
  rcases Nat.lt_trichotomy g pre.length with h1 | h1 | h1
  · left; rwa [List.getElem?_append_left h1] at h
  · right; subst h1; simp at h; exact ⟨rfl, h.symm⟩
  · rw [List.getElem?_eq_none (by simp; omega)] at h; simp at h

/-- Adding a string to the end of the list of those searched. -/
theorem closest_snoc {l m : List Nat} {i : Nat} {pre : List (List Nat)} {b : Option (Nat × Nat)} (hb : IsClosest l pre i b) {r : Option Nat} (hr : IsFirst l m i r) :
    IsClosest l (pre ++ [m]) i (match r, b with
      | none, b => b
      | some j, none => some (j, pre.length)
      | some j, some (j', f) => if j < j' then some (j, pre.length) else some (j', f)) := by
  have keep : ∀ {f m'}, pre[f]? = some m' → (pre ++ [m])[f]? = some m' := fun {f m'} h => by
    rw [List.getElem?_append_left]; · exact h
    exact (List.getElem?_eq_some_iff.1 h).1
  match r, b with
  | none, none =>
    intro x hx k hk
    rcases List.mem_append.1 hx with hx | hx
    · exact hb x hx k hk
    · rw [List.mem_singleton.1 hx]; exact hr k hk
  | none, some (j', f) =>
    obtain ⟨h1, ⟨x, h2, h3, h4⟩, h5⟩ := hb
    refine ⟨h1, ⟨x, keep h2, h3, fun g m' hg hm => ?_⟩, fun x hx k h6 h7 => ?_⟩
    · rcases getElem?_snoc_cases hm with h | ⟨h, rfl⟩
      · exact h4 g m' hg h
      · exact hr _ h1
    · rcases List.mem_append.1 hx with hx | hx
      · exact h5 x hx k h6 h7
      · rw [List.mem_singleton.1 hx]; exact hr k h6
  | some j, none =>
    refine ⟨hr.1, ⟨m, by simp, hr.2.1, fun g m' hg hm => ?_⟩, fun x hx k h6 h7 => ?_⟩
    · rcases getElem?_snoc_cases hm with h | ⟨h, rfl⟩
      · exact hb m' (List.mem_of_getElem? h) j hr.1
      · omega
    · rcases List.mem_append.1 hx with hx | hx
      · exact hb x hx k h6
      · rw [List.mem_singleton.1 hx]; exact hr.2.2 k h6 h7
  | some j, some (j', f) =>
    obtain ⟨h1, ⟨x, h2, h3, h4⟩, h5⟩ := hb
    dsimp only
    by_cases hj : j < j'
    · rw [if_pos hj]
      refine ⟨hr.1, ⟨m, by simp, hr.2.1, fun g m' hg hm => ?_⟩, fun x hx k h6 h7 => ?_⟩
      · rcases getElem?_snoc_cases hm with h | ⟨h, rfl⟩
        · exact h5 m' (List.mem_of_getElem? h) j hr.1 hj
        · omega
      · rcases List.mem_append.1 hx with hx | hx
        · exact h5 x hx k h6 (by omega)
        · rw [List.mem_singleton.1 hx]; exact hr.2.2 k h6 h7
    · rw [if_neg hj]
      have hf := (List.getElem?_eq_some_iff.1 h2).1
      refine ⟨h1, ⟨x, keep h2, h3, fun g m' hg hm => ?_⟩, fun x hx k h6 h7 => ?_⟩
      · rcases getElem?_snoc_cases hm with h | ⟨h, rfl⟩
        · exact h4 g m' hg h
        · omega
      · rcases List.mem_append.1 hx with hx | hx
        · exact h5 x hx k h6 h7
        · rw [List.mem_singleton.1 hx]; exact hr.2.2 k h6 (by omega)

/-- No search from `i` of any of the strings is missed. -/
def NoMiss (s : Str) (l : List Nat) (i : Nat) : List Str → List (List Nat) → Prop
  | t :: ts, m :: ms => ¬ Missed s t l m i ∧ NoMiss s l i ts ms
  | _, _ => True

theorem closestLoop_eq (hM : GoodMaps M) {s : Str} {l : List Nat} (hs : Val M s l) {i : Nat} (hi : i ≤ l.length) {ts : List Str} : ∀ {ms pre : List (List Nat)} {b : Option (Nat × Nat)},
    Vals M ts ms → (∀ m ∈ ms, m ≠ []) → NoMiss s l i ts ms → IsClosest l pre i b → ∃ r, closestLoop M s i b pre.length ts = some r ∧ IsClosest l (pre ++ ms) i r := by
  induction ts with
  | nil =>
    intro ms pre b h _ _ hb
    cases ms with
    | nil => exact ⟨b, rfl, by simpa using hb⟩
    | cons _ _ => exact h.elim
  | cons t ts ih =>
    intro ms pre b h hne hno hb
    cases ms with
    | nil => exact h.elim
    | cons m ms =>
      obtain ⟨r, h1, h2⟩ := find_eq hM hs h.1 hi (hne m (by simp))
      replace h2 : IsFirst l m i r := by
        rcases h2 with h | h
        · exact h.1
        · exact absurd h.2 hno.1
      have hsn := closest_snoc hb h2
      have key := ih (pre := pre ++ [m]) (b := _) h.2 (fun m hm => hne m (by simp [hm])) hno.2 hsn
      rw [List.length_append, List.append_assoc] at key
      rw [closestLoop, h1]
      simp only [Option.bind_eq_bind, Option.bind_some]
      match r, b with
      | none, b => exact key
      | some j, none => exact key
      | some j, some (j', f) => exact key

theorem closest_eq (hM : GoodMaps M) {s : Str} {l : List Nat} (hs : Val M s l) {i : Nat} (hi : i ≤ l.length) {ts : List Str} {ms : List (List Nat)} (h : Vals M ts ms) (hne : ∀ m ∈ ms, m ≠ []) (hno : NoMiss s l i ts ms) :
    ∃ r, closest M s i ts = some r ∧ IsClosest l ms i r :=
  closestLoop_eq hM hs hi (pre := []) (b := none) h hne hno (fun m hm => by simp at hm)

/-- None of the strings is tagged and at the end of `l`. -/
def NoTail (l : List Nat) : List Str → List (List Nat) → Prop
  | t :: ts, m :: ms => (isTagged t = false ∨ ¬ m <:+ l) ∧ NoTail l ts ms
  | _, _ => True

theorem NoTail.noMiss {s : Str} {l : List Nat} {ts : List Str} : ∀ {ms : List (List Nat)}, NoTail l ts ms → NoMiss s l 0 ts ms := by
  induction ts with
  | nil => intro ms _; trivial
  | cons t ts ih => intro ms h; cases ms with
    | nil => trivial
    | cons m ms =>
      refine ⟨not_missed_of ?_, ih h.2⟩
      rcases h.1 with h | h
      · exact .inl h
      · exact .inr (.inl h)

theorem noMiss_pos {s : Str} {l : List Nat} {i : Nat} (hi : i ≠ 0) {ts : List Str} : ∀ {ms : List (List Nat)}, NoMiss s l i ts ms := by
  induction ts with
  | nil => intro ms; trivial
  | cons t ts ih => intro ms; cases ms with
    | nil => trivial
    | cons m ms => exact ⟨not_missed_of (.inr (.inr hi)), ih⟩

theorem NoTail.drop {l : List Nat} {ts : List Str} (n : Nat) : ∀ {ms : List (List Nat)}, NoTail l ts ms → NoTail (l.drop n) ts ms := by
  induction ts with
  | nil => intro ms _; trivial
  | cons t ts ih => intro ms h; cases ms with
    | nil => trivial
    | cons m ms => exact ⟨h.1.imp_right fun h h' => h (h'.trans (List.drop_suffix _ _)), ih h.2⟩

theorem encodeAll_sum (q : List Nat) (j k : Nat) : (encodeAll q).length = (encodeAll (q.take j)).length + ((encodeAll ((q.drop j).take k)).length + (encodeAll (q.drop (j + k))).length) := by
  have : q = q.take j ++ ((q.drop j).take k ++ q.drop (j + k)) := by
    rw [show q.drop (j + k) = (q.drop j).drop k by rw [List.drop_drop], List.take_append_drop, List.take_append_drop]
  conv => lhs; rw [this]
  simp only [size_split]

theorem get_pair {ps : List (List Nat × List Nat)} {f : Nat} {m : List Nat} (h : (ps.map Prod.fst)[f]? = some m) : ∃ x, ps[f]? = some (m, x) ∧ (ps.map Prod.snd)[f]? = some x := by
  rw [List.getElem?_map] at h
  cases hp : ps[f]? with
  | none => rw [hp] at h; simp at h
  | some p =>
    rw [hp] at h
    simp only [Option.map_some, Option.some.injEq] at h
    exact ⟨p.2, by rw [← h], by rw [List.getElem?_map, hp]; rfl⟩

theorem replaceGroupedLoop_eq (hM : GoodMaps M) (hdr : Nat) {occs : List Str} {reps : List (Option Str)} {ps : List (List Nat × List Nat)} (ho : Vals M occs (ps.map Prod.fst)) (hr : ValsMaybe M reps (ps.map Prod.snd))
    (hne : ∀ p ∈ ps, p.1 ≠ []) {big : Nat} (hbig : ∀ p ∈ ps, (encodeAll p.2).length ≤ big) :
    ∀ (fuel : Nat) {s : Str} {p q : List Nat} {i r : Nat}, Val M s (p ++ q) → i + r = p.length → q.length ≤ fuel → (NoTail q occs (ps.map Prod.fst) ∨ p ≠ [] ∧ ∀ x ∈ ps, x.2 ≠ []) →
      (encodeAll (p ++ q)).length + q.length * big + 1 < sizeMax →
      ∃ r', replaceGroupedLoop M hdr occs reps s i r (p ++ q).length fuel = some r' ∧ Val M r' (p ++ replaceAll ps q) ∧ (Safe s → Safe r') := by
  intro fuel
  induction fuel with
  | zero =>
    intro s p q i r hs _ hf _ _
    have : q = [] := List.length_eq_zero_iff.1 (by omega)
    subst this
    exact ⟨s, rfl, by rw [replaceAll]; exact hs, id⟩
  | succ fuel ih =>
    intro s p q i r hs hi hf hno hlen
    rw [replaceGroupedLoop, hi]
    by_cases hc : p.length < (p ++ q).length
    · rw [if_pos hc]
      have hq : 0 < q.length := by rw [List.length_append] at hc; omega
      have hnm : NoMiss s (p ++ q) p.length occs (ps.map Prod.fst) := by
        by_cases hp : p = []
        · subst hp
          rcases hno with h | h
          · exact h.noMiss
          · exact absurd rfl h.1
        · exact noMiss_pos (by simpa using hp)
      obtain ⟨r0, h1, h2⟩ := closest_eq hM hs (i := p.length) (by omega) ho (by simpa using fun a b h => hne (a, b) h) hnm
      rw [h1]
      simp only [Option.bind_eq_bind, Option.bind_some]
      have h3 := closest_drop h2
      match r0, h3 with
      | none, h3 =>
        dsimp only
        rw [replaceAll_none h3]
        exact ⟨s, rfl, hs, id⟩
      | some (j, f), h3 =>
        dsimp only at h3 ⊢
        obtain ⟨j', rfl, h4⟩ := h3
        have h4' := h4
        obtain ⟨-, ⟨m, h6, h7, -⟩, -⟩ := h4
        obtain ⟨x, hf1, hf2⟩ := get_pair h6
        have h5 := replaceAll_some hne h4' hf1
        have hmem := List.mem_of_getElem? hf1
        have hm : m ≠ [] := hne _ hmem
        have hmp : 0 < m.length := List.length_pos_iff.2 hm
        have hxb : (encodeAll x).length ≤ big := hbig _ hmem
        obtain ⟨occ, g1, g2⟩ := ho.get h6
        obtain ⟨rep, g3, g4⟩ := hr.get hf2
        have hmul : 1 * big ≤ q.length * big := Nat.mul_le_mul_right _ hq
        obtain ⟨s1, s2, h8, h9, h10, h11, h12⟩ := replaceStep hM hdr hs g4 h7 hm (by omega)
        rw [g1]
        simp only [Option.bind_some]
        rw [g2.length hM]
        simp only [Option.bind_some]
        rw [h8, g3]
        simp only [Option.bind_some]
        rw [h9]
        simp only [Option.bind_some]
        rw [lengthMaybe_eq hM g4, h10.length hM]
        simp only [Option.bind_some]
        have hsz := encodeAll_sum q j' m.length
        have hmul2 : ((q.drop (j' + m.length)).length + 1) * big ≤ q.length * big := Nat.mul_le_mul_right _ (by rw [List.length_drop]; omega)
        rw [Nat.add_mul] at hmul2
        obtain ⟨r, h13, h14, h15⟩ := ih (i := p.length + j') (r := x.length) (p := p ++ (q.take j' ++ x)) h10 (by simp only [List.length_append, List.length_take]; omega) (by rw [List.length_drop]; omega)
          (by
            rcases hno with h | h
            · exact .inl (h.drop _)
            · exact .inr ⟨by simp [h.1], h.2⟩)
          (by simp only [size_split] at hlen ⊢; omega)
        refine ⟨r, h13, ?_, fun h => h15 (h11 h)⟩
        rw [h5]
        simpa [List.append_assoc] using h14
    · rw [if_neg hc]
      have : q = [] := List.length_eq_zero_iff.1 (by rw [List.length_append] at hc; omega)
      subst this
      exact ⟨s, rfl, by rw [replaceAll]; exact hs, id⟩

theorem replaceGrouped_eq (hM : GoodMaps M) (hdr : Nat) {s : Str} {l : List Nat} (hs : Val M s l) {occs : List Str} {reps : List (Option Str)} {ps : List (List Nat × List Nat)} (ho : Vals M occs (ps.map Prod.fst)) (hr : ValsMaybe M reps (ps.map Prod.snd))
    (hne : ∀ p ∈ ps, p.1 ≠ []) {big : Nat} (hbig : ∀ p ∈ ps, (encodeAll p.2).length ≤ big) (hno : NoTail l occs (ps.map Prod.fst) ∨ NoMiss s l 0 occs (ps.map Prod.fst) ∧ ∀ x ∈ ps, x.2 ≠ [])
    (hlen : (encodeAll l).length + l.length * big + 1 < sizeMax) :
    ∃ r, replaceGrouped M hdr s occs reps = some r ∧ Val M r (replaceAll ps l) ∧ (Safe s → Safe r) := by
  have hnm : NoMiss s l 0 occs (ps.map Prod.fst) := by
    rcases hno with h | h
    · exact h.noMiss
    · exact h.1
  obtain ⟨r0, h1, h2⟩ := closest_eq hM hs (i := 0) (Nat.zero_le _) ho (by simpa using fun a b h => hne (a, b) h) hnm
  rw [replaceGrouped, h1]
  simp only [Option.bind_eq_bind, Option.bind_some]
  match r0, h2 with
  | none, h3 =>
    dsimp only
    rw [replaceAll_none h3]
    exact copy_eq hM hs
  | some (j, f), h4 =>
    dsimp only
    have h4' := h4
    obtain ⟨-, ⟨m, h6, h7, -⟩, -⟩ := h4
    obtain ⟨x, hf1, hf2⟩ := get_pair h6
    have h5 := replaceAll_some hne h4' hf1
    have hmem := List.mem_of_getElem? hf1
    have hm : m ≠ [] := hne _ hmem
    have hmp : 0 < m.length := List.length_pos_iff.2 hm
    have hxb : (encodeAll x).length ≤ big := hbig _ hmem
    have hq : 0 < l.length := by
      have := h7.length_le
      rw [List.length_drop] at this; omega
    obtain ⟨occ, g1, g2⟩ := ho.get h6
    obtain ⟨rep, g3, g4⟩ := hr.get hf2
    have hmul : 1 * big ≤ l.length * big := Nat.mul_le_mul_right _ hq
    obtain ⟨s1, s2, h8, h9, h10, h11, h12⟩ := replaceStep (p := []) hM hdr hs g4 h7 hm (by simp only [List.nil_append]; omega)
    simp only [List.length_nil, Nat.zero_add, List.nil_append] at h8 h9 h10
    rw [g1]
    simp only [Option.bind_some]
    rw [g2.length hM]
    simp only [Option.bind_some]
    rw [h8, g3]
    simp only [Option.bind_some]
    rw [h9]
    simp only [Option.bind_some]
    rw [lengthMaybe_eq hM g4, h10.length hM, hs.length hM]
    simp only [Option.bind_some]
    have hsz := encodeAll_sum l j m.length
    have hmul2 : ((l.drop (j + m.length)).length + 1) * big ≤ l.length * big := Nat.mul_le_mul_right _ (by rw [List.length_drop]; omega)
    rw [Nat.add_mul] at hmul2
    obtain ⟨r, h13, h14, h15⟩ := replaceGroupedLoop_eq hM hdr ho hr hne hbig l.length (i := j) (r := x.length) (p := l.take j ++ x) h10 (by simp only [List.length_append, List.length_take]; omega) (by rw [List.length_drop]; omega)
      (by
        rcases hno with h | h
        · exact .inl (h.drop _)
        · exact .inr ⟨by simp [h.2 _ hmem], h.2⟩)
      (by simp only [size_split] at hlen ⊢; omega)
    refine ⟨r, h13, ?_, fun h => h15 (h11 h)⟩
    rw [h5]
    simpa [List.append_assoc] using h14

theorem splitGroupedLoop_eq (hM : GoodMaps M) (hdr : Nat) {s : Str} {l : List Nat} (hs : Val M s l) {occs : List Str} {ms : List (List Nat)} (ho : Vals M occs ms) (hne : ∀ m ∈ ms, m ≠ []) :
    ∀ (fuel : Nat) {off : Nat}, 0 < off → off ≤ l.length → l.length < off + fuel → ∃ rs, splitGroupedLoop M hdr s occs off fuel = some rs ∧ Vals M rs (splitAll ms (l.drop off)) ∧ ∀ r ∈ rs, Safe r := by
  intro fuel
  induction fuel with
  | zero => intro off _ _ _; omega
  | succ fuel ih =>
    intro off h0 h1 h2
    obtain ⟨r, h3, h4⟩ := closest_eq hM hs h1 ho hne (noMiss_pos (by omega))
    rw [splitGroupedLoop, h3]
    simp only [Option.bind_eq_bind, Option.bind_some]
    have h5 : IsClosest (l.take off ++ l.drop off) ms (l.take off).length r := by
      rw [List.take_append_drop, List.length_take, Nat.min_eq_left h1]; exact h4
    have h6 := closest_drop h5
    match r, h4, h6 with
    | none, _, h6 =>
      dsimp only
      rw [splitAll_none h6, hs.length hM]
      simp only [Option.bind_some]
      rw [sub64, if_pos h1]
      obtain ⟨t, h7, h8, h9⟩ := copySubstring_eq hM hdr hs (off := off) (n := l.length - off) (by omega)
      rw [h7]
      rw [List.take_of_length_le (by rw [List.length_drop]; omega)] at h8
      exact ⟨[t], rfl, ⟨h8, trivial⟩, by simpa using h9⟩
    | some (j, f), h4, h6 =>
      dsimp only at h6 ⊢
      obtain ⟨j', h7, h8⟩ := h6
      rw [List.length_take, Nat.min_eq_left h1] at h7
      subst h7
      obtain ⟨-, ⟨m, g1, g2, -⟩, -⟩ := h4
      have hm := hne m (List.mem_of_getElem? g1)
      have hmp : 0 < m.length := List.length_pos_iff.2 hm
      have h9 := splitAll_some hne h8 g1
      have h10 := g2.length_le
      rw [List.length_drop] at h10
      obtain ⟨occ, g3, g4⟩ := ho.get g1
      obtain ⟨t, h11, h12, h13⟩ := copySubstring_eq hM hdr hs (off := off) (n := j') (by omega)
      rw [show off + j' - off = j' by omega, h11, g3]
      simp only [Option.bind_some]
      rw [g4.length hM]
      simp only [Option.bind_some]
      obtain ⟨rs, h14, h15, h16⟩ := ih (off := off + j' + m.length) (by omega) (by omega) (by omega)
      rw [h14, h9]
      rw [List.drop_drop, show off + (j' + m.length) = off + j' + m.length by omega]
      refine ⟨t :: rs, rfl, ⟨h12, h15⟩, ?_⟩
      intro r hr
      rcases List.mem_cons.1 hr with rfl | hr
      · exact h13
      · exact h16 r hr

theorem splitGrouped_eq (hM : GoodMaps M) (hdr : Nat) {s : Str} {l : List Nat} (hs : Val M s l) {occs : List Str} {ms : List (List Nat)} (ho : Vals M occs ms) (hne : ∀ m ∈ ms, m ≠ []) (hnm : NoMiss s l 0 occs ms) :
    ∃ rs, splitGrouped M hdr s occs = some rs ∧ Vals M rs (splitAll ms l) ∧ (Safe s → ∀ r ∈ rs, Safe r) := by
  obtain ⟨r, h3, h4⟩ := closest_eq hM hs (Nat.zero_le _) ho hne hnm
  rw [splitGrouped, h3]
  simp only [Option.bind_eq_bind, Option.bind_some]
  match r, h4 with
  | none, h6 =>
    dsimp only
    rw [splitAll_none h6]
    obtain ⟨t, h7, h8, h9⟩ := copy_eq hM hs
    rw [h7]
    exact ⟨[t], rfl, ⟨h8, trivial⟩, by simpa using h9⟩
  | some (j, f), h4 =>
    dsimp only
    have h4' := h4
    obtain ⟨-, ⟨m, g1, g2, -⟩, -⟩ := h4
    have hm := hne m (List.mem_of_getElem? g1)
    have hmp : 0 < m.length := List.length_pos_iff.2 hm
    have h9 := splitAll_some hne h4' g1
    have h10 := g2.length_le
    rw [List.length_drop] at h10
    obtain ⟨occ, g3, g4⟩ := ho.get g1
    obtain ⟨t, h11, h12, h13⟩ := copySubstring_eq hM hdr hs (off := 0) (n := j) (by omega)
    obtain ⟨rs, h14, h15, h16⟩ := splitGroupedLoop_eq hM hdr hs ho hne (l.length + 1) (off := j + m.length) (by omega) (by omega) (by omega)
    rw [h11, g3]
    simp only [Option.bind_some]
    rw [g4.length hM, hs.length hM]
    simp only [Option.bind_some]
    rw [h14, h9]
    refine ⟨t :: rs, rfl, ⟨h12, h15⟩, ?_⟩
    intro _ r hr
    rcases List.mem_cons.1 hr with rfl | hr
    · exact h13
    · exact h16 r hr

end
end Verif.Str
