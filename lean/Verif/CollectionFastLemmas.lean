import Verif.CollectionLemmas
import Mathlib.Data.List.Induction
/-!
# The fast array implementation obeys the laws
-/
namespace Verif.Collection
open Spec

section batch
variable {α : Type}

theorem visit_fwd {adv : Cursor α → Option (Cursor α × Option α)} {a : List α} {P : Cursor α × α → Entry × α → Prop} {l : Ledger α}
    (hl : l.length = a.length) (hP : ∀ (i : Nat) x p, a[i]? = some x → l[i]? = some p → P (.batch a i, x) p)
    (hadv : ∀ i, i + 1 < a.length → adv (.batch a i) = some (.batch a (i + 1), a[i + 1]?))
    (hend : ∀ i, i + 1 = a.length → ∃ c, adv (.batch a i) = some (c, none)) :
    ∀ k i f, i + k = a.length → k ≤ f → ∃ v, visit adv f (.batch a i) a[i]? = some v ∧ List.Forall₂ P v (l.drop i) := by
  intro k
  induction k with
  | zero =>
    intro i f h _
    have h1 : a[i]? = none := List.getElem?_eq_none (by omega)
    refine ⟨[], by rw [h1]; cases f <;> rfl, ?_⟩
    rw [List.drop_eq_nil_of_le (by omega)]; exact .nil
  | succ k ih =>
    intro i f h hf
    obtain ⟨f, rfl⟩ : ∃ g, f = g + 1 := ⟨f - 1, by omega⟩
    have hi : i < a.length := by omega
    have hi' : i < l.length := by omega
    rw [List.getElem?_eq_getElem hi, List.drop_eq_getElem_cons hi']
    have hp : P (.batch a i, a[i]) l[i] := hP i _ _ (List.getElem?_eq_getElem hi) (List.getElem?_eq_getElem hi')
    by_cases hlast : i + 1 < a.length
    · obtain ⟨v, h1, h2⟩ := ih (i + 1) f (by omega) (by omega)
      exact ⟨_, by simp [visit, hadv i hlast, h1], .cons hp h2⟩
    · obtain ⟨c, hc⟩ := hend i (by omega)
      refine ⟨[(.batch a i, a[i])], ?_, .cons hp ?_⟩
      · cases f <;> simp [visit, hc]
      · rw [List.drop_eq_nil_of_le (by omega)]; exact .nil

theorem visit_bwd {adv : Cursor α → Option (Cursor α × Option α)} {a : List α} {P : Cursor α × α → Entry × α → Prop} {l : Ledger α}
    (hl : l.length = a.length) (hP : ∀ (i : Nat) x p, a[i]? = some x → l[i]? = some p → P (.batch a i, x) p)
    (hadv : ∀ i, 0 < i → i < a.length → adv (.batch a i) = some (.batch a (i - 1), a[i - 1]?))
    (hend : 0 < a.length → ∃ c, adv (.batch a 0) = some (c, none)) :
    ∀ i f, i < a.length → i < f → ∃ v, visit adv f (.batch a i) a[i]? = some v ∧ List.Forall₂ P v (l.take (i + 1)).reverse := by
  intro i
  induction i with
  | zero =>
    intro f h hf
    obtain ⟨f, rfl⟩ : ∃ g, f = g + 1 := ⟨f - 1, by omega⟩
    obtain ⟨c, hc⟩ := hend h
    have hi' : 0 < l.length := by omega
    have hp : P (.batch a 0, a[0]) l[0] := hP 0 _ _ (List.getElem?_eq_getElem h) (List.getElem?_eq_getElem hi')
    rw [List.getElem?_eq_getElem h]
    refine ⟨[(.batch a 0, a[0])], by cases f <;> simp [visit, hc], ?_⟩
    rw [List.take_succ, List.getElem?_eq_getElem hi']; exact .cons hp .nil
  | succ i ih =>
    intro f h hf
    obtain ⟨f, rfl⟩ : ∃ g, f = g + 1 := ⟨f - 1, by omega⟩
    obtain ⟨v, h1, h2⟩ := ih f (by omega) (by omega)
    have hi' : i + 1 < l.length := by omega
    have hp : P (.batch a (i + 1), a[i + 1]) l[i + 1] := hP _ _ _ (List.getElem?_eq_getElem h) (List.getElem?_eq_getElem hi')
    rw [List.getElem?_eq_getElem h]
    refine ⟨(.batch a (i + 1), a[i + 1]) :: v, by simp [visit, hadv (i + 1) (by omega) h, h1], ?_⟩
    rw [List.take_succ, List.getElem?_eq_getElem hi']
    simp only [Option.toList_some, List.reverse_append, List.reverse_singleton, List.singleton_append]
    exact List.Forall₂.cons hp h2

end batch

namespace Fast
variable {α : Type}

/-- Elements labelled with their position plus one. -/
def lab (a : List α) : Ledger α := a.mapIdx fun i x => (i + 1, x)

theorem positional_eq (l : Ledger α) : positional l = lab (l.map Prod.snd) := by
  apply List.ext_getElem?; intro i
  simp [positional, lab, List.getElem?_mapIdx]
  cases l[i]? <;> rfl

theorem lab_snd (a : List α) : (lab a).map Prod.snd = a := by
  apply List.ext_getElem?; intro i
  simp [lab, List.getElem?_mapIdx]
  cases a[i]? <;> rfl

theorem lab_length (a : List α) : (lab a).length = a.length := by simp [lab]

theorem lab_get {a : List α} {i : Nat} {e x} : (lab a)[i]? = some (e, x) ↔ a[i]? = some x ∧ e = i + 1 := by
  simp only [lab, List.getElem?_mapIdx]
  cases a[i]? with
  | none => simp
  | some y => simp only [Option.map_some, Option.some.injEq, Prod.mk.injEq]; constructor <;> rintro ⟨rfl, rfl⟩ <;> exact ⟨rfl, rfl⟩

theorem up_eq {n : Nat} (h : n + 1 < 2 ^ 64) : up n = n + 1 := Nat.mod_eq_of_lt h
theorem down_eq {n : Nat} (h : n + 1 < 2 ^ 64) : down (n + 1) = n := by unfold down; omega

/-- State and ledger agree. -/
def Rel (a : List α) (l : Ledger α) : Prop := l = lab a ∧ a.length + 1 ≤ 2 ^ 64

theorem lab_pos (l : Ledger α) : positional (lab (l.map Prod.snd)) = lab (l.map Prod.snd) := by rw [positional_eq, lab_snd]

theorem rel_positional {a : List α} {l : Ledger α} (h : a = l.map Prod.snd) (hl : a.length + 1 ≤ 2 ^ 64) : Rel a (positional l) :=
  ⟨by rw [positional_eq, h], hl⟩

theorem map_insertIdx {β γ : Type} (f : β → γ) (l : List β) (i : Nat) (x : β) : (l.insertIdx i x).map f = (l.map f).insertIdx i (f x) := by
  induction l generalizing i with
  | nil => cases i <;> simp
  | cons y l ih => cases i <;> simp [ih]

theorem get_positional_insert {l : Ledger α} {i : Nat} {x : α} {e} (hi : i ≤ l.length) (he : e = i + 1) :
    (positional (l.insertIdx i (e, x)))[i]? = some (e, x) := by
  rw [positional_eq, lab_get]
  refine ⟨?_, he⟩
  rw [map_insertIdx, List.getElem?_insertIdx_self]; simp [hi]

/-- What is left of an array when the entries `es` are removed. -/
def keep (k : Nat) : List α → List Nat → List α
  | [], _ => []
  | x :: a, es => if k + 1 ∈ es then keep (k + 1) a es else x :: keep (k + 1) a es

theorem keep_filter (a : List α) (es : List Nat) : ∀ k, ((a.mapIdx fun i x => (i + k + 1, x)).filter fun p => p.1 ∉ es).map Prod.snd = keep k a es := by
  induction a with
  | nil => intro k; rfl
  | cons x a ih =>
    intro k
    have : (List.mapIdx (fun i x => (i + 1 + k + 1, x)) a) = a.mapIdx fun i x => (i + (k + 1) + 1, x) := by
      congr 1; funext i x; rw [show i + 1 + k + 1 = i + (k + 1) + 1 by omega]
    rw [List.mapIdx_cons, this, keep]
    by_cases h : k + 1 ∈ es
    · rw [List.filter_cons_of_neg (by simpa using h), ih, if_pos h]
    · rw [List.filter_cons_of_pos (by simpa using h), List.map_cons, ih, if_neg h]

theorem keep_all (a : List α) (es : List Nat) : ∀ k, (∀ e ∈ es, e ≤ k) → keep k a es = a := by
  induction a with
  | nil => intro k _; rfl
  | cons x a ih =>
    intro k h
    rw [keep, if_neg (fun hm => absurd (h _ hm) (by omega)), ih (k + 1) fun e he => by have := h e he; omega]

theorem keep_last (a : List α) (es : List Nat) (e : Nat) : ∀ k, k < e → e ≤ k + a.length → (∀ e' ∈ es, e' < e) →
    keep k a (es ++ [e]) = keep k (a.eraseIdx (e - 1 - k)) es := by
  induction a with
  | nil => intro k h1 h2; simp at h2; omega
  | cons x a ih =>
    intro k h1 h2 h
    by_cases hk : e = k + 1
    · subst hk
      rw [keep, if_pos (by simp), keep_all _ _ _ (by
        intro e he; rcases List.mem_append.1 he with he | he
        · have := h e he; omega
        · simp at he; omega)]
      rw [show k + 1 - 1 - k = 0 by omega, List.eraseIdx_cons_zero, keep_all _ _ _ (fun e he => by have := h e he; omega)]
    · have e1 : e - 1 - k = (e - 1 - (k + 1)) + 1 := by omega
      rw [e1, List.eraseIdx_cons_succ, keep, keep, ih (k + 1) (by omega) (by simp at h2; omega) h]
      have : (k + 1 ∈ es ++ [e]) ↔ k + 1 ∈ es := by simp; omega
      by_cases hm : k + 1 ∈ es
      · rw [if_pos (this.2 hm), if_pos hm]
      · rw [if_neg (fun h => hm (this.1 h)), if_neg hm]

theorem removeLoop_ok (es : List Nat) : ∀ a : List α, es.Pairwise (· < ·) → (∀ e ∈ es, 0 < e ∧ e ≤ a.length) → a.length + 1 ≤ 2 ^ 64 →
    removeLoop a es.reverse = some (keep 0 a es) := by
  induction es using List.reverseRecOn with
  | nil => intro a _ _ _; rw [keep_all _ _ _ (by simp)]; rfl
  | append_singleton es e ih =>
    intro a hp hb hl
    rw [List.pairwise_append] at hp
    obtain ⟨h1, -, h3⟩ := hp
    obtain ⟨he0, he1⟩ := hb e (by simp)
    have hlt : ∀ e' ∈ es, e' < e := fun e' he' => h3 e' he' e (by simp)
    have hd : down e = e - 1 := by
      have := down_eq (n := e - 1) (by omega)
      rwa [show e - 1 + 1 = e by omega] at this
    rw [keep_last _ _ _ 0 he0 (by omega) hlt]
    simp only [List.reverse_append, List.reverse_singleton, List.singleton_append, removeLoop, arrayRemove, hd]
    rw [if_pos (by omega)]
    simp only [Option.bind_eq_bind, Option.bind_some]
    have hlen : (a.eraseIdx (e - 1)).length = a.length - 1 := by rw [List.length_eraseIdx, if_pos (by omega)]
    exact ih _ h1 (fun e' he' => ⟨(hb e' (by simp [he'])).1, by have := hlt e' he'; omega⟩) (by omega)

theorem map_eraseIdx {β γ : Type} (f : β → γ) (l : List β) (i : Nat) : (l.eraseIdx i).map f = (l.map f).eraseIdx i := by
  induction l generalizing i with
  | nil => simp
  | cons y l ih => cases i <;> simp [ih]

theorem lab_fst_pairwise (a : List α) : ((lab a).map Prod.fst).Pairwise (· < ·) := by
  rw [List.pairwise_iff_getElem]
  intro i j hi hj hij
  simp only [lab, List.getElem_map, List.getElem_mapIdx]; exact Nat.succ_lt_succ hij

theorem rel_length {a : List α} {l} (r : Rel a l) : l.length = a.length := by rw [r.1, lab_length]
theorem rel_snd {a : List α} {l} (r : Rel a l) : l.map Prod.snd = a := by rw [r.1, lab_snd]

theorem insert_law {a : List α} {l} (x : α) (r : Rel a l) (hl : l.length + 1 < 2 ^ 64) : ∃ s' e, insert a x true = some (s', e) ∧ e ≠ 0 ∧
    Rel s' (positional (l ++ [(e, x)])) ∧ (positional (l ++ [(e, x)]))[l.length]? = some (e, x) ∧ positional (l ++ [(e, x)]) = l ++ [(e, x)] := by
  have hn := rel_length r
  have heq : positional (l ++ [(a.length + 1, x)]) = l ++ [(a.length + 1, x)] := by
    rw [positional_eq, List.map_append, rel_snd r, r.1]
    apply List.ext_getElem?; intro i
    simp only [lab, List.map_cons, List.map_nil, List.mapIdx_append, List.mapIdx_cons, List.mapIdx_nil]
    simp
  refine ⟨a ++ [x], a.length + 1, by simp [insert, arrayAppend, up_eq (n := a.length) (by omega)], Nat.succ_ne_zero _, rel_positional (by simp [rel_snd r]) (by simp; omega), ?_, heq⟩
  rw [heq]; simp [hn]

theorem insertAt_law {a : List α} {l} {i : Nat} (x : α) (r : Rel a l) (hl : l.length + 1 < 2 ^ 64) (hi : i ≤ l.length) :
    ∃ s' e, insertAt a x i true = some (s', e) ∧ e ≠ 0 ∧ Rel s' (positional (l.insertIdx i (e, x))) ∧
      (positional (l.insertIdx i (e, x)))[i]? = some (e, x) := by
  have hn := rel_length r
  by_cases h : i = a.length
  · obtain ⟨s', e, h1, h2, h3, h4, -⟩ := insert_law x r hl
    have hll : i = l.length := by omega
    subst hll
    refine ⟨s', e, by simp [insertAt, h, h1], h2, ?_, ?_⟩ <;> simpa [List.insertIdx_length_self] using by assumption
  · refine ⟨a.insertIdx i x, i + 1, ?_, Nat.succ_ne_zero _, rel_positional (by rw [map_insertIdx, rel_snd r]) (by rw [List.length_insertIdx]; split <;> omega), get_positional_insert hi rfl⟩
    have : i < a.length := by omega
    simp [insertAt, h, arrayInsert, this, up_eq (n := i) (by omega)]

/-- The laws of the fast array. -/
def laws : Laws (iface : Iface (List α) α) positional true where
  R := Rel
  create := ⟨rfl, by simp [iface]⟩
  relabelled r := by rw [positional_eq, rel_snd r, ← r.1]
  relabSnd l := by rw [positional_eq, lab_snd]
  lastingCollection h := by simp [iface] at h
  lastingReplace h := by simp [iface] at h
  nz := by
    rintro s l ⟨rfl, -⟩ ⟨e, x⟩ hp
    obtain ⟨i, hi⟩ := List.mem_iff_getElem?.1 hp
    have := (lab_get.1 hi).2; simp only [this]; exact Nat.succ_ne_zero _
  nodup := by
    rintro s l ⟨rfl, -⟩
    exact (lab_fst_pairwise s).imp fun h => Nat.ne_of_lt h
  count r := (rel_length r).symm
  destroy _ := rfl
  element := by
    rintro s l i e x ⟨rfl, hs⟩ h
    obtain ⟨h1, rfl⟩ := lab_get.1 h
    have : i < s.length := (List.getElem?_eq_some_iff.1 h1).1
    simp [iface, element, down_eq (n := i) (by omega), h1]
  insert x r hl := insert_law x r hl
  insertFail := by
    intro s l x _ r
    simp [iface, insert, arrayAppend, sizeMax, up]
  remove := by
    rintro s l i e x r h
    have hr := r
    obtain ⟨rfl, hs⟩ := r
    obtain ⟨h1, rfl⟩ := lab_get.1 h
    have hi : i < s.length := (List.getElem?_eq_some_iff.1 h1).1
    refine ⟨s.eraseIdx i, ?_, rel_positional (by rw [map_eraseIdx, lab_snd]) (by rw [List.length_eraseIdx]; split <;> omega)⟩
    simp [iface, remove, arrayRemove, down_eq (n := i) (by omega), hi]
  fwd := by
    intro s l r
    have hf : forward (iface : Iface (List α) α) s = visit (next iface s) (s.length + 1) (.batch s 0) s[0]? := by
      simp [forward, first, iface, enumerator]
    rw [hf]
    have := visit_fwd (adv := next iface s) (a := s) (l := l)
      (P := fun (cx : Cursor α × α) p => cx.2 = p.2 ∧ (iface : Iface (List α) α).enumeratorReference s cx.1 = some (s, p.1)) (rel_length r) ?_ ?_ ?_ s.length 0 (s.length + 1) (by omega) (by omega)
    · simpa using this
    · intro i x p h1 h2
      rw [r.1] at h2
      obtain ⟨h3, h4⟩ := lab_get.1 h2
      have hi : i < s.length := (List.getElem?_eq_some_iff.1 h1).1
      refine ⟨by rw [h1] at h3; exact Option.some.inj h3, ?_⟩
      have := r.2
      simp [iface, enumeratorEntry, up_eq (n := i) (by omega), h4]
    · intro i hi
      have : s ≠ [] := by rintro rfl; simp at hi
      simp [next, this, hi]
    · intro i hi
      have : s ≠ [] := by rintro rfl; simp at hi
      refine ⟨.batch s i, ?_⟩
      have h2 : ¬ (i + 1 < s.length) := by omega
      simp [next, this, h2, iface, enumerator]
  bwd := by
    intro s l r
    by_cases h0 : s = []
    · subst h0
      have : l = [] := by have := rel_length r; simpa using this
      subst this
      refine ⟨[], ?_, .nil⟩
      simp [backward, last, iface, enumerator, visit]
    · have hpos : 0 < s.length := List.length_pos_iff.2 h0
      have hd : down s.length = s.length - 1 := by
        have := r.2
        have := down_eq (n := s.length - 1) (by omega)
        rwa [show s.length - 1 + 1 = s.length by omega] at this
      have hf : backward (iface : Iface (List α) α) s = visit (previous iface s) (s.length + 1) (.batch s (s.length - 1)) s[s.length - 1]? := by
        simp [backward, last, iface, enumerator, h0, hd]
      rw [hf]
      have := visit_bwd (adv := previous iface s) (a := s) (l := l)
        (P := fun (cx : Cursor α × α) p => cx.2 = p.2 ∧ (iface : Iface (List α) α).enumeratorReference s cx.1 = some (s, p.1)) (rel_length r) ?_ ?_ ?_ (s.length - 1) (s.length + 1) (by omega) (by omega)
      · rwa [show s.length - 1 + 1 = s.length by omega, List.take_of_length_le (by rw [rel_length r]; omega)] at this
      · intro i x p h1 h2
        rw [r.1] at h2
        obtain ⟨h3, h4⟩ := lab_get.1 h2
        have hi : i < s.length := (List.getElem?_eq_some_iff.1 h1).1
        refine ⟨by rw [h1] at h3; exact Option.some.inj h3, ?_⟩
        have := r.2
        simp [iface, enumeratorEntry, up_eq (n := i) (by omega), h4]
      · intro i hi _
        simp [previous, h0, hi]
      · intro _
        exact ⟨.batch s 0, by simp [previous, h0, iface, enumerator]⟩
  oinsert x r hl hi := insertAt_law x r hl hi
  oinsertFail := by
    intro s l i x _ r hi
    have hn := rel_length r
    by_cases h : i = s.length
    · simp [iface, insertAt, h, insert, arrayAppend, sizeMax, up]
    · have : i < s.length := by omega
      simp [iface, insertAt, h, arrayInsert, this, sizeMax, up]
  oentry := by
    rintro s l i e x ⟨rfl, hs⟩ h
    obtain ⟨h1, rfl⟩ := lab_get.1 h
    have : i < s.length := (List.getElem?_eq_some_iff.1 h1).1
    simp [iface, up_eq (n := i) (by omega)]
  oindex := by
    rintro s l i e x ⟨rfl, hs⟩ h
    obtain ⟨h1, rfl⟩ := lab_get.1 h
    have : i < s.length := (List.getElem?_eq_some_iff.1 h1).1
    simp [iface, down_eq (n := i) (by omega)]
  replace := by
    intro s l i x f hf r hi
    simp only [iface, Option.some.injEq] at hf
    subst hf
    have hn := rel_length r
    have := r.2
    refine ⟨s.set i x, i + 1, ?_, Nat.succ_ne_zero _, rel_positional (by rw [List.map_set, rel_snd r]) (by simpa using this), ?_⟩
    · have : i < s.length := by omega
      simp [replace, arrayReplace, this, up_eq (n := i) (by omega)]
    · rw [positional_eq, lab_get]; simp [hi]
  oremove := by
    intro s l i f hf r hi
    simp only [iface, Option.some.injEq] at hf
    subst hf
    have hn := rel_length r
    have := r.2
    refine ⟨s.eraseIdx i, ?_, rel_positional (by rw [map_eraseIdx, rel_snd r]) (by rw [List.length_eraseIdx]; split <;> omega)⟩
    have : i < s.length := by omega
    simp [arrayRemove, this]
  removeLast := by intro s l f hf; simp [iface] at hf
  append := by
    intro s l x f hf r hl
    simp only [iface, Option.some.injEq] at hf
    subst hf
    obtain ⟨s', e, h1, h2, h3, h4, -⟩ := insert_law x r hl
    exact ⟨s', e, h1, h2, h3, h4⟩
  appendFail := by
    intro s l x f hf _ r
    simp only [iface, Option.some.injEq] at hf
    subst hf
    simp [insert, arrayAppend, sizeMax, up]
  prepend := by intro s l x f hf; simp [iface] at hf
  prependFail := by intro s l x f hf; simp [iface] at hf
  elementAt := by
    rintro s l i e x f hf ⟨rfl, hs⟩ h
    simp only [iface, Option.some.injEq] at hf
    subst hf
    exact (lab_get.1 h).1
  lastEntry := by intro s l e x f hf; simp [iface] at hf
  removeAll := by
    intro s l f hf r
    simp only [iface, Option.some.injEq] at hf
    subst hf
    exact ⟨[], rfl, rfl, by simp⟩
  removeCollection := by
    intro s l es f hf r hs
    simp only [iface, Option.some.injEq] at hf
    subst hf
    have hsub : es.Sublist ((lab s).map Prod.fst) := by rw [← r.1]; exact hs
    have hk := removeLoop_ok es s ((lab_fst_pairwise s).sublist hsub) (by
      intro e he
      obtain ⟨⟨e', x⟩, hp, rfl⟩ := List.mem_map.1 (hsub.subset he)
      obtain ⟨i, hi⟩ := List.mem_iff_getElem?.1 hp
      obtain ⟨h1, rfl⟩ := lab_get.1 hi
      have := (List.getElem?_eq_some_iff.1 h1).1
      simp only; omega) r.2
    have hf := keep_filter s es 0
    refine ⟨_, hk, rel_positional (by rw [← hf, r.1]; rfl) ?_⟩
    have h1 : (keep 0 s es).length ≤ s.length := by
      rw [← hf, List.length_map]
      refine Nat.le_trans (List.length_filter_le _ _) (by simp)
    have := r.2
    omega

end Fast
end Verif.Collection
