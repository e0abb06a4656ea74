import Verif.HashMapProps
/-!
# Walking the entries of the hash map (lemmas)
-/
namespace Verif.HashMap
open Verif.BitTricks (U64)
variable {K V : Type}

/-- A live place. -/
abbrev Place (K V : Type) := Nat × Nat × Item K V

def rowPlaces (b : Nat) : Nat → List (Item K V) → List (Place K V)
  | _, [] => []
  | i, it :: row => (if isEmpty it.tag then [] else [(b, i, it)]) ++ rowPlaces b (i + 1) row

def places : Nat → Rows K V → List (Place K V)
  | _, [] => []
  | b, row :: r => rowPlaces b 0 row ++ places (b + 1) r

theorem rowPlaces_append (b : Nat) (r1 r2 : List (Item K V)) : ∀ i, rowPlaces b i (r1 ++ r2) = rowPlaces b i r1 ++ rowPlaces b (i + r1.length) r2 := by
  induction r1 with
  | nil => intro i; simp [rowPlaces]
  | cons a t ih => intro i; simp only [List.cons_append, rowPlaces, ih, List.append_assoc, List.length_cons]; congr 3; omega

theorem places_append (r1 r2 : Rows K V) : ∀ b, places b (r1 ++ r2) = places b r1 ++ places (b + r1.length) r2 := by
  induction r1 with
  | nil => intro i; simp [places]
  | cons a t ih => intro i; simp only [List.cons_append, places, ih, List.append_assoc, List.length_cons]; congr 3; omega

theorem rowPlaces_pairs (b : Nat) (row : List (Item K V)) : ∀ i, (rowPlaces b i row).filterMap (fun p => toPair p.2.2) = row.filterMap toPair := by
  induction row with
  | nil => intro i; rfl
  | cons a t ih =>
    intro i
    rw [filterMap_cons', rowPlaces, List.filterMap_append, ih]
    congr 1
    cases h : isEmpty a.tag
    · simp [toPair_live h]
    · simp [toPair, h]

theorem places_pairs (r : Rows K V) : ∀ b, (places b r).filterMap (fun p => toPair p.2.2) = contents r := by
  induction r with
  | nil => intro b; rfl
  | cons a t ih => intro b; rw [places, List.filterMap_append, rowPlaces_pairs, ih, contents_cons]

theorem mem_rowPlaces {b : Nat} {row : List (Item K V)} {p : Place K V} : ∀ {i0}, p ∈ rowPlaces b i0 row →
    p.1 = b ∧ i0 ≤ p.2.1 ∧ row[p.2.1 - i0]? = some p.2.2 ∧ isEmpty p.2.2.tag = false := by
  induction row with
  | nil => intro i0 h; cases h
  | cons a t ih =>
    intro i0 h
    rw [rowPlaces, List.mem_append] at h
    rcases h with h | h
    · cases he : isEmpty a.tag
      · rw [he] at h; simp at h; subst h; simp [he]
      · rw [he] at h; simp at h
    · obtain ⟨h1, h2, h3, h4⟩ := ih h
      refine ⟨h1, by omega, ?_, h4⟩
      rw [show p.2.1 - i0 = (p.2.1 - (i0 + 1)) + 1 by omega, List.getElem?_cons_succ]; exact h3

theorem mem_places {r : Rows K V} {p : Place K V} : ∀ {b0}, p ∈ places b0 r →
    b0 ≤ p.1 ∧ (∃ row, r[p.1 - b0]? = some row ∧ row[p.2.1]? = some p.2.2) ∧ isEmpty p.2.2.tag = false := by
  induction r with
  | nil => intro b0 h; cases h
  | cons a t ih =>
    intro b0 h
    rw [places, List.mem_append] at h
    rcases h with h | h
    · obtain ⟨h1, h2, h3, h4⟩ := mem_rowPlaces h
      exact ⟨by omega, ⟨a, by simp [h1], by simpa using h3⟩, h4⟩
    · obtain ⟨h1, ⟨row, h2, h3⟩, h4⟩ := ih h
      refine ⟨by omega, ⟨row, ?_, h3⟩, h4⟩
      rw [show p.1 - b0 = (p.1 - (b0 + 1)) + 1 by omega, List.getElem?_cons_succ]; exact h2

theorem places_at {r : Rows K V} {p : Place K V} (h : p ∈ places 0 r) : at' r p.1 p.2.1 = some p.2.2 ∧ isEmpty p.2.2.tag = false := by
  obtain ⟨-, ⟨row, h2, h3⟩, h4⟩ := mem_places h
  refine ⟨?_, h4⟩
  simp only [Nat.sub_zero] at h2
  simp only [at', h2, Option.bind_some, h3]

/-- Splitting a row at a live slot. -/
theorem places_split {r : Rows K V} {row : List (Item K V)} {b i : Nat} {it : Item K V} (h1 : r[b]? = some row) (h2 : row[i]? = some it) (h3 : isEmpty it.tag = false) :
    places 0 r = (places 0 (r.take b) ++ rowPlaces b 0 (row.take i)) ++ (b, i, it) :: (rowPlaces b (i + 1) (row.drop (i + 1)) ++ places (b + 1) (r.drop (b + 1))) := by
  obtain ⟨P, Q, rfl, rfl⟩ := split_at h1
  obtain ⟨p, q, rfl, rfl⟩ := split_at h2
  simp only [places_append, places, rowPlaces_append, rowPlaces, h3, List.take_left, Nat.zero_add, Bool.false_eq_true, if_false, List.append_assoc, List.singleton_append]
  congr 2
  simp [List.drop_append, List.drop_eq_nil_of_le (Nat.le_succ p.length), List.drop_eq_nil_of_le (Nat.le_succ P.length)]

def Sorted (p q : Place K V) : Prop := p.1 < q.1 ∨ (p.1 = q.1 ∧ p.2.1 < q.2.1)

theorem rowPlaces_sorted (b : Nat) (row : List (Item K V)) : ∀ i, (rowPlaces b i row).Pairwise Sorted := by
  induction row with
  | nil => intro i; exact List.Pairwise.nil
  | cons a t ih =>
    intro i
    rw [rowPlaces, List.pairwise_append]
    refine ⟨by split <;> simp, ih _, ?_⟩
    intro p hp q hq
    obtain ⟨h1, h2, -⟩ := mem_rowPlaces hq
    split at hp
    · cases hp
    · simp at hp; subst hp; exact .inr ⟨h1.symm, by show i < q.2.1; omega⟩

theorem places_sorted (r : Rows K V) : ∀ b, (places b r).Pairwise Sorted := by
  induction r with
  | nil => intro i; exact List.Pairwise.nil
  | cons a t ih =>
    intro b
    rw [places, List.pairwise_append]
    refine ⟨rowPlaces_sorted _ _ _, ih _, ?_⟩
    intro p hp q hq
    have h1 := (mem_rowPlaces hp).1
    have h2 := (mem_places hq).1
    exact .inl (by omega)

/-- The places before and after an occurrence are determined by the place. -/
theorem split_unique {l : List (Place K V)} (hs : l.Pairwise Sorted) {x y : Place K V} {a b c d : List (Place K V)} (h1 : l = a ++ x :: b) (h2 : l = c ++ y :: d)
    (hxy : x.1 = y.1 ∧ x.2.1 = y.2.1) : a = c ∧ x = y ∧ b = d := by
  have nosort : ∀ {p q : Place K V}, p.1 = q.1 ∧ p.2.1 = q.2.1 → ¬ Sorted p q := by
    intro p q h hs; simp only [Sorted] at hs; omega
  subst h1
  rcases List.append_eq_append_iff.1 h2 with ⟨as, e1, e2⟩ | ⟨bs, e1, e2⟩
  · cases as with
    | nil => simp at e1 e2; exact ⟨e1.symm, e2.1, e2.2⟩
    | cons z zs =>
      simp at e2
      obtain ⟨rfl, rfl⟩ := e2
      exfalso
      have := (List.pairwise_append.1 hs).2.1
      exact nosort hxy ((List.pairwise_cons.1 this).1 y (by simp))
  · cases bs with
    | nil => simp at e1 e2; exact ⟨e1, e2.1.symm, e2.2.symm⟩
    | cons z zs =>
      simp at e2
      obtain ⟨rfl, rfl⟩ := e2
      exfalso
      subst e1
      have := (List.pairwise_append.1 hs).2.2 y (by simp) x (by simp)
      exact nosort ⟨hxy.1.symm, hxy.2.symm⟩ this

/-! ### the loops -/

theorem scanUp_eq (b : Nat) (row : List (Item K V)) : ∀ i, scanUp row i = (rowPlaces b i row).head?.map (·.2.1) := by
  induction row with
  | nil => intro i; rfl
  | cons a t ih =>
    intro i
    rw [scanUp, rowPlaces]
    cases h : isEmpty a.tag
    · simp
    · simp [ih]

def loc (p : Place K V) : Nat × Nat := (p.1, p.2.1)

theorem scanRow (b i : Nat) (row : List (Item K V)) :
    (scanUp row i = none ∧ rowPlaces b i row = []) ∨ ∃ p t, rowPlaces b i row = p :: t ∧ p.1 = b ∧ scanUp row i = some p.2.1 := by
  rw [scanUp_eq b]
  cases h : rowPlaces b i row with
  | nil => exact .inl ⟨rfl, rfl⟩
  | cons p t => exact .inr ⟨p, t, rfl, (mem_rowPlaces (by rw [h]; simp : p ∈ rowPlaces b i row)).1, rfl⟩

theorem scanBucketsUp_zero (bs : List (Option (List (Item K V)))) : ∀ b, scanBucketsUp bs b 0 = (places b (bs.map (·.getD []))).head?.map loc := by
  induction bs with
  | nil => intro b; rfl
  | cons a t ih =>
    intro b
    cases a with
    | none => rw [scanBucketsUp, ih]; simp [places, rowPlaces]
    | some row =>
      rw [scanBucketsUp, List.drop_zero]
      rcases scanRow b 0 row with ⟨h1, h2⟩ | ⟨p, t', h1, h2, h3⟩
      · rw [h1]; simp only [ih]; simp [places, h2]
      · rw [h3]; simp [places, h1, loc, h2]

theorem scanBucketsUp_row (row : List (Item K V)) (bs : List (Option (List (Item K V)))) (b i : Nat) :
    scanBucketsUp (some row :: bs) b i = (rowPlaces b i (row.drop i) ++ places (b + 1) (bs.map (·.getD []))).head?.map loc := by
  rw [scanBucketsUp]
  rcases scanRow b i (row.drop i) with ⟨h1, h2⟩ | ⟨p, t', h1, h2, h3⟩
  · rw [h1]; simp only [scanBucketsUp_zero]; simp [h2]
  · rw [h3]; simp [h1, loc, h2]

theorem scanDown_eq (b : Nat) (row : List (Item K V)) : ∀ n, n ≤ row.length → scanDown row n = some ((rowPlaces b 0 (row.take n)).getLast?.map (·.2.1)) := by
  intro n
  induction n with
  | zero => intro _; simp [scanDown, rowPlaces]
  | succ n ih =>
    intro hn
    have hlt : n < row.length := hn
    rw [scanDown, List.getElem?_eq_getElem hlt, List.take_add_one, rowPlaces_append, List.getElem?_eq_getElem hlt]
    simp only [Option.bind_eq_bind, Option.bind_some, Option.toList_some, rowPlaces]
    cases h : isEmpty row[n].tag
    · simp; omega
    · simp [ih (by omega)]

theorem scanRowDown (b n : Nat) (row : List (Item K V)) (hn : n ≤ row.length) :
    (scanDown row n = some none ∧ rowPlaces b 0 (row.take n) = []) ∨ ∃ p t, rowPlaces b 0 (row.take n) = t ++ [p] ∧ p.1 = b ∧ scanDown row n = some (some p.2.1) := by
  rw [scanDown_eq b row n hn]
  rcases List.eq_nil_or_concat (rowPlaces b 0 (row.take n)) with h | ⟨t, p, h⟩
  · rw [h]; exact .inl ⟨rfl, rfl⟩
  · rw [h]
    exact .inr ⟨p, t, by simp, (mem_rowPlaces (by rw [h]; simp : p ∈ rowPlaces b 0 (row.take n))).1, by simp⟩

theorem scanBucketsDown_zero (bs : List (Option (List (Item K V)))) : ∀ n, n ≤ bs.length →
    scanBucketsDown bs n 0 = some ((places 0 ((bs.map (·.getD [])).take n)).getLast?.map loc) := by
  intro n
  induction n with
  | zero => intro _; simp [scanBucketsDown, places]
  | succ n ih =>
    intro hn
    have hlt : n < bs.length := hn
    have htake : (bs.map (·.getD [])).take (n + 1) = (bs.map (·.getD [])).take n ++ [bs[n].getD []] := by
      rw [List.take_add_one]; simp [hlt]
    rw [scanBucketsDown, List.getElem?_eq_getElem hlt, htake, places_append]
    have hlen : ((bs.map (·.getD [])).take n).length = n := by simp; omega
    rw [hlen]
    simp only [Option.bind_eq_bind, Option.bind_some, Nat.zero_add, places, List.append_nil]
    cases h : bs[n] with
    | none => simp only [ih (by omega)]; simp [rowPlaces]
    | some row =>
      simp only [ne_eq, not_true_eq_false, if_false, Option.getD_some]
      rcases scanRowDown n row.length row (Nat.le_refl _) with ⟨h1, h2⟩ | ⟨p, t', h1, h2, h3⟩
      · rw [List.take_length] at h2
        rw [h1, h2]; simp only [Option.bind_some, ih (by omega)]; simp
      · rw [List.take_length] at h1
        rw [h3, h1]; simp [loc, h2]

theorem scanBucketsDown_row (bs : List (Option (List (Item K V)))) (b i : Nat) (row : List (Item K V)) (hb : bs[b]? = some (some row)) (hi : i ≤ row.length) :
    scanBucketsDown bs (b + 1) (i + 1) = some ((places 0 ((bs.map (·.getD [])).take b) ++ rowPlaces b 0 (row.take i)).getLast?.map loc) := by
  have hlt := (List.getElem?_eq_some_iff.1 hb).1
  rw [scanBucketsDown, hb]
  simp only [Option.bind_eq_bind, Option.bind_some, ne_eq, Nat.add_one_ne_zero, not_false_eq_true, if_true, Nat.add_sub_cancel]
  rcases scanRowDown b i row hi with ⟨h1, h2⟩ | ⟨p, t', h1, h2, h3⟩
  · rw [h1, h2]; simp only [Option.bind_some, scanBucketsDown_zero bs b (by omega)]; simp
  · rw [h3, h1]; simp [loc, h2]

end Verif.HashMap
