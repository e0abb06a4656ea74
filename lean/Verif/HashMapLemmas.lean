import Verif.HashMap
import Verif.HashMapSpec
import Verif.HashEntryProps
/-!
# Helper lemmas for the hash map
-/
namespace Verif.HashMap
open Verif.BitTricks (U64)
variable {K V : Type}

/-! ### hash words -/

theorem lsb_empty (i : Nat) : emptyBit.getLsbD i = decide (i = 63) := by
  rcases Nat.lt_or_ge i 64 with h | h
  · have : ∀ i < 64, emptyBit.getLsbD i = decide (i = 63) := by decide
    exact this i h
  · rw [BitVec.getLsbD_of_ge _ _ h]; simp; omega

theorem lsb_init (i : Nat) : initBit.getLsbD i = decide (i = 62) := by
  rcases Nat.lt_or_ge i 64 with h | h
  · have : ∀ i < 64, initBit.getLsbD i = decide (i = 62) := by decide
    exact this i h
  · rw [BitVec.getLsbD_of_ge _ _ h]; simp; omega

theorem lsb_reserved (i : Nat) : reservedMask.getLsbD i = decide (i < 62) := by
  rcases Nat.lt_or_ge i 64 with h | h
  · have : ∀ i < 64, reservedMask.getLsbD i = decide (i < 62) := by decide
    exact this i h
  · rw [BitVec.getLsbD_of_ge _ _ h]; simp; omega

theorem and_single {w m : U64} {j : Nat} (hj : j < 64) (h : ∀ i, m.getLsbD i = decide (i = j)) : ((w &&& m) != 0#64) = w.getLsbD j := by
  cases hb : w.getLsbD j
  · have : w &&& m = 0#64 := by
      apply BitVec.eq_of_getLsbD_eq; intro i hi
      rw [BitVec.getLsbD_and, h, BitVec.getLsbD_zero]
      by_cases e : i = j
      · subst e; rw [hb]; rfl
      · simp [e]
    rw [this]; rfl
  · have : w &&& m ≠ 0#64 := by
      intro e
      have := congrArg (fun y => y.getLsbD j) e
      simp [h, hb] at this
    simpa using this

theorem isEmpty_eq (t : U64) : isEmpty t = t.getLsbD 63 := and_single (by decide) lsb_empty
theorem isInit_eq (t : U64) : isInit t = t.getLsbD 62 := and_single (by decide) lsb_init

/-- Masked hash of a key. -/
def mh (cfg : Cfg K) (k : K) : U64 := cfg.hash k &&& reservedMask

theorem mh_bit (cfg : Cfg K) (k : K) (i : Nat) (hi : 62 ≤ i) : (mh cfg k).getLsbD i = false := by
  rw [mh, BitVec.getLsbD_and, lsb_reserved]
  have : ¬ i < 62 := by omega
  simp [this]

theorem isInit_mh (cfg : Cfg K) (k : K) : isInit (mh cfg k) = false := by rw [isInit_eq]; exact mh_bit cfg k 62 (by omega)

/-- A stored word whose hash part is a masked hash is not empty. -/
theorem not_empty_of_tag {cfg : Cfg K} {k : K} {t : U64} (h : t &&& ~~~initBit = mh cfg k) : isEmpty t = false := by
  have h1 := congrArg (fun y => y.getLsbD 63) h
  simp only [BitVec.getLsbD_and, BitVec.getLsbD_not, lsb_init, mh_bit cfg k 63 (by omega)] at h1
  rw [isEmpty_eq]; simpa using h1

theorem tag_plain (cfg : Cfg K) (k : K) : mh cfg k &&& ~~~initBit = mh cfg k := by
  apply BitVec.eq_of_getLsbD_eq; intro i hi
  simp only [BitVec.getLsbD_and, BitVec.getLsbD_not, lsb_init]
  by_cases e : i = 62
  · subst e; rw [mh_bit cfg k 62 (by omega)]; rfl
  · simp [e, hi]

theorem tag_or_init (t : U64) : (t ||| initBit) &&& ~~~initBit = t &&& ~~~initBit := by
  apply BitVec.eq_of_getLsbD_eq; intro i hi
  simp only [BitVec.getLsbD_and, BitVec.getLsbD_or, BitVec.getLsbD_not, lsb_init]
  by_cases e : i = 62 <;> simp [e]

theorem isInit_or (t : U64) : isInit (t ||| initBit) = true := by
  rw [isInit_eq, BitVec.getLsbD_or, lsb_init]; simp

theorem isEmpty_removed (t : U64) : isEmpty ((t ||| emptyBit) &&& ~~~initBit) = true := by
  rw [isEmpty_eq, BitVec.getLsbD_and, BitVec.getLsbD_or, BitVec.getLsbD_not, lsb_empty, lsb_init]; simp

/-! ### handles -/

/-- Bound on the slots that have a handle. -/
theorem handles (cfg : Cfg K) (hc : cfg.c + 1 < 2 ^ 63) :
    ∃ limit : Nat, 2 ^ 64 ≤ limit * (2 * (cfg.c + 1)) ∧ limit ≤ 2 ^ 64 ∧
      ∀ b i, b < cfg.c → i < limit → ∃ e, toEntry cfg b i = some e ∧ e ≠ 0 ∧ toIndex cfg e = some (some (b, i)) := by
  have e1 : (BitVec.ofNat 64 cfg.c).toNat = cfg.c := by rw [BitVec.toNat_ofNat, Nat.mod_eq_of_lt]; omega
  obtain ⟨limit, h1, h2, -, -⟩ := HashEntry.C08_entry_codec (BitVec.ofNat 64 cfg.c) (by rw [e1]; exact hc)
  rw [e1] at h1
  refine ⟨min limit (2 ^ 64), ?_, Nat.min_le_right _ _, ?_⟩
  · rcases Nat.le_total limit (2 ^ 64) with h | h
    · rw [Nat.min_eq_left h]; exact h1
    · rw [Nat.min_eq_right h]
      exact Nat.le_mul_of_pos_right _ (by omega)
  · intro b i hb hi
    have e2 : (BitVec.ofNat 64 b).toNat = b := by rw [BitVec.toNat_ofNat, Nat.mod_eq_of_lt]; omega
    have e3 : (BitVec.ofNat 64 i).toNat = i := by rw [BitVec.toNat_ofNat, Nat.mod_eq_of_lt]; omega
    obtain ⟨e, x1, x2, x3⟩ := (h2 (BitVec.ofNat 64 b) (BitVec.ofNat 64 i) (by rw [e1, e2]; exact hb)).1 (by rw [e3]; omega)
    refine ⟨e, x1, x2, ?_⟩
    simp [toIndex, x3, e2, e3]

theorem toIndex_zero (cfg : Cfg K) : toIndex cfg 0 = some none := by
  simp [toIndex, HashEntry.entryToIndex]

/-! ### rows -/

abbrev Rows (K V : Type) := List (List (Item K V))

/-- The buckets with NULL read as empty. -/
def rows (cfg : Cfg K) (m : Map K V) : Rows K V := (m.buckets.getD (List.replicate cfg.c none)).map (·.getD [])

/-- What an item stands for. -/
def toPair (it : Item K V) : Option (K × Option V) :=
  if isEmpty it.tag then none else some (it.key, if isInit it.tag then it.value else none)

def contents (r : Rows K V) : List (K × Option V) := r.flatMap fun row => row.filterMap toPair

def at' (r : Rows K V) (b i : Nat) : Option (Item K V) := r[b]?.bind (·[i]?)

/-- One slot is written: `x` was there (`none`: the slot is new, at the end of its row), `y` is there now. -/
inductive Edit : Rows K V → Rows K V → Nat → Nat → Option (Item K V) → Item K V → Prop
  | set {r row b i x y} : r[b]? = some row → row[i]? = some x → Edit r (r.set b (row.set i y)) b i (some x) y
  | app {r row b y} : r[b]? = some row → Edit r (r.set b (row ++ [y])) b row.length none y

theorem split_at {α : Type} {l : List α} {i : Nat} {x : α} (h : l[i]? = some x) :
    ∃ p q, l = p ++ x :: q ∧ p.length = i := by
  obtain ⟨hi, rfl⟩ := List.getElem?_eq_some_iff.1 h
  exact ⟨l.take i, l.drop (i + 1), by simp, by simp; omega⟩

theorem set_mid {α : Type} {p q : List α} {x y : α} : (p ++ x :: q).set p.length y = p ++ y :: q := by
  simp

theorem contents_append (a b : Rows K V) : contents (a ++ b) = contents a ++ contents b := by simp [contents]
theorem contents_cons (a : List (Item K V)) (b : Rows K V) : contents (a :: b) = a.filterMap toPair ++ contents b := by simp [contents]

theorem filterMap_cons' (x : Item K V) (q : List (Item K V)) : (x :: q).filterMap toPair = (toPair x).toList ++ q.filterMap toPair := by
  rw [List.filterMap_cons]; cases toPair x <;> rfl

theorem perm_mid {α : Type} (P p x q Q : List α) : (P ++ ((p ++ (x ++ q)) ++ Q)).Perm (x ++ (P ++ (p ++ (q ++ Q)))) := by
  simp only [List.append_assoc]
  exact (List.Perm.append_left P (List.perm_append_comm_assoc _ _ _)).trans (List.perm_append_comm_assoc _ _ _)

theorem Edit.perm {r r' : Rows K V} {b i x y} (h : Edit r r' b i x y) :
    ∃ rest, (contents r).Perm ((x.bind toPair).toList ++ rest) ∧ (contents r').Perm ((toPair y).toList ++ rest) := by
  cases h with
  | set h1 h2 =>
    obtain ⟨P, Q, rfl, rfl⟩ := split_at h1
    obtain ⟨p, q, rfl, rfl⟩ := split_at h2
    refine ⟨contents P ++ (p.filterMap toPair ++ (q.filterMap toPair ++ contents Q)), ?_, ?_⟩
    · rw [contents_append, contents_cons, List.filterMap_append, filterMap_cons']; exact perm_mid _ _ _ _ _
    · rw [set_mid, set_mid, contents_append, contents_cons, List.filterMap_append, filterMap_cons']; exact perm_mid _ _ _ _ _
  | @app row _ _ h1 =>
    obtain ⟨P, Q, rfl, rfl⟩ := split_at h1
    refine ⟨contents P ++ (row.filterMap toPair ++ ([] ++ contents Q)), ?_, ?_⟩
    · simp [contents_append, contents_cons]
    · have := perm_mid (contents P) (row.filterMap toPair) (toPair y).toList [] (contents Q)
      rw [set_mid, contents_append, contents_cons, List.filterMap_append, filterMap_cons']; exact this

theorem Edit.at_self {r r' : Rows K V} {b i x y} (h : Edit r r' b i x y) : at' r' b i = some y ∧ at' r b i = x := by
  cases h with
  | set h1 h2 =>
    have hb := (List.getElem?_eq_some_iff.1 h1).1
    have hi := (List.getElem?_eq_some_iff.1 h2).1
    constructor
    · simp [at', List.getElem?_set, hb, hi]
    · simp only [at', h1, Option.bind_some, h2]
  | app h1 =>
    have hb := (List.getElem?_eq_some_iff.1 h1).1
    constructor
    · simp [at', List.getElem?_set, hb]
    · simp only [at', h1, Option.bind_some]; simp

theorem Edit.at_other {r r' : Rows K V} {b i x y} (h : Edit r r' b i x y) {b' i' : Nat} (hne : ¬ (b' = b ∧ i' = i)) :
    at' r' b' i' = at' r b' i' := by
  cases h with
  | set h1 h2 =>
    have hb := (List.getElem?_eq_some_iff.1 h1).1
    by_cases e : b = b'
    · subst e
      have : i ≠ i' := fun e => hne ⟨rfl, e.symm⟩
      simp only [at', h1, List.getElem?_set, hb, if_pos, Option.bind_some, if_neg this]
    · simp [at', List.getElem?_set, e]
  | app h1 =>
    have hb := (List.getElem?_eq_some_iff.1 h1).1
    by_cases e : b = b'
    · subst e
      have : i' ≠ _ := fun e => hne ⟨rfl, e⟩
      simp only [at', h1, List.getElem?_set, hb, if_pos, Option.bind_some]
      rcases Nat.lt_or_gt_of_ne this with hl | hl
      · rw [List.getElem?_append_left hl]
      · rw [List.getElem?_eq_none (by simp; omega), List.getElem?_eq_none (by omega)]
    · simp [at', List.getElem?_set, e]

theorem Edit.length {r r' : Rows K V} {b i x y} (h : Edit r r' b i x y) : r'.length = r.length := by
  cases h <;> simp

/-- Rows keep their length, except that a new slot lengthens row `b` to `i + 1`. -/
theorem Edit.row_length {r r' : Rows K V} {b i x y} (h : Edit r r' b i x y) {row : List (Item K V)} (hr : row ∈ r') :
    (∃ row0 ∈ r, row0.length = row.length) ∨ (x = none ∧ row.length = i + 1 ∧ r'[b]? = some row) := by
  cases h with
  | @set row0 _ _ _ _ h1 h2 =>
    rcases List.mem_or_eq_of_mem_set hr with hm | rfl
    · exact .inl ⟨_, hm, rfl⟩
    · exact .inl ⟨row0, List.mem_of_getElem? h1, by simp⟩
  | @app row0 _ _ h1 =>
    rcases List.mem_or_eq_of_mem_set hr with hm | rfl
    · exact .inl ⟨_, hm, rfl⟩
    · have hb := (List.getElem?_eq_some_iff.1 h1).1
      exact .inr ⟨rfl, by simp, by simp [List.getElem?_set, hb]⟩

theorem mem_contents {r : Rows K V} {p : K × Option V} : p ∈ contents r ↔ ∃ b i it, at' r b i = some it ∧ toPair it = some p := by
  simp only [contents, List.mem_flatMap, List.mem_filterMap]
  constructor
  · rintro ⟨row, hrow, it, hit, hp⟩
    obtain ⟨b, hb⟩ := List.mem_iff_getElem?.1 hrow
    obtain ⟨i, hi⟩ := List.mem_iff_getElem?.1 hit
    exact ⟨b, i, it, by simp [at', hb, hi], hp⟩
  · rintro ⟨b, i, it, ha, hp⟩
    simp only [at', Option.bind_eq_some_iff] at ha
    obtain ⟨row, hb, hi⟩ := ha
    exact ⟨row, List.mem_of_getElem? hb, it, List.mem_of_getElem? hi, hp⟩

end Verif.HashMap
