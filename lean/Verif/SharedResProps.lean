import Verif.SharedRes
import Verif.Conc
/-!
# C43: the concurrent shared resource
-/
namespace Verif.SharedRes
open Verif.Conc

def eq1 (a b : Nat) : Nat := if a = b then 1 else 0

/-- Does the thread have node `k`, or still have to return its count? -/
def own (k : Nat) : PC → Nat
  | .s1 i _ | .s2 i _ => eq1 i k
  | .s3 p _ => eq1 (p / K) k
  | _ => 0

/-- The number of gets whose count the thread has to return to node `k`. -/
def cnt (k : Nat) : PC → Nat
  | .s3 p _ => if p / K = k then p % K else 0
  | _ => 0

/-- Is the thread a get that is not yet counted in node `k`? -/
def pend (k : Nat) : PC → Nat
  | .g1 i _ | .g2 i => eq1 i k
  | _ => 0

/-- Has the thread taken node `k` for its data? -/
def claim (k : Nat) : PC → Nat
  | .s1 i _ | .s2 i _ => eq1 i k
  | _ => 0

/-- Does the thread have value `v`? -/
def holds (v : Nat) : PC → Nat
  | .s0 _ x | .s1 _ x => eq1 x v
  | .s2 _ d | .s3 _ d | .s4 d => if d = some v then 1 else 0
  | _ => 0

/-- The nodes a thread refers to exist. -/
def Bnd (N : Nat) : PC → Prop
  | .idle | .s4 _ => True
  | .s0 i _ | .s1 i _ | .s2 i _ | .g1 i _ | .g2 i => i < N
  | .s3 p _ => p / K < N
  | .g3 _ | .g4 _ | .fault => False

structure A (L N : Nat) (c : Nat) (refs : List Nat) (since : Nat) (thrs : List PC) : Prop where
  len : refs.length = N
  lt : c / K < N
  mod : c % K = since
  lim : since ≤ L
  one : ∀ k, eq1 (c / K) k + sumBy (own k) thrs ≤ 1
  refs : ∀ k r : Nat, refs[k]? = some r → r < W ∧ (r + 2 * sumBy (pend k) thrs) % W = (eq1 (c / K) k + sumBy (own k) thrs + 2 * ((if c / K = k then c % K else 0) + sumBy (cnt k) thrs)) % W
  claim : ∀ k, 0 < sumBy (claim k) thrs → sumBy (pend k) thrs = 0
  bnd : ∀ (i : Nat) (p : PC), thrs[i]? = some p → Bnd N p
  thrs : 2 * thrs.length < W

structure B (N : Nat) (y : Sys) : Prop where
  len : y.data.length = N
  cur : y.data[y.current / K]? = some y.cur
  reader : ∀ (i k : Nat) (v : Option Nat), y.thrs[i]? = some (.g1 k v) → y.data[k]? = some v
  places : ∀ v, y.data.count (some v) + sumBy (holds v) y.thrs + y.destroyed.count (some v) = if v < y.sets then 1 else 0
  got : ∀ p ∈ y.got, p.1 = p.2.1 ∧ p.2.2 = false

def Inv (L N : Nat) (y : Sys) : Prop := A L N y.current y.refs y.since y.thrs ∧ B N y

theorem thr_set {l : List PC} {i j : Nat} {t t' : PC} (h : (l.set i t)[j]? = some t') : (j = i ∧ t' = t) ∨ (j ≠ i ∧ l[j]? = some t') := by
  by_cases e : j = i
  · subst e
    rw [List.getElem?_set] at h
    simp at h
    exact .inl ⟨rfl, h.2.symm⟩
  · rw [List.getElem?_set_ne (fun h => e h.symm)] at h
    exact .inr ⟨e, h⟩

theorem sumBy_le {α : Type} (f : α → Nat) (hf : ∀ a, f a ≤ 1) (l : List α) : sumBy f l ≤ l.length := by
  induction l with
  | nil => simp
  | cons a l ih => have := hf a; simp; omega

theorem sumBy_mono {α : Type} {f g : α → Nat} (h : ∀ a, f a ≤ g a) (l : List α) : sumBy f l ≤ sumBy g l := by
  induction l with
  | nil => simp
  | cons a l ih => have := h a; simp; omega

theorem eq1_le (a b : Nat) : eq1 a b ≤ 1 := by unfold eq1; split <;> omega

theorem pend_le (k : Nat) (p : PC) : pend k p ≤ 1 := by
  cases p <;> first | exact eq1_le _ _ | exact Nat.zero_le _

theorem claim_own (k : Nat) (p : PC) : claim k p ≤ own k p := by
  cases p <;> first | exact Nat.le_refl _ | exact Nat.zero_le _

theorem cnt_own {k : Nat} {l : List PC} (h : sumBy (own k) l = 0) : sumBy (cnt k) l = 0 := by
  apply sumBy_eq_zero
  intro p hp
  have := sumBy_zero _ h p hp
  cases p with
  | s3 p d => unfold own eq1 at this; unfold cnt; split at this <;> simp_all
  | _ => rfl

theorem A.bnd_set {L N c : Nat} {refs : List Nat} {since : Nat} {thrs : List PC} (a : A L N c refs since thrs) {i : Nat} {p' : PC} (h : Bnd N p') :
    ∀ (j : Nat) (q : PC), (thrs.set i p')[j]? = some q → Bnd N q := by
  intro j q hj
  rcases thr_set hj with ⟨-, rfl⟩ | ⟨-, hj⟩
  · exact h
  · exact a.bnd j q hj

/-- A thread moves and its accounts do not change. -/
theorem A.quiet {L N c : Nat} {refs : List Nat} {since : Nat} {thrs : List PC} (a : A L N c refs since thrs) {i : Nat} {p p' : PC} (hi : thrs[i]? = some p)
    (h1 : ∀ k, own k p' = own k p) (h2 : ∀ k, cnt k p' = cnt k p) (h3 : ∀ k, pend k p' = pend k p) (h4 : ∀ k, SharedRes.claim k p' = SharedRes.claim k p) (hb : Bnd N p') :
    A L N c refs since (thrs.set i p') := by
  have e1 : ∀ k, sumBy (own k) (thrs.set i p') = sumBy (own k) thrs := fun k => by have := sumBy_set (own k) hi p'; have := h1 k; omega
  have e2 : ∀ k, sumBy (cnt k) (thrs.set i p') = sumBy (cnt k) thrs := fun k => by have := sumBy_set (cnt k) hi p'; have := h2 k; omega
  have e3 : ∀ k, sumBy (pend k) (thrs.set i p') = sumBy (pend k) thrs := fun k => by have := sumBy_set (pend k) hi p'; have := h3 k; omega
  have e4 : ∀ k, sumBy (SharedRes.claim k) (thrs.set i p') = sumBy (SharedRes.claim k) thrs := fun k => by have := sumBy_set (SharedRes.claim k) hi p'; have := h4 k; omega
  refine ⟨a.len, a.lt, a.mod, a.lim, ?_, ?_, ?_, a.bnd_set hb, by simpa using a.thrs⟩
  · intro k; rw [e1]; exact a.one k
  · intro k r h; rw [e1, e2, e3]; exact a.refs k r h
  · intro k; rw [e3, e4]; exact a.claim k

theorem get_set {l : List Nat} {k j r r' : Nat} (h : (l.set k r)[j]? = some r') : (j = k ∧ r' = r) ∨ (j ≠ k ∧ l[j]? = some r') := by
  by_cases e : j = k
  · subst e
    rw [List.getElem?_set] at h
    simp at h
    exact .inl ⟨rfl, h.2.symm⟩
  · rw [List.getElem?_set_ne (fun h => e h.symm)] at h
    exact .inr ⟨e, h⟩

/-- A node whose count is 0 belongs to nobody and no get is using it. -/
theorem A.free {L N c : Nat} {refs : List Nat} {since : Nat} {thrs : List PC} (a : A L N c refs since thrs) {k : Nat} (h : refs[k]? = some 0) :
    c / K ≠ k ∧ sumBy (own k) thrs = 0 ∧ sumBy (cnt k) thrs = 0 ∧ sumBy (pend k) thrs = 0 := by
  obtain ⟨-, h1⟩ := a.refs k 0 h
  have h2 := a.one k
  have hp := sumBy_le (pend k) (pend_le k) thrs
  have ht := a.thrs
  have h0 : eq1 (c / K) k + sumBy (own k) thrs = 0 := by
    simp only [W] at h1
    omega
  have ho : sumBy (own k) thrs = 0 := by omega
  have hc := cnt_own ho
  have hk : c / K ≠ k := by
    intro e
    have : eq1 (c / K) k = 1 := if_pos e
    omega
  refine ⟨hk, ho, hc, ?_⟩
  rw [if_neg hk, hc, h0] at h1
  simp only [W] at h1 ht
  omega

theorem Inv.step {L N : Nat} {y y' : Sys} (hL : L < K) (hN : N * K ≤ W) (I : Inv L N y) (st : Step false N y y') (hlim : y'.since ≤ L) : Inv L N y' := by
  obtain ⟨a, b⟩ := I
  have hNp : 0 < N := Nat.lt_of_le_of_lt (Nat.zero_le _) a.lt
  have rd : ∀ {i : Nat} {p' : PC}, (∀ k v, p' ≠ .g1 k v) → ∀ (j k : Nat) (v : Option Nat), (y.thrs.set i p')[j]? = some (.g1 k v) → y.data[k]? = some v := by
    intro i p' hp' j k v hj
    rcases thr_set hj with ⟨-, e⟩ | ⟨-, hj⟩
    · exact absurd e.symm (hp' k v)
    · exact b.reader j k v hj
  cases st with
  | @setBegin i hi =>
    refine ⟨a.quiet hi (fun k => rfl) (fun k => rfl) (fun k => rfl) (fun k => rfl) (Nat.mod_lt _ hNp), b.len, b.cur, rd (by simp), ?_, b.got⟩
    intro v
    have h1 := b.places v
    have h2 := sumBy_set (holds v) hi (.s0 ((y.current / K + 1) % N) y.sets)
    simp only [holds, eq1] at h2
    dsimp only
    by_cases e : y.sets = v
    · subst e
      simp at h1 h2 ⊢
      omega
    · rw [if_neg e] at h2
      have e' : (v < y.sets + 1) ↔ (v < y.sets) := by omega
      simp only [e']
      omega
  | @setNext i k v r hi hr h0 =>
    refine ⟨a.quiet hi (fun k => rfl) (fun k => rfl) (fun k => rfl) (fun k => rfl) (Nat.mod_lt _ hNp), b.len, b.cur, rd (by simp), ?_, b.got⟩
    intro x
    have h1 := b.places x
    have h2 := sumBy_set (holds x) hi (.s0 ((k + 1) % N) v)
    simp only [holds] at h2
    dsimp only; omega
  | @setClaim i k v hi hr =>
    obtain ⟨f1, f2, f3, f4⟩ := a.free hr
    have so := fun j => sumBy_set (own j) hi (.s1 k v)
    have sc := fun j => sumBy_set (cnt j) hi (.s1 k v)
    have sp := fun j => sumBy_set (pend j) hi (.s1 k v)
    have sl := fun j => sumBy_set (claim j) hi (.s1 k v)
    simp only [own, cnt, pend, claim, Nat.add_zero] at so sc sp sl
    refine ⟨⟨by simpa using a.len, a.lt, a.mod, a.lim, ?_, ?_, ?_, a.bnd_set (a.bnd i _ hi : Bnd N (.s0 k v)), by simpa using a.thrs⟩, b.len, b.cur, rd (by simp), ?_, b.got⟩
    · intro j
      dsimp only
      have h1 := a.one j
      have h2 := so j
      by_cases e : k = j
      · subst e
        have : eq1 (y.current / K) k = 0 := if_neg f1
        have : eq1 k k = 1 := if_pos rfl
        omega
      · have : eq1 k j = 0 := if_neg e
        omega
    · intro j r hj
      rcases get_set hj with ⟨rfl, rfl⟩ | ⟨hne, hj⟩
      · refine ⟨by decide, ?_⟩
        rw [so j, sc j, sp j, f2, f3, f4, if_neg f1]
        have : eq1 (y.current / K) j = 0 := if_neg f1
        have h : eq1 j j = 1 := if_pos rfl
        dsimp only
        rw [this, h]
      · have h1 := so j
        have : eq1 k j = 0 := if_neg (fun h => hne h.symm)
        rw [this] at h1
        rw [h1, sc j, sp j]
        exact a.refs j r hj
    · intro j hj
      dsimp only at hj ⊢
      rw [sp j]
      by_cases e : k = j
      · subst e; exact f4
      · have h1 := sl j
        have : eq1 k j = 0 := if_neg e
        exact a.claim j (by omega)
    · intro x
      have h1 := b.places x
      have h2 := sumBy_set (holds x) hi (.s1 k v)
      simp only [holds] at h2
      dsimp only; omega
  | @setWrite i k v d hi hd =>
    have hcl : 0 < sumBy (claim k) y.thrs := by
      have h := le_sumBy (claim k) hi
      have : claim k (.s1 k v) = 1 := if_pos rfl
      omega
    have hp := a.claim k hcl
    have hown := Nat.lt_of_lt_of_le hcl (sumBy_mono (claim_own k) y.thrs)
    have hk : y.current / K ≠ k := by
      intro e
      have h1 := a.one k
      have : eq1 (y.current / K) k = 1 := if_pos e
      omega
    refine ⟨a.quiet hi (fun k => rfl) (fun k => rfl) (fun k => rfl) (fun k => rfl) (a.bnd i _ hi : Bnd N (.s1 k v)), by simpa using b.len, ?_, ?_, ?_, b.got⟩
    · show (y.data.set k (some v))[y.current / K]? = some y.cur
      rw [List.getElem?_set_ne (fun h => hk h.symm)]
      exact b.cur
    · intro j k' v' hj
      rcases thr_set hj with ⟨-, e⟩ | ⟨-, hj⟩
      · cases e
      · have hne : k ≠ k' := by
          rintro rfl
          have h1 := le_sumBy (pend k) hj
          have : pend k (.g1 k v') = 1 := if_pos rfl
          omega
        show (y.data.set k (some v))[k']? = some v'
        rw [List.getElem?_set_ne hne]
        exact b.reader j k' v' hj
    · intro x
      have h1 := b.places x
      have h2 := sumBy_set (holds x) hi (.s2 k d)
      have h3 : ∀ (l : List (Option Nat)) (k : Nat), l[k]? = some d → (l.set k (some v)).count (some x) + (if d = some x then 1 else 0) = l.count (some x) + (if v = x then 1 else 0) := by
        intro l
        induction l with
        | nil => intro k h; simp at h
        | cons z l ih =>
          intro k h
          cases k with
          | zero =>
            simp at h; subst h
            simp only [List.set_cons_zero, List.count_cons, beq_iff_eq, Option.some.injEq]
            omega
          | succ k =>
            simp at h
            have := ih k h
            simp only [List.set_cons_succ, List.count_cons]
            omega
      have h4 := h3 y.data k hd
      simp only [holds, eq1] at h2
      dsimp only
      omega
  | @setSwap i k d v hi hv =>
    have hkN : k < N := a.bnd i _ hi
    have hkW : k * K < W := Nat.lt_of_lt_of_le (Nat.mul_lt_mul_of_pos_right hkN (by decide)) hN
    have em : k * K % W = k * K := Nat.mod_eq_of_lt hkW
    have ed : k * K % W / K = k := by rw [em]; exact Nat.mul_div_cancel _ (by decide)
    have er : k * K % W % K = 0 := by rw [em]; exact Nat.mul_mod_left _ _
    have so := fun j => sumBy_set (own j) hi (.s3 y.current d)
    have sc := fun j => sumBy_set (cnt j) hi (.s3 y.current d)
    have sp := fun j => sumBy_set (pend j) hi (.s3 y.current d)
    have sl := fun j => sumBy_set (claim j) hi (.s3 y.current d)
    simp only [own, cnt, pend, claim, Nat.add_zero] at so sc sp sl
    refine ⟨⟨a.len, by rw [ed]; exact hkN, er, Nat.zero_le _, ?_, ?_, ?_, a.bnd_set (p' := .s3 y.current d) a.lt, by simpa using a.thrs⟩, b.len, ?_, rd (by simp), ?_, b.got⟩
    · intro j
      have h1 := a.one j
      have h2 := so j
      dsimp only; rw [ed]; omega
    · intro j r hj
      obtain ⟨h1, h2⟩ := a.refs j r hj
      refine ⟨h1, ?_⟩
      have h3 := so j
      have h4 := sc j
      dsimp only
      rw [ed, er, sp j, h2]
      congr 1
      have : (if k = j then 0 else 0) = 0 := by split <;> rfl
      omega
    · intro j hj
      rw [sp j]
      exact a.claim j (by have := sl j; dsimp only at hj; omega)
    · show y.data[k * K % W / K]? = some v
      rw [ed]; exact hv
    · intro x
      have h1 := b.places x
      have h2 := sumBy_set (holds x) hi (.s3 y.current d)
      simp only [holds] at h2
      dsimp only; omega
  | @setSub i p r d hi hr =>
    obtain ⟨r1, r2⟩ := a.refs _ r hr
    have hpk : p % K < K := Nat.mod_lt _ (by decide)
    have so := fun j => sumBy_set (own j) hi (.s4 d)
    have sc := fun j => sumBy_set (cnt j) hi (.s4 d)
    have sp := fun j => sumBy_set (pend j) hi (.s4 d)
    have sl := fun j => sumBy_set (claim j) hi (.s4 d)
    simp only [own, cnt, pend, claim, Nat.add_zero] at so sc sp sl
    refine ⟨⟨by simpa using a.len, a.lt, a.mod, a.lim, ?_, ?_, ?_, a.bnd_set (p' := .s4 d) trivial, by simpa using a.thrs⟩, b.len, b.cur, rd (by simp), ?_, b.got⟩
    · intro j
      have h1 := a.one j
      have h2 := so j
      dsimp only; omega
    · intro j r' hj
      rcases get_set hj with ⟨rfl, rfl⟩ | ⟨hne, hj⟩
      · refine ⟨Nat.mod_lt _ (by decide), ?_⟩
        have h1 := so (p / K)
        have h2 := sc (p / K)
        have h3 : eq1 (p / K) (p / K) = 1 := if_pos rfl
        rw [h3] at h1
        rw [if_pos rfl] at h2
        rw [sp (p / K)]
        dsimp only
        generalize sumBy (own (p / K)) (y.thrs.set i (.s4 d)) = o at *
        generalize sumBy (cnt (p / K)) (y.thrs.set i (.s4 d)) = c at *
        generalize sumBy (own (p / K)) y.thrs = o' at *
        generalize sumBy (cnt (p / K)) y.thrs = c' at *
        generalize sumBy (pend (p / K)) y.thrs = P at *
        generalize (if y.current / K = p / K then y.current % K else 0) = z at *
        generalize eq1 (y.current / K) (p / K) = e at *
        generalize p % K = q at *
        subst h1; subst h2
        simp only [W, K] at *
        omega
      · have h1 := so j
        have h2 := sc j
        have h3 : eq1 (p / K) j = 0 := if_neg (fun h => hne h.symm)
        rw [h3] at h1
        rw [if_neg (fun h => hne h.symm)] at h2
        simp only [Nat.add_zero] at h1 h2
        dsimp only
        rw [h1, h2, sp j]
        exact a.refs j r' hj
    · intro j hj
      rw [sp j]
      exact a.claim j (by have := sl j; dsimp only at hj; omega)
    · intro x
      have h1 := b.places x
      have h2 := sumBy_set (holds x) hi (.s4 d)
      simp only [holds] at h2
      dsimp only; omega
  | @setFault i p d hi hr =>
    have := a.bnd i _ hi
    rw [List.getElem?_eq_none_iff, a.len] at hr
    simp only [Bnd] at this
    omega
  | @setDestroy i d hi =>
    refine ⟨a.quiet hi (fun k => rfl) (fun k => rfl) (fun k => rfl) (fun k => rfl) trivial, b.len, b.cur, rd (by simp), ?_, b.got⟩
    intro x
    have h1 := b.places x
    have h2 := sumBy_set (holds x) hi .idle
    simp only [holds] at h2
    simp only [List.count_append, List.count_cons, List.count_nil, beq_iff_eq]
    omega
  | @getAdd i hi =>
    dsimp only at hlim
    have hm := a.mod
    have hlt := a.lt
    have hcW : y.current + 1 < W := by
      have h1 : y.current = K * (y.current / K) + y.current % K := (Nat.div_add_mod _ _).symm
      have h2 : (y.current / K + 1) * K ≤ N * K := Nat.mul_le_mul_right _ hlt
      rw [Nat.add_mul, Nat.mul_comm] at h2
      omega
    have em : (y.current + 1) % W = y.current + 1 := Nat.mod_eq_of_lt hcW
    have ed : (y.current + 1) % W / K = y.current / K := by rw [em]; simp only [K] at *; omega
    have er : (y.current + 1) % W % K = y.current % K + 1 := by rw [em]; simp only [K] at *; omega
    have so := fun j => sumBy_set (own j) hi (.g1 (y.current / K) y.cur)
    have sc := fun j => sumBy_set (cnt j) hi (.g1 (y.current / K) y.cur)
    have sp := fun j => sumBy_set (pend j) hi (.g1 (y.current / K) y.cur)
    have sl := fun j => sumBy_set (claim j) hi (.g1 (y.current / K) y.cur)
    simp only [own, cnt, pend, claim, Nat.add_zero] at so sc sp sl
    refine ⟨⟨a.len, by rw [ed]; exact hlt, by rw [er, hm], hlim, ?_, ?_, ?_, a.bnd_set (p' := .g1 (y.current / K) y.cur) hlt, by simpa using a.thrs⟩, b.len, ?_, ?_, ?_, b.got⟩
    · intro j
      have h1 := a.one j
      have h2 := so j
      dsimp only; rw [ed]; omega
    · intro j r hj
      obtain ⟨h1, h2⟩ := a.refs j r hj
      refine ⟨h1, ?_⟩
      dsimp only
      rw [ed, er, so j, sc j, sp j]
      by_cases e : y.current / K = j
      · rw [if_pos e] at h2 ⊢
        have : eq1 (y.current / K) j = 1 := if_pos e
        rw [this] at h2 ⊢
        simp only [W] at *
        omega
      · rw [if_neg e] at h2 ⊢
        have : eq1 (y.current / K) j = 0 := if_neg e
        rw [this] at h2 ⊢
        exact h2
    · intro j hj
      have h1 := sl j
      have h2 : 0 < sumBy (claim j) y.thrs := by dsimp only at hj; omega
      have h3 := a.claim j h2
      have h4 := Nat.lt_of_lt_of_le h2 (sumBy_mono (claim_own j) y.thrs)
      have h5 := a.one j
      have h6 : eq1 (y.current / K) j = 0 := by omega
      have := sp j
      dsimp only; omega
    · show y.data[(y.current + 1) % W / K]? = some y.cur
      rw [ed]; exact b.cur
    · intro j k v hj
      rcases thr_set hj with ⟨-, e⟩ | ⟨-, hj⟩
      · cases e; exact b.cur
      · exact b.reader j k v hj
    · intro x
      have h1 := b.places x
      have h2 := sumBy_set (holds x) hi (.g1 (y.current / K) y.cur)
      simp only [holds] at h2
      dsimp only; omega
  | @getShare i k v d hi hd =>
    refine ⟨a.quiet hi (fun k => rfl) (fun k => rfl) (fun k => rfl) (fun k => rfl) (a.bnd i _ hi : Bnd N (.g1 k v)), b.len, b.cur, rd (by simp), ?_, ?_⟩
    · intro x
      have h1 := b.places x
      have h2 := sumBy_set (holds x) hi (.g2 k)
      simp only [holds] at h2
      dsimp only; omega
    · intro q hq
      rcases List.mem_append.1 hq with hq | hq
      · exact b.got q hq
      · obtain rfl := List.mem_singleton.1 hq
        have h1 := b.reader i k v hi
        rw [hd] at h1
        have e : d = v := by simpa using h1
        subst e
        refine ⟨rfl, ?_⟩
        cases d with
        | none => rfl
        | some x =>
          have h2 := b.places x
          have h3 : 0 < y.data.count (some x) := List.count_pos_iff.2 (List.mem_of_getElem? hd)
          have h4 : y.destroyed.count (some x) = 0 := by split at h2 <;> omega
          have h5 := List.count_eq_zero.1 h4
          simp [h5]
  | @getFault i k v hi hd =>
    have := a.bnd i _ hi
    rw [List.getElem?_eq_none_iff, b.len] at hd
    simp only [Bnd] at this
    omega
  | @getRef i k r hi hr =>
    obtain ⟨r1, r2⟩ := a.refs _ r hr
    have so := fun j => sumBy_set (own j) hi .idle
    have sc := fun j => sumBy_set (cnt j) hi .idle
    have sp := fun j => sumBy_set (pend j) hi .idle
    have sl := fun j => sumBy_set (claim j) hi .idle
    simp only [own, cnt, pend, claim, Nat.add_zero] at so sc sp sl
    simp only [Bool.false_eq_true, if_false] at *
    refine ⟨⟨by simpa using a.len, a.lt, a.mod, a.lim, ?_, ?_, ?_, a.bnd_set (p' := .idle) trivial, by simpa using a.thrs⟩, b.len, b.cur, rd (by simp), ?_, b.got⟩
    · intro j
      have h1 := a.one j
      have h2 := so j
      dsimp only; omega
    · intro j r' hj
      dsimp only
      rcases get_set hj with ⟨rfl, rfl⟩ | ⟨hne, hj⟩
      · refine ⟨Nat.mod_lt _ (by decide), ?_⟩
        have h1 := sp j
        have h3 : eq1 j j = 1 := if_pos rfl
        rw [h3] at h1
        rw [so j, sc j, ← r2, ← h1]
        simp only [W] at *
        omega
      · have h1 := sp j
        have h3 : eq1 k j = 0 := if_neg (fun h => hne h.symm)
        rw [h3, Nat.add_zero] at h1
        rw [so j, sc j, h1]
        exact a.refs j r' hj
    · intro j hj
      have h1 := sp j
      have h2 := a.claim j (by have := sl j; dsimp only at hj; omega)
      dsimp only; omega
    · intro x
      have h1 := b.places x
      have h2 := sumBy_set (holds x) hi .idle
      simp only [holds] at h2
      dsimp only; omega
  | getBack hi _ => exact (a.bnd _ _ hi).elim
  | getLeave hi _ => exact (a.bnd _ _ hi).elim
  | getUnref hi _ => exact (a.bnd _ _ hi).elim

theorem inv_init {L N n : Nat} (hN : 0 < N) (hn : 2 * n < W) : Inv L N (init N n) := by
  have hz : ∀ (f : PC → Nat), f .idle = 0 → sumBy f (init N n).thrs = 0 := by
    intro f hf; simp [init, sumBy_replicate, hf]
  have hidle : ∀ (i : Nat) (p : PC), (init N n).thrs[i]? = some p → p = .idle := by
    intro i p hp
    simp [init, List.getElem?_replicate] at hp
    exact hp.2.symm
  refine ⟨⟨by simp [init], by simp [init, K]; exact hN, rfl, Nat.zero_le _, ?_, ?_, ?_, ?_, by simpa [init] using hn⟩, by simp [init], ?_, ?_, ?_, by simp [init]⟩
  · intro k; rw [hz _ rfl]; exact eq1_le _ _
  · intro k r hr
    rw [hz _ rfl, hz _ rfl, hz _ rfl]
    have h0 : (init N n).current / K = 0 := Nat.zero_div _
    have h0' : (init N n).current % K = 0 := Nat.zero_mod _
    rcases get_set hr with ⟨rfl, rfl⟩ | ⟨hne, hr⟩
    · rw [h0, h0']; decide
    · simp [List.getElem?_replicate] at hr
      obtain ⟨-, rfl⟩ := hr
      have : eq1 0 k = 0 := if_neg (fun h => hne h.symm)
      rw [h0, this, if_neg (fun h => hne h.symm)]
      exact ⟨by decide, rfl⟩
  · intro k h; rw [hz _ rfl] at h; omega
  · intro i p hi; rw [hidle i p hi]; trivial
  · simp [init, List.getElem?_replicate, K, hN]
  · intro i k v hi; have := hidle i _ hi; cases this
  · intro v
    rw [hz _ rfl]
    simp [init, List.count_replicate]

theorem ReachL.inv {L N n : Nat} (hL : L < K) (hN : 0 < N) (hNW : N * K ≤ W) (hn : 2 * n < W) {y : Sys} (h : ReachL false L N n y) : Inv L N y := by
  induction h with
  | init => exact inv_init hN hn
  | step _ s hl ih => exact ih.step hL hNW s hl

/-- **C43**, what holds: when `Tunlimited` is false and fewer than 2^16 gets begin between two sets, in every interleaving of any number of sets and gets:
* a get shares the value that was current when it began, and that value has not been destroyed when it is shared;
* the data of a node is not written while a get still has to share it;
* each value is in exactly one place: with the set that brings it, in a node, with the set that replaced it, or destroyed; in particular it is destroyed at most once;
* no node that does not exist is accessed.
Missing: `Tunlimited` true, the default (`C43_unlimited_refuted`, `C43_unlimited_index_refuted`); and 2^16 gets between two sets (`C43_limit_refuted`). -/
theorem C43_shared_partial (L N n : Nat) (hL : L < 65536) (hN : 0 < N) (hNW : N ≤ 2 ^ 48) (hn : n < 2 ^ 63) (y : Sys) (h : ReachL false L N n y) :
    (∀ d v bad, (d, v, bad) ∈ y.got → d = v ∧ bad = false) ∧
    (∀ (i j k v : Nat) (x : Option Nat), y.thrs[i]? = some (.s1 k v) → y.thrs[j]? ≠ some (.g1 k x)) ∧
    (∀ v, y.data.count (some v) + sumBy (holds v) y.thrs + y.destroyed.count (some v) = if v < y.sets then 1 else 0) ∧
    (.fault ∉ y.thrs) := by
  obtain ⟨a, b⟩ := h.inv hL hN (by simp only [K, W]; omega) (by simp only [W]; omega)
  refine ⟨fun d v bad h => b.got _ h, ?_, b.places, ?_⟩
  · intro i j k v x hi hj
    have h1 := le_sumBy (claim k) hi
    have e1 : claim k (.s1 k v) = 1 := if_pos rfl
    have h2 := le_sumBy (pend k) hj
    have e2 : pend k (.g1 k x) = 1 := if_pos rfl
    have := a.claim k (by omega)
    omega
  · intro hm
    obtain ⟨i, hi⟩ := List.mem_iff_getElem?.1 hm
    exact a.bnd i _ hi

/-- Two sets and a get that overlaps them; the value of the first set is destroyed by a third set. -/
example : ∃ y, ReachL false 65535 2 2 y ∧ y.got = [(some 0, some 0, false)] ∧ y.destroyed = [none, none, some 0] ∧ y.sets = 3 := by
  have h := ReachL.init (u := false) (L := 65535) (N := 2) (n := 2)
  have h := h.step (Step.setBegin (i := 0) rfl) (by decide)
  have h := h.step (Step.setClaim (i := 0) rfl rfl) (by decide)
  have h := h.step (Step.setWrite (i := 0) rfl rfl) (by decide)
  have h := h.step (Step.setSwap (i := 0) rfl rfl) (by decide)
  have h := h.step (Step.setSub (i := 0) rfl rfl) (by decide)
  have h := h.step (Step.setDestroy (i := 0) rfl) (by decide)
  have h := h.step (Step.getAdd (i := 1) rfl) (by decide)
  have h := h.step (Step.setBegin (i := 0) rfl) (by decide)
  have h := h.step (Step.setClaim (i := 0) rfl rfl) (by decide)
  have h := h.step (Step.setWrite (i := 0) rfl rfl) (by decide)
  have h := h.step (Step.setSwap (i := 0) rfl rfl) (by decide)
  have h := h.step (Step.setSub (i := 0) rfl rfl) (by decide)
  have h := h.step (Step.setDestroy (i := 0) rfl) (by decide)
  have h := h.step (Step.getShare (i := 1) rfl rfl) (by decide)
  have h := h.step (Step.getRef (i := 1) rfl rfl) (by decide)
  have h := h.step (Step.setBegin (i := 0) rfl) (by decide)
  have h := h.step (Step.setClaim (i := 0) rfl rfl) (by decide)
  have h := h.step (Step.setWrite (i := 0) rfl rfl) (by decide)
  have h := h.step (Step.setSwap (i := 0) rfl rfl) (by decide)
  have h := h.step (Step.setSub (i := 0) rfl rfl) (by decide)
  have h := h.step (Step.setDestroy (i := 0) rfl) (by decide)
  exact ⟨_, h, rfl, rfl, rfl⟩

/-- **C43** fails with `Tunlimited`: three threads, two nodes.  Thread 0 begins a get of value 0.  Thread 1 also gets it and takes back its count in `current`, but not yet the one in `refs`.  The next set finds its count and returns 1, which is that of
thread 0, so that the count of the node becomes 0; the one after it takes the node, replaces and destroys value 0; and then thread 0 shares what it finds there, a value set later than that, or, if it is a little earlier, the destroyed value. -/
theorem C43_unlimited_refuted :
    (∃ y, Reach true 2 3 y ∧ (some 2, some 0, false) ∈ y.got) ∧
    (∃ y, Reach true 2 3 y ∧ y.thrs[0]? = some (.g1 1 (some 0)) ∧ y.destroyed.contains (some 0) = true) := by
  have h := Reach.init (u := true) (N := 2) (n := 3)
  have h := h.step (Step.setBegin (i := 2) rfl)
  have h := h.step (Step.setClaim (i := 2) rfl rfl)
  have h := h.step (Step.setWrite (i := 2) rfl rfl)
  have h := h.step (Step.setSwap (i := 2) rfl rfl)
  have h := h.step (Step.setSub (i := 2) rfl rfl)
  have h := h.step (Step.setDestroy (i := 2) rfl)
  have h := h.step (Step.getAdd (i := 0) rfl)
  have h := h.step (Step.getAdd (i := 1) rfl)
  have h := h.step (Step.getShare (i := 1) rfl rfl)
  have h := h.step (Step.getRef (i := 1) rfl rfl)
  have h := h.step (Step.getBack (i := 1) rfl rfl)
  have h := h.step (Step.setBegin (i := 2) rfl)
  have h := h.step (Step.setClaim (i := 2) rfl rfl)
  have h := h.step (Step.setWrite (i := 2) rfl rfl)
  have h := h.step (Step.setSwap (i := 2) rfl rfl)
  have h := h.step (Step.setSub (i := 2) rfl rfl)
  have h := h.step (Step.setDestroy (i := 2) rfl)
  have h := h.step (Step.setBegin (i := 2) rfl)
  have h := h.step (Step.setClaim (i := 2) rfl rfl)
  have h := h.step (Step.setWrite (i := 2) rfl rfl)
  have h := h.step (Step.setSwap (i := 2) rfl rfl)
  have h := h.step (Step.setSub (i := 2) rfl rfl)
  have h := h.step (Step.setDestroy (i := 2) rfl)
  refine ⟨?_, _, h, rfl, rfl⟩
  have h := h.step (Step.getShare (i := 0) rfl rfl)
  exact ⟨_, h, by decide⟩

/-- **C43** fails with `Tunlimited` in another way: one get and two sets.  The get is interrupted before it takes back its count in `current`; after two sets its node is the current one again, with count 0, and it takes 1 from that: the index in
`current` becomes 2^48 - 1, and the next get accesses a node that does not exist. -/
theorem C43_unlimited_index_refuted : ∃ y, Reach true 2 3 y ∧ .fault ∈ y.thrs := by
  have h := Reach.init (u := true) (N := 2) (n := 3)
  have h := h.step (Step.getAdd (i := 0) rfl)
  have h := h.step (Step.getShare (i := 0) rfl rfl)
  have h := h.step (Step.getRef (i := 0) rfl rfl)
  have h := h.step (Step.setBegin (i := 2) rfl)
  have h := h.step (Step.setClaim (i := 2) rfl rfl)
  have h := h.step (Step.setWrite (i := 2) rfl rfl)
  have h := h.step (Step.setSwap (i := 2) rfl rfl)
  have h := h.step (Step.setSub (i := 2) rfl rfl)
  have h := h.step (Step.setDestroy (i := 2) rfl)
  have h := h.step (Step.setBegin (i := 2) rfl)
  have h := h.step (Step.setClaim (i := 2) rfl rfl)
  have h := h.step (Step.setWrite (i := 2) rfl rfl)
  have h := h.step (Step.setSwap (i := 2) rfl rfl)
  have h := h.step (Step.setSub (i := 2) rfl rfl)
  have h := h.step (Step.setDestroy (i := 2) rfl)
  have h := h.step (Step.getBack (i := 0) rfl rfl)
  have h := h.step (Step.getAdd (i := 1) rfl)
  have h := h.step (Step.getFault (i := 1) rfl rfl)
  exact ⟨_, h, by decide⟩

/-- One thread gets `k` times. -/
theorem reach_gets (k : Nat) (hk : k ≤ 65536) : ∃ y, Reach false 1 1 y ∧ y.current = k ∧ y.refs = [2 * k + 1] ∧ y.data = [none] ∧ y.thrs = [.idle] := by
  induction k with
  | zero => exact ⟨_, .init, rfl, rfl, rfl, rfl⟩
  | succ k ih =>
    obtain ⟨y, h, h1, h2, h3, h4⟩ := ih (by omega)
    have e : y.current / K = 0 := by rw [h1]; simp only [K]; omega
    have h := h.step (Step.getAdd (i := 0) (by simp [h4]))
    have h := h.step (Step.getShare (i := 0) (k := y.current / K) (v := y.cur) (d := none) (by simp [h4]) (by simp [e, h3]))
    have h := h.step (Step.getRef (i := 0) (k := y.current / K) (r := 2 * k + 1) (by simp [h4]) (by simp [e, h2]))
    refine ⟨_, h, ?_, ?_, h3, ?_⟩
    · simp only [h1, W]; omega
    · simp [e, h2, W]; omega
    · simp [h4]

/-- **C43**, the bound is needed: after 2^16 gets without a set, the next get accesses a node that does not exist, even with one thread. -/
theorem C43_limit_refuted : ∃ y, Reach false 1 1 y ∧ .fault ∈ y.thrs := by
  obtain ⟨y, h, h1, h2, h3, h4⟩ := reach_gets 65536 (Nat.le_refl _)
  have e : y.current / K = 1 := by rw [h1]; decide
  have h := h.step (Step.getAdd (i := 0) (by simp [h4]))
  have h := h.step (Step.getFault (i := 0) (k := y.current / K) (v := y.cur) (by simp [h4]) (by simp [e, h3]))
  exact ⟨_, h, by simp [h4]⟩

#print axioms C43_shared_partial
#print axioms C43_unlimited_refuted
#print axioms C43_unlimited_index_refuted
#print axioms C43_limit_refuted
end Verif.SharedRes
