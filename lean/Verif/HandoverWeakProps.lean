import Verif.HandoverWeak
import Verif.Conc
/-!
# C134: what was done before a release is known after it: reference counts, identifiers, the virtual file lock
-/
namespace Verif.HandoverWeak
open Verif.Conc

theorem lt_of {α : Type} {l : List α} {i : Nat} {a : α} (h : l[i]? = some a) : i < l.length := (List.getElem?_eq_some_iff.1 h).1

theorem get_set {α : Type} {l : List α} {i j : Nat} {t u : α} (h : (l.set i t)[j]? = some u) : (j = i ∧ u = t) ∨ (j ≠ i ∧ l[j]? = some u) := by
  by_cases e : i = j
  · subst e
    rw [List.getElem?_set_self (by have := lt_of h; simpa using this)] at h
    exact Or.inl ⟨rfl, (Option.some.inj h).symm⟩
  · rw [List.getElem?_set_ne e] at h
    exact Or.inr ⟨Ne.symm e, h⟩

namespace Ref

structure Inv (y : Sys) : Prop where
  count : y.count = sumBy Thr.refs y.thrs
  uses : ∀ u, u < y.uses → u ∈ y.carries ∨ ∃ (i : Nat) (t : Thr), y.thrs[i]? = some t ∧ 0 < t.refs ∧ u ∈ t.knows
  log : ∀ e ∈ y.destroyed, ∀ u, u < e.1 → u ∈ e.2

theorem Inv.step {y y' : Sys} (I : Inv y) (s : Step code y y') : Inv y' := by
  have keep : ∀ {i : Nat} {t t' : Thr}, y.thrs[i]? = some t → 0 < t'.refs → (∀ u ∈ t.knows, u ∈ t'.knows) → ∀ u,
      (∃ (j : Nat) (v : Thr), y.thrs[j]? = some v ∧ 0 < v.refs ∧ u ∈ v.knows) → ∃ (j : Nat) (v : Thr), (y.thrs.set i t')[j]? = some v ∧ 0 < v.refs ∧ u ∈ v.knows := by
    rintro i t t' ht hp hk u ⟨j, v, hj, hv, hu⟩
    by_cases e : i = j
    · subst e
      rw [ht] at hj
      obtain rfl := Option.some.inj hj
      exact ⟨i, t', List.getElem?_set_self (lt_of ht), hp, hk u hu⟩
    · exact ⟨j, v, by rw [List.getElem?_set_ne e]; exact hj, hv, hu⟩
  cases s with
  | @use i c k ht =>
    refine ⟨?_, ?_, I.log⟩
    · have := sumBy_set Thr.refs ht ⟨c + 1, k ++ [y.uses]⟩
      have := I.count
      simp only [] at *
      omega
    · intro u hu
      by_cases e : u = y.uses
      · exact Or.inr ⟨i, _, List.getElem?_set_self (lt_of ht), Nat.succ_pos _, by rw [e]; exact List.mem_append_right _ (List.mem_singleton_self _)⟩
      · exact (I.uses u (by simp only [] at hu; omega)).imp id (keep (t' := ⟨c + 1, k ++ [y.uses]⟩) ht (Nat.succ_pos _) (fun _ h => List.mem_append_left _ h) u)
  | @retain i c k ht =>
    refine ⟨?_, fun u hu => (I.uses u hu).imp id (keep (t' := ⟨c + 2, k⟩) ht (Nat.succ_pos _) (fun _ h => h) u), I.log⟩
    have := sumBy_set Thr.refs ht ⟨c + 2, k⟩
    have := I.count
    simp only [] at *
    omega
  | @give i j c d k l ht hij hj =>
    have hj' : (y.thrs.set i ⟨c, k⟩)[j]? = some ⟨d, l⟩ := by rw [List.getElem?_set_ne hij]; exact hj
    refine ⟨?_, ?_, I.log⟩
    · have h1 := sumBy_set Thr.refs ht ⟨c, k⟩
      have h2 := sumBy_set Thr.refs hj' ⟨d + 1, l ++ k⟩
      have := I.count
      simp only [] at *
      omega
    · intro u hu
      refine (I.uses u hu).imp id ?_
      rintro ⟨x, v, hx, hv, hk⟩
      by_cases e : j = x
      · subst e
        rw [hj] at hx
        obtain rfl := Option.some.inj hx
        exact ⟨j, _, List.getElem?_set_self (lt_of hj'), Nat.succ_pos _, List.mem_append_left _ hk⟩
      · by_cases e' : i = x
        · subst e'
          rw [ht] at hx
          obtain rfl := Option.some.inj hx
          exact ⟨j, _, List.getElem?_set_self (lt_of hj'), Nat.succ_pos _, List.mem_append_right _ hk⟩
        · exact ⟨x, v, by rw [List.getElem?_set_ne e, List.getElem?_set_ne e']; exact hx, hv, hk⟩
  | @drop i c k ht hc =>
    refine ⟨?_, ?_, I.log⟩
    · have := sumBy_set Thr.refs ht ⟨c, k⟩
      have := I.count
      simp only [] at *
      omega
    · intro u hu
      simp only [code, if_true]
      rcases I.uses u hu with h | ⟨j, v, hj, hv, hk⟩
      · exact Or.inl (List.mem_append_left _ h)
      · by_cases e : i = j
        · subst e
          rw [ht] at hj
          obtain rfl := Option.some.inj hj
          exact Or.inl (List.mem_append_right _ hk)
        · exact Or.inr ⟨j, v, by rw [List.getElem?_set_ne e]; exact hj, hv, hk⟩
  | @destroy i c k ht hc =>
    have all : ∀ u, u < y.uses → u ∈ y.carries ∨ u ∈ k := by
      intro u hu
      rcases I.uses u hu with h | ⟨j, v, hj, hv, hk⟩
      · exact Or.inl h
      · by_cases e : i = j
        · subst e
          rw [ht] at hj
          obtain rfl := Option.some.inj hj
          exact Or.inr hk
        · have := add_le_sumBy Thr.refs ht hj e
          have := I.count
          simp only [] at *
          omega
    refine ⟨?_, ?_, ?_⟩
    · have := sumBy_set Thr.refs ht ⟨c, if code.fence then k ++ y.carries else k⟩
      have := I.count
      simp only [] at *
      omega
    · intro u hu
      simp only [code, if_true]
      refine Or.inl (List.mem_append.2 (all u hu))
    · intro e he
      rcases List.mem_append.1 he with he | he
      · exact I.log e he
      · obtain rfl := List.mem_singleton.1 he
        intro u hu
        simp only [code, if_true]
        exact List.mem_append.2 ((all u hu).symm)

theorem inv {n : Nat} {y : Sys} (h : Reach code n y) : Inv y := by
  induction h with
  | init =>
    refine ⟨?_, fun u hu => absurd hu (Nat.not_lt_zero _), ?_⟩
    · simp [init, sumBy_replicate]
    · intro e he
      cases he
  | step _ s ih => exact ih.step s

/-- **C134**, reference counts.  For two threads or more: when the destructor is called, all uses made of the memory by any owner of a reference are known to have happened before, in every execution, exactly if the decrement is a release and there is an acquire fence before the
destructor, as in the code. -/
theorem C134_references (o : Orders) (n : Nat) (hn : 1 ≤ n) :
    (∀ y, Reach o n y → ∀ uses knows, (uses, knows) ∈ y.destroyed → ∀ u, u < uses → u ∈ knows) ↔ o = code := by
  constructor
  · intro h
    obtain ⟨n, rfl⟩ : ∃ m, n = m + 1 := ⟨n - 1, by omega⟩
    have R := Reach.init (o := o) (n := n + 1)
    have R := R.step (.retain (i := 0) (c := 0) rfl)
    have R := R.step (.give (i := 0) (c := 1) (j := 1) (d := 0) rfl (by decide) rfl)
    have R := R.step (.use (i := 0) (c := 0) rfl)
    have R := R.step (.drop (i := 0) (c := 0) rfl (show (2 : Nat) ≠ 1 by decide))
    have R := R.step (.destroy (i := 1) (c := 0) rfl rfl)
    have := h _ R _ _ (List.mem_append_right _ (List.mem_singleton_self _)) 0 Nat.zero_lt_one
    obtain ⟨a, b⟩ := o
    cases a <;> cases b <;> simp [init, code] at this ⊢
  · rintro rfl y h u k he
    exact (inv h).log _ he

/-- Two threads own a reference; one uses the memory and lets go, the other one destroys it and knows that use. -/
example : ∃ y, Reach code 1 y ∧ y.destroyed = [(1, [0])] := by
  have R := Reach.init (o := code) (n := 1)
  have R := R.step (.retain (i := 0) (c := 0) rfl)
  have R := R.step (.give (i := 0) (c := 1) (j := 1) (d := 0) rfl (by decide) rfl)
  have R := R.step (.use (i := 0) (c := 0) rfl)
  have R := R.step (.drop (i := 0) (c := 0) rfl (by decide))
  have R := R.step (.destroy (i := 1) (c := 0) rfl rfl)
  exact ⟨_, R, rfl⟩

end Ref

namespace Id

/-- Does the thread own the identifier? -/
def own (t : Thr) : Nat := if t.owns then 1 else 0

structure Inv (y : Sys) : Prop where
  one : sumBy own y.thrs = if y.taken then 1 else 0
  free : y.taken = false → ∀ u, u < y.log.length → u ∈ y.carries
  owner : ∀ (i : Nat) (k : List Nat), y.thrs[i]? = some ⟨true, k⟩ → ∀ u, u < y.log.length → u ∈ k
  log : ∀ e ∈ y.log, ∀ u, u < e.1 → u ∈ e.2

theorem Inv.taken {y : Sys} (I : Inv y) {i : Nat} {k : List Nat} (h : y.thrs[i]? = some ⟨true, k⟩) : y.taken = true ∧ ∀ (j : Nat) (l : List Nat), y.thrs[j]? = some ⟨true, l⟩ → j = i := by
  have h1 := le_sumBy own h
  have h2 := I.one
  have h3 : own ⟨true, k⟩ = 1 := rfl
  refine ⟨?_, fun j l hj => ?_⟩
  · cases ht : y.taken with
    | true => rfl
    | false => rw [ht] at h2; simp at h2; omega
  · apply Classical.byContradiction
    intro e
    have h4 := add_le_sumBy own h hj (Ne.symm e)
    have h5 : own ⟨true, l⟩ = 1 := rfl
    split at h2 <;> omega

theorem Inv.step {y y' : Sys} (I : Inv y) (s : Step code y y') : Inv y' := by
  cases s with
  | @assign i k ht hf =>
    have h1 := I.one
    rw [hf] at h1
    refine ⟨?_, (fun h => by cases h), ?_, I.log⟩
    · have := sumBy_set own ht ⟨true, if code.fence then k ++ y.carries else k⟩
      simp only [own, if_true] at *
      simp at *
      omega
    · intro j l hj u hu
      rcases get_set hj with ⟨_, e⟩ | ⟨_, hj⟩
      · cases e
        exact List.mem_append_right _ (I.free hf u hu)
      · exact I.owner j l hj u hu
  | @use i k ht =>
    obtain ⟨htk, uniq⟩ := I.taken ht
    refine ⟨?_, ?_, ?_, ?_⟩
    · have := sumBy_set own ht ⟨true, k ++ [y.log.length]⟩
      have := I.one
      simp only [own, if_true] at *
      omega
    · intro h
      rw [htk] at h
      cases h
    · intro j l hj u hu
      rw [List.length_append, List.length_singleton] at hu
      rcases get_set hj with ⟨_, e⟩ | ⟨e, hj⟩
      · cases e
        by_cases e : u = y.log.length
        · rw [e]; exact List.mem_append_right _ (List.mem_singleton_self _)
        · exact List.mem_append_left _ (I.owner i k ht u (by omega))
      · exact absurd (uniq j l hj) e
    · intro e he
      rcases List.mem_append.1 he with he | he
      · exact I.log e he
      · obtain rfl := List.mem_singleton.1 he
        exact I.owner i k ht
  | @recycle i k ht =>
    obtain ⟨htk, uniq⟩ := I.taken ht
    refine ⟨?_, fun _ u hu => I.owner i k ht u hu, ?_, I.log⟩
    · have := sumBy_set own ht ⟨false, k⟩
      have := I.one
      rw [htk] at this
      simp [own] at *
      omega
    · intro j l hj u hu
      rcases get_set hj with ⟨_, e⟩ | ⟨e, hj⟩
      · cases e
      · exact absurd (uniq j l hj) e

theorem inv {n : Nat} {y : Sys} (h : Reach code n y) : Inv y := by
  induction h with
  | init =>
    refine ⟨?_, fun _ u hu => absurd hu (Nat.not_lt_zero _), ?_, ?_⟩
    · simp [init, sumBy_replicate, own]
    · intro i k h u hu
      exact absurd hu (Nat.not_lt_zero _)
    · intro e he
      cases he
  | step _ s ih => exact ih.step s

/-- **C134**, identifiers.  For two threads or more: whoever uses what belongs to an identifier it was assigned knows all earlier uses by earlier owners, in every execution, exactly if the store that recycles is a release and there is an acquire fence after the exchange that assigns,
as in the code. -/
theorem C134_identifiers (o : Orders) (n : Nat) (hn : 2 ≤ n) :
    (∀ y, Reach o n y → ∀ use knows, (use, knows) ∈ y.log → ∀ u, u < use → u ∈ knows) ↔ o = code := by
  constructor
  · intro h
    obtain ⟨n, rfl⟩ : ∃ m, n = m + 2 := ⟨n - 2, by omega⟩
    have R := Reach.init (o := o) (n := n + 2)
    have R := R.step (.assign (i := 0) rfl rfl)
    have R := R.step (.use (i := 0) rfl)
    have R := R.step (.recycle (i := 0) rfl)
    have R := R.step (.assign (i := 1) rfl rfl)
    have R := R.step (.use (i := 1) rfl)
    have := h _ R _ _ (List.mem_append_right _ (List.mem_singleton_self _)) 0 Nat.zero_lt_one
    obtain ⟨a, b⟩ := o
    cases a <;> cases b <;> simp [init, code] at this ⊢
  · rintro rfl y h u k he
    exact (inv h).log _ he

/-- Two owners one after the other. -/
example : ∃ y, Reach code 2 y ∧ y.log = [(0, []), (1, [0])] := by
  have R := Reach.init (o := code) (n := 2)
  have R := R.step (.assign (i := 0) rfl rfl)
  have R := R.step (.use (i := 0) rfl)
  have R := R.step (.recycle (i := 0) rfl)
  have R := R.step (.assign (i := 1) rfl rfl)
  have R := R.step (.use (i := 1) rfl)
  exact ⟨_, R, rfl⟩

end Id

namespace Lock

/-- Is the thread counted as a reader? -/
def rd (t : Thr) : Nat := match t.pc with
  | .wait _ | .reading => 1
  | _ => 0

/-- Is the thread a writer? -/
def wr (t : Thr) : Nat := match t.pc with
  | .writing => 1
  | _ => 0

/-- Use number `x` is a write. -/
def IsWrite (y : Sys) (x : Nat) : Prop := ∃ k, y.log[x]? = some (true, k)

structure Inv (y : Sys) (m : Msg) : Prop where
  last : y.msgs.getLast? = some m
  count : m.count = sumBy rd y.thrs
  flag : (if m.flag then 1 else 0) = sumBy wr y.thrs
  apart : m.flag = true → ∀ (i : Nat) (k : List Nat), y.thrs[i]? ≠ some ⟨.reading, k⟩
  carried : m.flag = false → ∀ x : Nat, IsWrite y x → x ∈ m.carries
  reads : ∀ x : Nat, x < y.log.length → ¬ IsWrite y x → x ∈ m.carries ∨ ∃ (i : Nat) (k : List Nat), y.thrs[i]? = some ⟨.reading, k⟩ ∧ x ∈ k
  writer : ∀ (i : Nat) (k : List Nat), y.thrs[i]? = some ⟨.writing, k⟩ → ∀ x : Nat, x < y.log.length → x ∈ k
  reader : ∀ (i : Nat) (k : List Nat), y.thrs[i]? = some ⟨.reading, k⟩ → ∀ x : Nat, IsWrite y x → x ∈ k
  waiting : ∀ (i a : Nat) (k : List Nat), y.thrs[i]? = some ⟨.wait a, k⟩ → ∀ (j : Nat) (m' : Msg), a ≤ j → y.msgs[j]? = some m' → m'.flag = false → m.flag = false ∧ ∀ x : Nat, IsWrite y x → x ∈ m'.carries
  log : ∀ (x : Nat) (b : Bool) (k : List Nat), y.log[x]? = some (b, k) → ∀ z, z < x → b = true ∨ IsWrite y z → z ∈ k

theorem isWrite_lt {y : Sys} {x : Nat} (h : IsWrite y x) : x < y.log.length := by
  obtain ⟨k, h⟩ := h
  exact lt_of h

/-- The new store of a read-modify-write. -/
theorem get_snoc {α : Type} {l : List α} {a b : α} {j : Nat} (h : (l ++ [a])[j]? = some b) : l[j]? = some b ∨ b = a := by
  by_cases e : j < l.length
  · rw [List.getElem?_append_left e] at h
    exact Or.inl h
  · rw [List.getElem?_append_right (by omega)] at h
    by_cases e' : j - l.length = 0
    · rw [e'] at h
      exact Or.inr (Option.some.inj h).symm
    · rw [List.getElem?_eq_none (by simp; omega)] at h
      cases h

theorem Inv.noWriter {y : Sys} {m : Msg} (I : Inv y m) (h : m.flag = false) (i : Nat) (k : List Nat) : y.thrs[i]? ≠ some ⟨.writing, k⟩ := by
  intro hi
  have h1 := le_sumBy wr hi
  have h2 := I.flag
  have h3 : wr ⟨.writing, k⟩ = 1 := rfl
  rw [h] at h2
  simp at h2
  omega

theorem Inv.oneWriter {y : Sys} {m : Msg} (I : Inv y m) {i : Nat} {k : List Nat} (hi : y.thrs[i]? = some ⟨.writing, k⟩) : m.flag = true ∧ ∀ (j : Nat) (l : List Nat), y.thrs[j]? = some ⟨.writing, l⟩ → j = i := by
  refine ⟨?_, fun j l hj => ?_⟩
  · cases h : m.flag with
    | true => rfl
    | false => exact absurd hi (I.noWriter h i k)
  · apply Classical.byContradiction
    intro e
    have h4 := add_le_sumBy wr hi hj (Ne.symm e)
    have h5 : wr ⟨.writing, l⟩ = 1 := rfl
    have h6 : wr ⟨.writing, k⟩ = 1 := rfl
    have h2 := I.flag
    split at h2 <;> omega

theorem Inv.step {y y' : Sys} {m : Msg} (I : Inv y m) (s : Step code y y') : ∃ m', Inv y' m' := by
  cases s with
  | @lockRead i k m₁ ht hm hf =>
    rw [I.last] at hm
    obtain rfl := Option.some.inj hm
    have hc := I.count
    have hfl := I.flag
    refine ⟨_, List.getLast?_concat, ?_, ?_, ?_, fun _ => I.carried hf, ?_, ?_, ?_, ?_, I.log⟩
    · have := sumBy_set rd ht ⟨.reading, if code.addAcq then k ++ m.carries else k⟩
      simp only [rd] at *
      omega
    · have := sumBy_set wr ht ⟨.reading, if code.addAcq then k ++ m.carries else k⟩
      simp only [wr] at *
      omega
    · intro h
      simp only [hf] at h
      cases h
    · intro x hx hw
      rcases I.reads x hx hw with h | ⟨j, l, hj, hl⟩
      · exact Or.inl h
      · refine Or.inr ⟨j, l, ?_, hl⟩
        rw [List.getElem?_set_ne]
        · exact hj
        · rintro rfl
          rw [ht] at hj
          cases hj
    · intro j l hj
      rcases get_set hj with ⟨_, e⟩ | ⟨_, hj⟩
      · cases e
      · exact I.writer j l hj
    · intro j l hj x hx
      rcases get_set hj with ⟨_, e⟩ | ⟨_, hj⟩
      · cases e
        exact List.mem_append_right _ (I.carried hf x hx)
      · exact I.reader j l hj x hx
    · intro j a l hj z m' hz hm' hf'
      rcases get_set hj with ⟨_, e⟩ | ⟨_, hj⟩
      · cases e
      · refine ⟨hf, ?_⟩
        rcases get_snoc hm' with hm' | rfl
        · exact (I.waiting j a l hj z m' hz hm' hf').2
        · exact I.carried hf
  | @lockWait i k m₁ ht hm hf =>
    rw [I.last] at hm
    obtain rfl := Option.some.inj hm
    have hc := I.count
    have hfl := I.flag
    refine ⟨_, List.getLast?_concat, ?_, ?_, ?_, ?_, ?_, ?_, ?_, ?_, I.log⟩
    · have := sumBy_set rd ht ⟨.wait y.msgs.length, if code.addAcq then k ++ m.carries else k⟩
      simp only [rd] at *
      omega
    · have := sumBy_set wr ht ⟨.wait y.msgs.length, if code.addAcq then k ++ m.carries else k⟩
      simp only [wr] at *
      omega
    · intro _ j l hj
      rcases get_set hj with ⟨_, e⟩ | ⟨_, hj⟩
      · cases e
      · exact I.apart hf j l hj
    · intro h
      simp only [hf] at h
      cases h
    · intro x hx hw
      rcases I.reads x hx hw with h | ⟨j, l, hj, hl⟩
      · exact Or.inl h
      · exact absurd hj (I.apart hf j l)
    · intro j l hj
      rcases get_set hj with ⟨_, e⟩ | ⟨_, hj⟩
      · cases e
      · exact I.writer j l hj
    · intro j l hj x hx
      rcases get_set hj with ⟨_, e⟩ | ⟨_, hj⟩
      · cases e
      · exact I.reader j l hj x hx
    · intro j a l hj z m' hz hm' hf'
      rcases get_set hj with ⟨_, e⟩ | ⟨_, hj⟩
      · cases e
        rw [List.getElem?_append_right hz] at hm'
        have := List.mem_singleton.1 (List.mem_of_getElem? hm')
        subst this
        simp only [hf] at hf'
        cases hf'
      · rcases get_snoc hm' with hm' | rfl
        · have := (I.waiting j a l hj z m' hz hm' hf').1
          rw [hf] at this
          cases this
        · simp only [hf] at hf'
          cases hf'
  | @waited i a j k m' ht hj hm' hf' =>
    obtain ⟨hf, hw'⟩ := I.waiting i a k ht j m' hj hm' hf'
    have hc := I.count
    have hfl := I.flag
    refine ⟨m, I.last, ?_, ?_, ?_, I.carried, ?_, ?_, ?_, ?_, I.log⟩
    · have := sumBy_set rd ht ⟨.reading, if code.fence then k ++ m'.carries else k⟩
      simp only [rd] at *
      omega
    · have := sumBy_set wr ht ⟨.reading, if code.fence then k ++ m'.carries else k⟩
      simp only [wr] at *
      omega
    · intro h
      rw [hf] at h
      cases h
    · intro x hx hw
      rcases I.reads x hx hw with h | ⟨j, l, hj, hl⟩
      · exact Or.inl h
      · refine Or.inr ⟨j, l, ?_, hl⟩
        rw [List.getElem?_set_ne]
        · exact hj
        · rintro rfl
          rw [ht] at hj
          cases hj
    · intro j l hj
      rcases get_set hj with ⟨_, e⟩ | ⟨_, hj⟩
      · cases e
      · exact I.writer j l hj
    · intro j l hj x hx
      rcases get_set hj with ⟨_, e⟩ | ⟨_, hj⟩
      · cases e
        exact List.mem_append_right _ (hw' x hx)
      · exact I.reader j l hj x hx
    · intro j a l hj
      rcases get_set hj with ⟨_, e⟩ | ⟨_, hj⟩
      · cases e
      · exact I.waiting j a l hj
  | @read i k ht =>
    have hf : m.flag = false := by
      cases h : m.flag with
      | false => rfl
      | true => exact absurd ht (I.apart h i k)
    have hc := I.count
    have hfl := I.flag
    have old : ∀ x, IsWrite { y with thrs := y.thrs.set i ⟨.reading, k ++ [y.log.length]⟩, log := y.log ++ [(false, k)] } x → IsWrite y x := by
      rintro x ⟨l, h⟩
      rcases get_snoc h with h | h
      · exact ⟨l, h⟩
      · cases h
    have new : ∀ x, IsWrite y x → IsWrite { y with thrs := y.thrs.set i ⟨.reading, k ++ [y.log.length]⟩, log := y.log ++ [(false, k)] } x := by
      rintro x ⟨l, h⟩
      exact ⟨l, by simp only []; rw [List.getElem?_append_left (lt_of h)]; exact h⟩
    refine ⟨m, I.last, ?_, ?_, ?_, fun h x hx => I.carried h x (old x hx), ?_, ?_, ?_, ?_, ?_⟩
    · have := sumBy_set rd ht ⟨.reading, k ++ [y.log.length]⟩
      simp only [rd] at *
      omega
    · have := sumBy_set wr ht ⟨.reading, k ++ [y.log.length]⟩
      simp only [wr] at *
      omega
    · intro h
      rw [hf] at h
      cases h
    · intro x hx hw
      simp only [List.length_append, List.length_singleton] at hx
      by_cases e : x = y.log.length
      · exact Or.inr ⟨i, _, List.getElem?_set_self (lt_of ht), by rw [e]; exact List.mem_append_right _ (List.mem_singleton_self _)⟩
      · rcases I.reads x (by omega) (fun h => hw (new x h)) with h | ⟨j, l, hj, hl⟩
        · exact Or.inl h
        · by_cases e : i = j
          · subst e
            rw [ht] at hj
            cases hj
            exact Or.inr ⟨i, _, List.getElem?_set_self (lt_of ht), List.mem_append_left _ hl⟩
          · exact Or.inr ⟨j, l, by simp only []; rw [List.getElem?_set_ne e]; exact hj, hl⟩
    · intro j l hj
      rcases get_set hj with ⟨_, e⟩ | ⟨_, hj⟩
      · cases e
      · exact absurd hj (I.noWriter hf j l)
    · intro j l hj x hx
      rcases get_set hj with ⟨_, e⟩ | ⟨_, hj⟩
      · cases e
        exact List.mem_append_left _ (I.reader i k ht x (old x hx))
      · exact I.reader j l hj x (old x hx)
    · intro j a l hj z m' hz hm' hf'
      rcases get_set hj with ⟨_, e⟩ | ⟨_, hj⟩
      · cases e
      · obtain ⟨h1, h2⟩ := I.waiting j a l hj z m' hz hm' hf'
        exact ⟨h1, fun x hx => h2 x (old x hx)⟩
    · intro x b l hx z hz hb
      rcases get_snoc hx with hx | hx
      · exact I.log x b l hx z hz (hb.imp id (old z))
      · cases hx
        rcases hb with hb | hb
        · cases hb
        · exact I.reader i k ht z (old z hb)
  | @unlockRead i k m₁ ht hm =>
    rw [I.last] at hm
    obtain rfl := Option.some.inj hm
    have hf : m.flag = false := by
      cases h : m.flag with
      | false => rfl
      | true => exact absurd ht (I.apart h i k)
    have hc := I.count
    have hfl := I.flag
    refine ⟨_, List.getLast?_concat, ?_, ?_, ?_, fun _ x hx => List.mem_append_left _ (I.carried hf x hx), ?_, ?_, ?_, ?_, I.log⟩
    · have := sumBy_set rd ht ⟨.out, k⟩
      have := le_sumBy rd ht
      simp only [rd] at *
      omega
    · have := sumBy_set wr ht ⟨.out, k⟩
      simp only [wr] at *
      omega
    · intro h
      simp only [hf] at h
      cases h
    · intro x hx hw
      rcases I.reads x hx hw with h | ⟨j, l, hj, hl⟩
      · exact Or.inl (List.mem_append_left _ h)
      · by_cases e : i = j
        · subst e
          rw [ht] at hj
          cases hj
          exact Or.inl (List.mem_append_right _ hl)
        · exact Or.inr ⟨j, l, by simp only []; rw [List.getElem?_set_ne e]; exact hj, hl⟩
    · intro j l hj
      rcases get_set hj with ⟨_, e⟩ | ⟨_, hj⟩
      · cases e
      · exact I.writer j l hj
    · intro j l hj x hx
      rcases get_set hj with ⟨_, e⟩ | ⟨_, hj⟩
      · cases e
      · exact I.reader j l hj x hx
    · intro j a l hj z m' hz hm' hf'
      rcases get_set hj with ⟨_, e⟩ | ⟨_, hj⟩
      · cases e
      · refine ⟨hf, ?_⟩
        rcases get_snoc hm' with hm' | rfl
        · exact (I.waiting j a l hj z m' hz hm' hf').2
        · exact fun x hx => List.mem_append_left _ (I.carried hf x hx)
  | @lockWrite i k m₁ ht hm h0 hf =>
    rw [I.last] at hm
    obtain rfl := Option.some.inj hm
    have hc := I.count
    have hfl := I.flag
    have none : ∀ (j : Nat) (t : Thr), y.thrs[j]? = some t → rd t = 0 := by
      intro j t hj
      have := le_sumBy rd hj
      omega
    have all : ∀ x, x < y.log.length → x ∈ m.carries := by
      intro x hx
      by_cases hw : IsWrite y x
      · exact I.carried hf x hw
      · rcases I.reads x hx hw with h | ⟨j, l, hj, _⟩
        · exact h
        · have := none j _ hj
          cases this
    refine ⟨_, List.getLast?_concat, ?_, ?_, ?_, (fun h => by cases h), fun x hx _ => Or.inl (all x hx), ?_, ?_, ?_, I.log⟩
    · have := sumBy_set rd ht ⟨.writing, if code.casAcq then k ++ m.carries else k⟩
      simp only [rd] at *
      omega
    · have := sumBy_set wr ht ⟨.writing, if code.casAcq then k ++ m.carries else k⟩
      rw [hf] at hfl
      simp [wr] at *
      omega
    · intro _ j l hj
      rcases get_set hj with ⟨_, e⟩ | ⟨_, hj⟩
      · cases e
      · have := none j _ hj
        cases this
    · intro j l hj x hx
      rcases get_set hj with ⟨_, e⟩ | ⟨_, hj⟩
      · cases e
        exact List.mem_append_right _ (all x hx)
      · exact I.writer j l hj x hx
    · intro j l hj x hx
      rcases get_set hj with ⟨_, e⟩ | ⟨_, hj⟩
      · cases e
      · exact I.reader j l hj x hx
    · intro j a l hj
      rcases get_set hj with ⟨_, e⟩ | ⟨_, hj⟩
      · cases e
      · have := none j _ hj
        cases this
  | @write i k ht =>
    obtain ⟨hf, uniq⟩ := I.oneWriter ht
    have hc := I.count
    have hfl := I.flag
    refine ⟨m, I.last, ?_, ?_, ?_, ?_, ?_, ?_, ?_, ?_, ?_⟩
    · have := sumBy_set rd ht ⟨.writing, k ++ [y.log.length]⟩
      simp only [rd] at *
      omega
    · have := sumBy_set wr ht ⟨.writing, k ++ [y.log.length]⟩
      simp only [wr] at *
      omega
    · intro _ j l hj
      rcases get_set hj with ⟨_, e⟩ | ⟨_, hj⟩
      · cases e
      · exact I.apart hf j l hj
    · intro h
      rw [hf] at h
      cases h
    · intro x hx hw
      simp only [List.length_append, List.length_singleton] at hx
      by_cases e : x = y.log.length
      · refine absurd ⟨k, ?_⟩ hw
        rw [e]
        simp
      · rcases I.reads x (by omega) (fun ⟨l, h⟩ => hw ⟨l, by simp only []; rw [List.getElem?_append_left (lt_of h)]; exact h⟩) with h | ⟨j, l, hj, _⟩
        · exact Or.inl h
        · exact absurd hj (I.apart hf j l)
    · intro j l hj x hx
      simp only [List.length_append, List.length_singleton] at hx
      rcases get_set hj with ⟨_, e⟩ | ⟨e, hj⟩
      · cases e
        by_cases e : x = y.log.length
        · rw [e]; exact List.mem_append_right _ (List.mem_singleton_self _)
        · exact List.mem_append_left _ (I.writer i k ht x (by omega))
      · exact absurd (uniq j l hj) e
    · intro j l hj
      rcases get_set hj with ⟨_, e⟩ | ⟨_, hj⟩
      · cases e
      · exact absurd hj (I.apart hf j l)
    · intro j a l hj z m' hz hm' hf'
      rcases get_set hj with ⟨_, e⟩ | ⟨_, hj⟩
      · cases e
      · have := (I.waiting j a l hj z m' hz hm' hf').1
        rw [hf] at this
        cases this
    · intro x b l hx z hz hb
      by_cases e : x < y.log.length
      · simp only [] at hx
        rw [List.getElem?_append_left e] at hx
        refine I.log x b l hx z hz (hb.imp id ?_)
        rintro ⟨l', h⟩
        simp only [] at h
        rw [List.getElem?_append_left (by omega)] at h
        exact ⟨l', h⟩
      · have hx' := lt_of hx
        simp only [List.length_append, List.length_singleton] at hx'
        have e : x = y.log.length := by omega
        subst e
        simp at hx
        obtain ⟨rfl, rfl⟩ := hx
        exact I.writer i k ht z hz
  | @unlockWrite i k m₁ ht hm =>
    rw [I.last] at hm
    obtain rfl := Option.some.inj hm
    obtain ⟨hf, uniq⟩ := I.oneWriter ht
    have hc := I.count
    have hfl := I.flag
    have all : ∀ x, x < y.log.length → x ∈ m.carries ++ k := fun x hx => List.mem_append_right _ (I.writer i k ht x hx)
    refine ⟨_, List.getLast?_concat, ?_, ?_, ?_, fun _ x hx => all x (isWrite_lt hx), fun x hx _ => Or.inl (all x hx), ?_, ?_, ?_, I.log⟩
    · have := sumBy_set rd ht ⟨.out, k⟩
      simp only [rd] at *
      omega
    · have := sumBy_set wr ht ⟨.out, k⟩
      rw [hf] at hfl
      simp [wr, hf] at *
      omega
    · intro h
      simp only [hf] at h
      cases h
    · intro j l hj
      rcases get_set hj with ⟨_, e⟩ | ⟨e, hj⟩
      · cases e
      · exact absurd (uniq j l hj) e
    · intro j l hj
      rcases get_set hj with ⟨_, e⟩ | ⟨_, hj⟩
      · cases e
      · exact absurd hj (I.apart hf j l)
    · intro j a l hj z m' hz hm' hf'
      rcases get_set hj with ⟨_, e⟩ | ⟨_, hj⟩
      · cases e
      · refine ⟨by simp [hf], ?_⟩
        rcases get_snoc hm' with hm' | rfl
        · have := (I.waiting j a l hj z m' hz hm' hf').1
          rw [hf] at this
          cases this
        · exact fun x hx => all x (isWrite_lt hx)

theorem inv {n : Nat} {y : Sys} (h : Reach code n y) : ∃ m, Inv y m := by
  induction h with
  | init =>
    have out : ∀ {i : Nat} {t : Thr}, (init n).thrs[i]? = some t → t = ⟨.out, []⟩ := fun h => List.eq_of_mem_replicate (List.mem_of_getElem? h)
    refine ⟨_, rfl, ?_, ?_, (fun h => by cases h), ?_, ?_, ?_, ?_, ?_, ?_⟩
    · simp [init, sumBy_replicate, rd]
    · simp [init, sumBy_replicate, wr]
    · rintro _ x ⟨k, h⟩; cases h
    · intro x hx; exact absurd hx (Nat.not_lt_zero _)
    · intro i k h; cases out h
    · intro i k h; cases out h
    · intro i a k h; cases out h
    · intro x b k h; cases h
  | step _ s ih =>
    obtain ⟨m, I⟩ := ih
    exact I.step s

/-- **C134**, the virtual file lock.  For two threads or more: of any two uses of what the lock protects, one of them a write, the earlier is known to the later one to have happened before (so there are no data races), in every execution, exactly if the accesses to the lock are ordered as in
the code. -/
theorem C134_lock (o : Orders) (n : Nat) (hn : 2 ≤ n) :
    (∀ y, Reach o n y → ∀ (x z : Nat) (b b' : Bool) (k k' : List Nat), y.log[x]? = some (b, k) → z < x → y.log[z]? = some (b', k') → (b = true ∨ b' = true) → z ∈ k) ↔ o = code := by
  constructor
  · intro h
    obtain ⟨n, rfl⟩ : ∃ m, n = m + 2 := ⟨n - 2, by omega⟩
    have A : o.xorRel = true ∧ o.addAcq = true := by
      have R := Reach.init (o := o) (n := n + 2)
      have R := R.step (.lockWrite (i := 0) rfl rfl rfl rfl)
      have R := R.step (.write (i := 0) rfl)
      have R := R.step (.unlockWrite (i := 0) rfl rfl)
      have R := R.step (.lockRead (i := 1) rfl rfl rfl)
      have R := R.step (.read (i := 1) rfl)
      have := h _ R 1 0 _ _ _ _ rfl Nat.zero_lt_one rfl (.inr rfl)
      obtain ⟨a, b, c, d, e⟩ := o
      cases a <;> cases d <;> cases e <;> simp [init] at this ⊢
    have B : o.fence = true := by
      have R := Reach.init (o := o) (n := n + 2)
      have R := R.step (.lockWrite (i := 0) rfl rfl rfl rfl)
      have R := R.step (.write (i := 0) rfl)
      have R := R.step (.lockWait (i := 1) rfl rfl rfl)
      have R := R.step (.unlockWrite (i := 0) rfl rfl)
      have R := R.step (.waited (i := 1) (a := 2) (j := 3) rfl (by decide) rfl rfl)
      have R := R.step (.read (i := 1) rfl)
      have := h _ R 1 0 _ _ _ _ rfl Nat.zero_lt_one rfl (.inr rfl)
      obtain ⟨a, b, c, d, e⟩ := o
      cases a <;> cases b <;> cases d <;> cases e <;> simp [init] at this ⊢
    have C : o.subRel = true ∧ o.casAcq = true := by
      have R := Reach.init (o := o) (n := n + 2)
      have R := R.step (.lockRead (i := 0) rfl rfl rfl)
      have R := R.step (.read (i := 0) rfl)
      have R := R.step (.unlockRead (i := 0) rfl rfl)
      have R := R.step (.lockWrite (i := 1) rfl rfl rfl rfl)
      have R := R.step (.write (i := 1) rfl)
      have := h _ R 1 0 _ _ _ _ rfl Nat.zero_lt_one rfl (.inl rfl)
      obtain ⟨a, b, c, d, e⟩ := o
      cases a <;> cases c <;> cases d <;> simp [init] at this ⊢
    obtain ⟨a, b, c, d, e⟩ := o
    simp only at A B C
    rw [A.1, A.2, B, C.1, C.2]
    rfl
  · rintro rfl y h x z b b' k k' hx hz hb' hb
    obtain ⟨m, I⟩ := inv h
    exact I.log x b k hx z hz (hb.imp id (fun e => ⟨k', by rw [← e]; exact hb'⟩))

/-- A writer writes, another thread waits for it, reads and knows the write. -/
example : ∃ y, Reach code 2 y ∧ y.log[0]? = some (true, []) ∧ y.log[1]? = some (false, [0]) := by
  have R := Reach.init (o := code) (n := 2)
  have R := R.step (.lockWrite (i := 0) rfl rfl rfl rfl)
  have R := R.step (.write (i := 0) rfl)
  have R := R.step (.lockWait (i := 1) rfl rfl rfl)
  have R := R.step (.unlockWrite (i := 0) rfl rfl)
  have R := R.step (.waited (i := 1) (a := 2) (j := 3) rfl (by decide) rfl rfl)
  have R := R.step (.read (i := 1) rfl)
  exact ⟨_, R, rfl, rfl⟩

end Lock

#print axioms Ref.C134_references
#print axioms Id.C134_identifiers
#print axioms Lock.C134_lock
end Verif.HandoverWeak
