import Verif.GCNested
/-!
# C110: sections of a collector, one after the other and one inside the other
-/
namespace Verif.GCNested

namespace Spec

/-- A section in which `k` items are handed over. -/
def sect (k : Nat) : List Call := .begin :: (List.replicate k .manage ++ [.end_])

/-- The items of a section that hands over `k` items when `n` were handed over before, newest first. -/
def items (n k : Nat) : List Nat := (List.range' n k).reverse

/-- The items of sections one after the other. -/
def reclaimed (n : Nat) : List Nat → List Nat
  | [] => []
  | k :: ks => items n k ++ reclaimed (n + k) ks

end Spec

theorem run_append (s : Sys) (as bs : List Call) : run s (as ++ bs) = (run s as).bind fun s => run s bs := by
  induction as generalizing s with
  | nil => rfl
  | cons a as ih =>
    simp only [List.cons_append, run]
    cases call s a with
    | none => rfl
    | some s => simp [ih]

/-- Between sections. -/
structure Quiet (s : Sys) : Prop where
  list : s.list = none
  rc : s.rc = 0
  dead : ∀ n, s.live n = false

/-- The thread's own chain: nodes `n, n + 1, ..., n + k - 1` were handed over in this section. -/
structure Local (n k d : Nat) (s : Sys) : Prop where
  loc : s.hasLocal = true
  list : s.list = none
  rc : s.rc = d
  fresh : s.fresh = n + k
  head : s.head = if k = 0 then none else some (n + k - 1)
  tail : s.tail = if k = 0 then none else some n
  live : ∀ x, s.live x = true ↔ n ≤ x ∧ x < n + k
  next : ∀ i, i < k → s.next (n + i) = if i = 0 then none else some (n + i - 1)

theorem manage_ok {n k d s} (L : Local n k d s) : ∃ s', manage s = some s' ∧ Local n (k + 1) d s' ∧ s'.log = s.log := by
  rw [manage, if_pos L.loc]
  refine ⟨_, rfl, ⟨L.loc, L.list, L.rc, ?_, ?_, ?_, ?_, ?_⟩, rfl⟩
  · show s.fresh + 1 = _; rw [L.fresh]; rfl
  · show some s.fresh = _; rw [L.fresh]; rfl
  · show (match s.tail with | none => some s.fresh | some t => some t) = _
    rw [L.tail]
    by_cases hk : k = 0
    · rw [if_pos hk]; simp [L.fresh, hk]
    · rw [if_neg hk]; simp
  · intro x
    show upd s.live s.fresh true x = true ↔ _
    rw [upd]
    split
    · next h => rw [h, L.fresh]; simp
    · next h => rw [L.live]; rw [L.fresh] at h; omega
  · intro i hi
    show upd s.next s.fresh s.head (n + i) = _
    rw [upd, L.fresh, L.head]
    by_cases h : i = k
    · subst h; rw [if_pos rfl]
    · rw [if_neg (by omega), L.next i (by omega)]

theorem manages_ok {n d : Nat} (j : Nat) : ∀ {k : Nat} {s : Sys}, Local n k d s → ∃ s', run s (List.replicate j .manage) = some s' ∧ Local n (k + j) d s' ∧ s'.log = s.log := by
  induction j with
  | zero => intro k s L; exact ⟨s, rfl, L, rfl⟩
  | succ j ih =>
    intro k s L
    obtain ⟨s', e, L', l⟩ := manage_ok L
    obtain ⟨s'', e', L'', l'⟩ := ih L'
    refine ⟨s'', ?_, ?_, l'.trans l⟩
    · rw [List.replicate_succ, run, call, e, Option.bind_some, e']
    · rwa [show k + (j + 1) = k + 1 + j by omega]

/-- Draining a chain of live nodes going down from `n + k - 1` to `n`. -/
theorem drain_ok (n : Nat) : ∀ (k fuel : Nat) (s : Sys), k ≤ fuel → (∀ x, s.live x = true ↔ n ≤ x ∧ x < n + k) →
    (∀ i, i < k → s.next (n + i) = if i = 0 then none else some (n + i - 1)) →
    ∃ s', drain fuel s (if k = 0 then none else some (n + k - 1)) = some s' ∧ s'.log = s.log ++ Spec.items n k ∧ s'.list = s.list ∧ s'.rc = s.rc ∧
      s'.fresh = s.fresh ∧ (∀ x, s'.live x = false) := by
  intro k
  induction k with
  | zero =>
    intro fuel s _ hl _
    refine ⟨s, by cases fuel <;> rfl, by simp [Spec.items], rfl, rfl, rfl, ?_⟩
    intro x
    cases h : s.live x with
    | false => rfl
    | true => have := (hl x).1 h; omega
  | succ k ih =>
    intro fuel s hf hl hn
    obtain ⟨f, rfl⟩ : ∃ f, fuel = f + 1 := ⟨fuel - 1, by omega⟩
    obtain ⟨s', e, l, h1, h2, h3, h4⟩ := ih f { s with log := s.log ++ [n + k], live := upd s.live (n + k) false } (by omega) (by
        intro x
        show upd s.live (n + k) false x = true ↔ _
        rw [upd]; split
        · simp; omega
        · rw [hl]; omega) (fun i hi => hn i (by omega))
    refine ⟨s', ?_, ?_, h1, h2, h3, h4⟩
    · rw [if_neg (by omega), show n + (k + 1) - 1 = n + k by omega, drain, if_pos ((hl _).2 (by omega)), hn k (by omega), e]
    · rw [l]
      simp [Spec.items, List.range'_concat]

theorem sect_ok {s : Sys} (q : Quiet s) (k : Nat) :
    ∃ s', run s (Spec.sect k) = some s' ∧ Quiet s' ∧ s'.fresh = s.fresh + k ∧ s'.log = s.log ++ Spec.items s.fresh k := by
  have L0 : Local s.fresh 0 1 { s with hasLocal := true, head := none, tail := none, rc := s.rc + 1 } :=
    ⟨rfl, q.list, by show s.rc + 1 = 1; rw [q.rc], rfl, rfl, rfl, fun x => by show s.live x = true ↔ _; rw [q.dead]; simp, fun i hi => by omega⟩
  obtain ⟨s1, e1, L1, l1⟩ := manages_ok k L0
  rw [Nat.zero_add] at L1
  have hrun : run s (Spec.sect k) = (end_ s1) := by
    rw [Spec.sect, run, call, begin, Option.bind_some, run_append, e1, Option.bind_some, run, call]
    cases end_ s1 <;> rfl
  rw [hrun, end_, if_neg (by rw [L1.loc, L1.rc]; simp)]
  by_cases hk : k = 0
  · subst hk
    have hh := L1.head; rw [if_pos rfl] at hh
    simp only [hh, L1.rc, L1.list]
    refine ⟨{ s1 with list := none, rc := 0, head := none }, by rw [if_pos trivial]; simp [drain], ⟨rfl, rfl, ?_⟩, by simpa using L1.fresh, ?_⟩
    · intro x
      cases h : s1.live x with
      | false => rfl
      | true => have := (L1.live x).1 h; omega
    · show s1.log = _; rw [l1]; simp [Spec.items]
  · have hh := L1.head; rw [if_neg hk] at hh
    have ht := L1.tail; rw [if_neg hk] at ht
    simp only [hh, ht, L1.rc, L1.list, if_pos ((L1.live s.fresh).2 (by omega))]
    obtain ⟨s', e, l, h1, h2, h3, h4⟩ := drain_ok s.fresh k (s1.fresh + 1)
      { s1 with next := upd s1.next s.fresh none, list := none, rc := 0 } (by rw [L1.fresh]; omega) L1.live (by
        intro i hi
        show upd s1.next s.fresh none (s.fresh + i) = _
        rw [upd]; split
        · rw [if_pos (by omega)]
        · exact L1.next i hi)
    rw [if_neg hk] at e
    refine ⟨s', by simpa [hh, ht] using e, ⟨h1, h2, h4⟩, ?_, ?_⟩
    · rw [h3]; exact L1.fresh
    · rw [l]; show s1.log ++ _ = _; rw [l1]

/-- **C110**, sections one after the other: for any number of sections handing over any numbers of items, no freed node is used, and at the end of each section exactly its items have been reclaimed, each once, newest first; all nodes are freed. -/
theorem C110_sections_partial (ks : List Nat) :
    ∃ s, run init (ks.flatMap Spec.sect) = some s ∧ s.log = Spec.reclaimed 0 ks ∧ ∀ n, s.live n = false := by
  suffices h : ∀ s, Quiet s → ∃ s', run s (ks.flatMap Spec.sect) = some s' ∧ s'.log = s.log ++ Spec.reclaimed s.fresh ks ∧ ∀ n, s'.live n = false by
    simpa [init] using h init ⟨rfl, rfl, fun _ => rfl⟩
  induction ks with
  | nil => intro s q; exact ⟨s, rfl, by simp [Spec.reclaimed], q.dead⟩
  | cons k ks ih =>
    intro s q
    obtain ⟨s1, e1, q1, f1, l1⟩ := sect_ok q k
    obtain ⟨s2, e2, l2, d2⟩ := ih s1 q1
    refine ⟨s2, ?_, ?_, d2⟩
    · rw [List.flatMap_cons, run_append, e1, Option.bind_some, e2]
    · rw [l2, l1, f1, Spec.reclaimed, List.append_assoc]

/-- The first `k` nodes are lost: nothing leads to them, apart from themselves. -/
structure Lost (k : Nat) (s : Sys) : Prop where
  fresh : k ≤ s.fresh
  list : ∀ n, s.list = some n → k ≤ n
  head : ∀ n, s.head = some n → k ≤ n
  tail : ∀ n, s.tail = some n → k ≤ n
  next : ∀ m n, k ≤ m → s.next m = some n → k ≤ n
  log : ∀ n ∈ s.log, k ≤ n

theorem drain_lost {k : Nat} : ∀ (fuel : Nat) (s : Sys) (o : Option Nat) (s' : Sys), Lost k s → (∀ n, o = some n → k ≤ n) → drain fuel s o = some s' → Lost k s' := by
  intro fuel
  induction fuel with
  | zero =>
    intro s o s' L ho h
    cases o with
    | none => rw [drain] at h; cases h; exact L
    | some n => simp [drain] at h
  | succ f ih =>
    intro s o s' L ho h
    cases o with
    | none => rw [drain] at h; cases h; exact L
    | some n =>
      rw [drain] at h
      split at h
      · refine ih { s with log := s.log ++ [n], live := upd s.live n false } _ _ ⟨L.fresh, L.list, L.head, L.tail, L.next, ?_⟩ (fun m hm => L.next n m (ho n rfl) hm) h
        intro x hx
        rcases List.mem_append.1 hx with hx | hx
        · exact L.log x hx
        · rw [List.mem_singleton] at hx; rw [hx]; exact ho n rfl
      · simp at h

theorem call_lost {k : Nat} {s s' : Sys} {c : Call} (L : Lost k s) (h : call s c = some s') : Lost k s' := by
  cases c with
  | begin => simp only [call, begin] at h; cases h; exact ⟨L.fresh, L.list, by simp, by simp, L.next, L.log⟩
  | manage =>
    simp only [call, manage] at h
    split at h
    · cases h
      refine ⟨?_, L.list, ?_, ?_, ?_, L.log⟩
      · show k ≤ s.fresh + 1; have := L.fresh; omega
      · intro n hn; cases hn; exact L.fresh
      · intro n hn
        replace hn : (match s.tail with | none => some s.fresh | some t => some t) = some n := hn
        cases ht : s.tail with
        | none => rw [ht] at hn; cases hn; exact L.fresh
        | some t => rw [ht] at hn; cases hn; exact L.tail _ ht
      · intro m n hm hn
        replace hn : upd s.next s.fresh s.head m = some n := hn
        rw [upd] at hn; split at hn
        · exact L.head n hn
        · exact L.next m n hm hn
    · simp at h
  | end_ =>
    simp only [call, end_] at h
    split at h
    · simp at h
    · split at h
      · next hd hh =>
        split at h
        · simp at h
        · next t ht =>
          split at h
          · have L' : Lost k { s with next := upd s.next t s.list, list := if s.rc = 1 then none else some hd, rc := s.rc - 1 } := by
              refine ⟨L.fresh, ?_, L.head, L.tail, ?_, L.log⟩
              · intro n hn
                replace hn : (if s.rc = 1 then none else some hd) = some n := hn
                split at hn
                · simp at hn
                · cases hn; exact L.head _ hh
              · intro m n hm hn
                replace hn : upd s.next t s.list m = some n := hn
                rw [upd] at hn; split at hn
                · exact L.list n hn
                · exact L.next m n hm hn
            split at h
            · exact drain_lost _ _ _ _ L' (fun n hn => by cases hn; exact L.head _ hh) h
            · cases h; exact L'
          · simp at h
      · have L' : Lost k { s with list := if s.rc = 1 then none else s.list, rc := s.rc - 1 } := by
          refine ⟨L.fresh, ?_, L.head, L.tail, L.next, L.log⟩
          intro n hn
          replace hn : (if s.rc = 1 then none else s.list) = some n := hn
          split at hn
          · simp at hn
          · exact L.list n hn
        split at h
        · exact drain_lost _ _ _ _ L' (fun n hn => L.list n hn) h
        · cases h; exact L'

theorem run_lost {k : Nat} : ∀ (cs : List Call) {s s' : Sys}, Lost k s → run s cs = some s' → Lost k s' := by
  intro cs
  induction cs with
  | nil => intro s s' L h; rw [run] at h; cases h; exact L
  | cons c cs ih =>
    intro s s' L h
    rw [run] at h
    cases hc : call s c with
    | none => simp [hc] at h
    | some s1 => rw [hc, Option.bind_some] at h; exact ih (call_lost L hc) h

/-- **C110**, a section begun inside another loses everything handed over so far: whatever calls follow, none of it is ever reclaimed. -/
theorem C110_nested_loses (k : Nat) (calls : List Call) (s : Sys)
    (h : run init (.begin :: List.replicate k .manage ++ .begin :: calls) = some s) : ∀ x, x < k → x ∉ s.log := by
  have L0 : Local 0 0 1 { init with hasLocal := true, head := none, tail := none, rc := 1 } :=
    ⟨rfl, rfl, rfl, rfl, rfl, rfl, fun x => by simp [init], fun i hi => by omega⟩
  obtain ⟨s1, e1, L1, l1⟩ := manages_ok k L0
  rw [Nat.zero_add] at L1
  have h0 : run init (.begin :: List.replicate k .manage) = some s1 := by
    rw [run, call, begin, Option.bind_some]; exact e1
  rw [run_append, h0, Option.bind_some, run, call, begin, Option.bind_some] at h
  have L2 : Lost k { s1 with hasLocal := true, head := none, tail := none, rc := s1.rc + 1 } := by
    refine ⟨by show k ≤ s1.fresh; rw [L1.fresh]; omega, by intro n hn; rw [show s1.list = none from L1.list] at hn; simp at hn, by simp, by simp, ?_, ?_⟩
    · -- nodes not handed over yet lead nowhere
      intro m n hm hn
      have hnext : ∀ (j : Nat) (s s' : Sys), run s (List.replicate j .manage) = some s' → ∀ m, s.fresh + j ≤ m → s'.next m = s.next m := by
        intro j
        induction j with
        | zero => intro s s' h m _; rw [List.replicate_zero, run] at h; cases h; rfl
        | succ j ih =>
          intro s s' h m hm
          rw [List.replicate_succ, run, call, manage] at h
          split at h
          · rw [Option.bind_some] at h
            rw [ih _ _ h m (by show s.fresh + 1 + j ≤ m; omega)]
            show upd s.next s.fresh s.head m = s.next m
            rw [upd, if_neg (by omega)]
          · simp at h
      have := hnext k _ _ e1 m (by show 0 + k ≤ m; omega)
      rw [show s1.next m = none from this] at hn
      simp at hn
    · intro n hn
      rw [show s1.log = [] from l1] at hn
      simp at hn
  have L3 := run_lost calls L2 h
  intro x hx hm
  have := L3.log x hm
  omega

/-- The claim for all well-bracketed use is false: an item handed over before an inner section is not reclaimed although all sections have ended. -/
theorem C110_lost_refuted : ∃ s, run init [.begin, .manage, .begin, .end_, .end_] = some s ∧ s.rc = 0 ∧ s.log = [] ∧ s.live 0 = true := by
  refine ⟨_, rfl, rfl, rfl, rfl⟩

/-- And an item handed over in an inner section is handed over again by the end of the outer one: its node follows itself in the list, and is used after it was freed. -/
theorem C110_fault_refuted : run init [.begin, .begin, .manage, .end_, .end_] = none := rfl

/-- After the first round the reclaimer of the item has been called and the node is freed, and the next node is the same one: with memory that still reads the same the reclaimer would be called again. -/
theorem C110_twice_refuted : ∃ s, run init [.begin, .begin, .manage, .end_] = some s ∧ s.list = some 0 ∧ s.head = some 0 ∧ s.tail = some 0 ∧ s.rc = 1 :=
  ⟨_, rfl, rfl, rfl, rfl, rfl⟩

/-! ### The hypotheses can be met -/

example : Spec.reclaimed 0 [2, 0, 3] = [1, 0, 4, 3, 2] := rfl

example : (run init ([2, 0, 3].flatMap Spec.sect)).map (·.log) = some [1, 0, 4, 3, 2] := rfl

/-- Calls after the inner section begins: it ends, the outer one ends, and another section hands over an item, which is reclaimed. -/
example : (run init (.begin :: List.replicate 2 .manage ++ .begin :: [.end_, .end_, .begin, .manage, .end_])).map (·.log) = some [2] := rfl

#print axioms C110_sections_partial
#print axioms C110_nested_loses

end Verif.GCNested
