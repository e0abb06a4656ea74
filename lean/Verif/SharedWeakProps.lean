import Verif.SharedWeak
import Verif.SharedResProps
/-!
# C138: the memory orders of the concurrent shared resource
-/
namespace Verif.SharedWeak
open SharedRes Verif.Conc

theorem Reach.sys {o : Orders} {L N n : Nat} {z : W} (r : Reach o L N n z) : ReachL false L N n z.sys := by
  induction r with
  | init => exact .init
  | step _ s ih => cases s with
    | move hp st e hne hl => exact .step ih st hl

theorem thr_new {l : List PC} {i : Nat} {p q : PC} (h : l[i]? = some p) : (l.set i q)[i]? = some q := by
  obtain ⟨hi, -⟩ := List.getElem?_eq_some_iff.mp h
  simp [hi]

theorem thr_of {y y' : Sys} {i : Nat} {p q : PC} {j : Nat} {r : PC} (hp : y.thrs[i]? = some p) (hne : p ≠ q) (e1 : y'.thrs = y.thrs.set i q) (hj : y.thrs[j]? = some r) {r' : PC} (e2 : y'.thrs = y.thrs.set j r') :
    j = i ∧ r = p ∧ r' = q := by
  have h : (y.thrs.set i q)[i]? = some q := thr_new hp
  rw [← e1, e2] at h
  rcases thr_set h with ⟨rfl, e⟩ | ⟨e, h'⟩
  · rw [hp] at hj
    exact ⟨rfl, (Option.some.inj hj).symm, e.symm⟩
  · rw [hp] at h'
    exact absurd (Option.some.inj h') hne

theorem upd_same {α : Type} (f : Nat → α) (i : Nat) (a : α) : upd f i a i = a := by simp [upd]
theorem upd_ne {α : Type} (f : Nat → α) {i j : Nat} (a : α) (h : j ≠ i) : upd f i a j = f j := by simp [upd, h]

theorem know_grow {f : Nat → List Nat} {i : Nat} {l : List Nat} (j e : Nat) (h : e ∈ f j) : e ∈ upd f i (f i ++ l) j := by
  by_cases c : j = i
  · subst c
    rw [upd_same]
    exact List.mem_append_left _ h
  · rw [upd_ne _ _ c]
    exact h

/-- The counts of the current node do not run over into its index. -/
theorem cur_add {L N : Nat} (hL : L < K) (hNW : N * K ≤ SharedRes.W) {y : Sys} (I : Inv L N y) : ((y.current + 1) % SharedRes.W) / K = y.current / K ∨ L < y.since + 1 := by
  have h1 := I.1.lt
  have h2 := I.1.mod
  simp only [K, SharedRes.W] at *
  omega

theorem cur_swap {N k : Nat} (hk : k < N) (hNW : N * K ≤ SharedRes.W) : ((k * K) % SharedRes.W) / K = k := by
  simp only [K, SharedRes.W] at *
  omega

theorem eq1_pos {a k : Nat} (h : 0 < eq1 a k) : a = k := by
  unfold eq1 at h
  split at h <;> simp_all

theorem own_of {k : Nat} {p : PC} (h : 0 < own k p) : (∃ v, p = .s1 k v) ∨ (∃ d, p = .s2 k d) ∨ (∃ c d, p = .s3 c d ∧ c / K = k) := by
  cases p with
  | s1 a v => change 0 < eq1 a k at h; obtain rfl := eq1_pos h; exact .inl ⟨v, rfl⟩
  | s2 a v => change 0 < eq1 a k at h; obtain rfl := eq1_pos h; exact .inr (.inl ⟨v, rfl⟩)
  | s3 a v => change 0 < eq1 (a / K) k at h; exact .inr (.inr ⟨a, v, rfl, eq1_pos h⟩)
  | _ => simp [own] at h

theorem claim_of {k : Nat} {p : PC} (h : 0 < claim k p) : (∃ v, p = .s1 k v) ∨ (∃ d, p = .s2 k d) := by
  cases p with
  | s1 a v => change 0 < eq1 a k at h; obtain rfl := eq1_pos h; exact .inl ⟨v, rfl⟩
  | s2 a v => change 0 < eq1 a k at h; obtain rfl := eq1_pos h; exact .inr ⟨v, rfl⟩
  | _ => simp [claim] at h

theorem eq1_self (k : Nat) : eq1 k k = 1 := by simp [eq1]

/-- Two threads do not both own a node, and the current node is owned by nobody. -/
theorem sole {L N c : Nat} {refs : List Nat} {since : Nat} {thrs : List PC} (a : A L N c refs since thrs) {i j k : Nat} {p q : PC} (hi : thrs[i]? = some p) (hp : 0 < own k p) :
    c / K ≠ k ∧ (thrs[j]? = some q → 0 < own k q → j = i) := by
  have h1 := a.one k
  have h2 := le_sumBy (own k) hi
  constructor
  · intro e
    rw [e, eq1_self] at h1
    omega
  · intro hj hq
    rcases Nat.lt_trichotomy j i with h | h | h
    · have := add_le_sumBy (own k) hj hi (by omega)
      omega
    · exact h
    · have := add_le_sumBy (own k) hi hj (by omega)
      omega

/-- Does the thread use node `k`: it has shared its data and is not yet counted, or it owns it? -/
def uses (k : Nat) (p : PC) : Prop := p = .g2 k ∨ 0 < own k p

/-- Who knows of the accesses to a node. -/
structure WI (z : W) : Prop where
  acc : ∀ k e : Nat, e ∈ z.touches k → e ∈ z.refsC k ∨ (∃ (j : Nat) (p : PC), z.sys.thrs[j]? = some p ∧ uses k p ∧ e ∈ z.knows j) ∨ (z.sys.current / K = k ∧ e ∈ z.curC)
  str : ∀ (i k : Nat) (p : PC), z.sys.thrs[i]? = some p → 0 < claim k p → ∀ e ∈ z.touches k, e ∈ z.knows i
  ok : ∀ r ∈ z.writes, ∀ e ∈ r.1, e ∈ r.2

theorem WI.dull {z z' : W} (I : WI z) {i : Nat} {p q : PC} (hp : z.sys.thrs[i]? = some p) (ht : z'.sys.thrs = z.sys.thrs.set i q) (hu : ∀ k, uses k p → uses k q) (hq : ∀ k, claim k q = 0)
    (hc : z'.sys.current / K = z.sys.current / K) (hC : ∀ e ∈ z.curC, e ∈ z'.curC) (hR : ∀ k, ∀ e ∈ z.refsC k, e ∈ z'.refsC k) (hk : ∀ j e, e ∈ z.knows j → e ∈ z'.knows j)
    (hT : z'.touches = z.touches) (hW : z'.writes = z.writes) : WI z' := by
  refine ⟨?_, ?_, by rw [hW]; exact I.ok⟩
  · intro k e he
    rw [hT] at he
    rcases I.acc k e he with h | ⟨j, r, hj, hr, h⟩ | ⟨h1, h2⟩
    · exact .inl (hR k e h)
    · refine .inr (.inl ?_)
      by_cases c : j = i
      · subst c
        rw [hp] at hj
        obtain rfl := Option.some.inj hj
        exact ⟨j, q, by rw [ht]; exact thr_new hp, hu k hr, hk j e h⟩
      · exact ⟨j, r, by rw [ht, List.getElem?_set_ne (fun h => c h.symm)]; exact hj, hr, hk j e h⟩
    · exact .inr (.inr ⟨hc.trans h1, hC e h2⟩)
  · intro j k r hj hr e he
    rw [ht] at hj
    rcases thr_set hj with ⟨-, rfl⟩ | ⟨-, hj⟩
    · rw [hq] at hr; exact absurd hr (Nat.lt_irrefl 0)
    · exact hk j e (I.str j k r hj hr e (hT ▸ he))

theorem no_use {p : PC} (h : ∀ k, ¬ uses k p) {q : PC} : ∀ k, uses k p → uses k q := fun k hk => absurd hk (h k)

theorem WI.step {o : Orders} {L N : Nat} (ho : o.claimAcq = true ∧ o.swapRel = true ∧ o.swapAcq = true ∧ o.subRel = true ∧ o.refRel = true) (hL : L < K) (hNW : N * K ≤ SharedRes.W) {z z' : W}
    (S : Inv L N z.sys) (I : WI z) (s : Step o L N z z') : WI z' := by
  obtain ⟨o1, o2, o3, o4, o5⟩ := ho
  cases s with
  | @move i p q y hp st et hne hl =>
    have grow : ∀ (l : List Nat) (j e : Nat), e ∈ z.knows j → e ∈ upd z.knows i (z.knows i ++ l) j := fun l j e h => know_grow j e h
    have app : ∀ (a b : List Nat), ∀ e ∈ a, e ∈ a ++ b := fun a b e h => List.mem_append_left _ h
    cases st with
    | @setBegin j h =>
      obtain ⟨rfl, rfl, rfl⟩ := thr_of hp hne et h rfl
      exact I.dull hp rfl (no_use (fun k => by simp [uses, own])) (fun _ => rfl) rfl (app _ _) (fun _ => app _ _) (grow _) rfl rfl
    | @setNext j k v r h _ _ =>
      obtain ⟨rfl, rfl, rfl⟩ := thr_of hp hne et h rfl
      exact I.dull hp rfl (no_use (fun k => by simp [uses, own])) (fun _ => rfl) rfl (app _ _) (fun _ => app _ _) (grow _) rfl rfl
    | @setClaim j k v h hr =>
      obtain ⟨rfl, rfl, rfl⟩ := thr_of hp hne et h rfl
      obtain ⟨f1, f2, -, f4⟩ := S.1.free hr
      have kn : ∀ e ∈ z.touches k, e ∈ z.refsC k := by
        intro e he
        rcases I.acc k e he with h' | ⟨j', r, hj, hu, h'⟩ | ⟨h1, -⟩
        · exact h'
        · rcases hu with rfl | hu
          · have := le_sumBy (pend k) hj
            have e2 : pend k (.g2 k) = 1 := eq1_self k
            omega
          · have := le_sumBy (own k) hj
            omega
        · exact absurd h1 f1
      refine ⟨?_, ?_, I.ok⟩
      · intro k' e he
        rcases I.acc k' e he with h' | ⟨j', r, hj, hu, h'⟩ | ⟨h1, h2⟩
        · exact .inl (app _ _ _ h')
        · refine .inr (.inl ?_)
          by_cases c : j' = j
          · subst c
            rw [hp] at hj
            obtain rfl := Option.some.inj hj
            simp [uses, own] at hu
          · exact ⟨j', r, by show (z.sys.thrs.set j _)[j']? = _; rw [List.getElem?_set_ne (fun h => c h.symm)]; exact hj, hu, grow _ _ _ h'⟩
        · exact .inr (.inr ⟨h1, app _ _ _ h2⟩)
      · intro j' k' r hj hr' e he
        rcases thr_set hj with ⟨rfl, rfl⟩ | ⟨hne', hj⟩
        · have : k = k' := by
            rcases claim_of hr' with ⟨v', hv⟩ | ⟨d, hv⟩
            · injection hv
            · simp at hv
          subst this
          show e ∈ upd z.knows j' _ j'
          rw [upd_same]
          refine List.mem_append_right _ ?_
          show e ∈ (if o.claimAcq then z.refsC k else [])
          rw [o1]
          exact kn e he
        · exact grow _ _ _ (I.str j' k' r hj hr' e he)
    | @setWrite j k v d h hd =>
      obtain ⟨rfl, rfl, rfl⟩ := thr_of hp hne et h rfl
      have own1 : 0 < own k (.s1 k v) := by show 0 < eq1 k k; rw [eq1_self]; exact Nat.one_pos
      have cl1 : 0 < claim k (.s1 k v) := by show 0 < eq1 k k; rw [eq1_self]; exact Nat.one_pos
      have new : z.events ∈ upd z.knows j (z.knows j ++ [z.events]) j := by rw [upd_same]; simp
      have hj' : (z.sys.thrs.set j (.s2 k d))[j]? = some (.s2 k d) := thr_new hp
      refine ⟨?_, ?_, ?_⟩
      · intro k' e he
        change e ∈ upd z.touches k (z.touches k ++ [z.events]) k' at he
        by_cases c : k' = k
        · subst c
          rw [upd_same] at he
          refine .inr (.inl ⟨j, .s2 k' d, hj', .inr own1, ?_⟩)
          rcases List.mem_append.mp he with h' | h'
          · exact grow _ _ _ (I.str j k' _ hp cl1 e h')
          · rw [List.mem_singleton.mp h']; exact new
        · rw [upd_ne _ _ c] at he
          rcases I.acc k' e he with h' | ⟨j', r, hj, hu, h'⟩ | ⟨h1, h2⟩
          · exact .inl (app _ _ _ h')
          · refine .inr (.inl ?_)
            by_cases c : j' = j
            · subst c
              rw [hp] at hj
              obtain rfl := Option.some.inj hj
              exact ⟨j', .s2 k d, hj', hu.imp (fun h => by simp at h) (fun h => h), grow _ _ _ h'⟩
            · exact ⟨j', r, by show (z.sys.thrs.set j _)[j']? = _; rw [List.getElem?_set_ne (fun h => c h.symm)]; exact hj, hu, grow _ _ _ h'⟩
          · exact .inr (.inr ⟨h1, app _ _ _ h2⟩)
      · intro j' k' r hj hr' e he
        change e ∈ upd z.touches k (z.touches k ++ [z.events]) k' at he
        rcases thr_set hj with ⟨rfl, rfl⟩ | ⟨hne', hj2⟩
        · have : k = k' := by
            rcases claim_of hr' with ⟨v', hv⟩ | ⟨d, hv⟩
            · simp at hv
            · injection hv
          subst this
          rw [upd_same] at he
          rcases List.mem_append.mp he with h' | h'
          · exact grow _ _ _ (I.str j' k _ hp cl1 e h')
          · rw [List.mem_singleton.mp h']; exact new
        · by_cases c : k' = k
          · subst c
            have ow : 0 < own k' r := Nat.lt_of_lt_of_le hr' (claim_own k' r)
            exact absurd ((sole S.1 hp own1).2 hj2 ow) hne'
          · rw [upd_ne _ _ c] at he
            exact grow _ _ _ (I.str j' k' r hj2 hr' e he)
      · intro r hr
        rcases List.mem_append.mp hr with h' | h'
        · exact I.ok r h'
        · rw [List.mem_singleton.mp h']
          exact I.str j k _ hp cl1
    | @setSwap j k d v h hd =>
      obtain ⟨rfl, rfl, rfl⟩ := thr_of hp hne et h rfl
      have cl1 : 0 < claim k (.s2 k d) := by show 0 < eq1 k k; rw [eq1_self]; exact Nat.one_pos
      have kN : k < N := S.1.bnd j _ hp
      have cur' : ((k * K) % SharedRes.W) / K = k := cur_swap kN hNW
      refine ⟨?_, ?_, I.ok⟩
      · intro k' e he
        by_cases c : k' = k
        · subst c
          refine .inr (.inr ⟨cur', List.mem_append_right _ ?_⟩)
          show e ∈ (if o.swapRel then z.knows j else [])
          rw [o2]
          exact I.str j k' _ hp cl1 e he
        · rcases I.acc k' e he with h' | ⟨j', r, hj, hu, h'⟩ | ⟨h1, h2⟩
          · exact .inl (app _ _ _ h')
          · refine .inr (.inl ?_)
            by_cases c' : j' = j
            · subst c'
              rw [hp] at hj
              obtain rfl := Option.some.inj hj
              exfalso
              rcases hu with h | h
              · simp at h
              · rcases own_of h with ⟨_, h⟩ | ⟨_, h⟩ | ⟨_, _, h, -⟩
                · simp at h
                · injection h with h _; exact c h.symm
                · simp at h
            · exact ⟨j', r, by show (z.sys.thrs.set j _)[j']? = _; rw [List.getElem?_set_ne (fun h => c' h.symm)]; exact hj, hu, grow _ _ _ h'⟩
          · refine .inr (.inl ⟨j, .s3 z.sys.current d, thr_new hp, .inr ?_, ?_⟩)
            · show 0 < eq1 (z.sys.current / K) k'
              rw [h1, eq1_self]; exact Nat.one_pos
            · show e ∈ upd z.knows j _ j
              rw [upd_same]
              refine List.mem_append_right _ ?_
              show e ∈ (if o.swapAcq then z.curC else [])
              rw [o3]
              exact h2
      · intro j' k' r hj hr' e he
        rcases thr_set hj with ⟨rfl, rfl⟩ | ⟨hne', hj⟩
        · exact absurd hr' (Nat.lt_irrefl 0)
        · exact grow _ _ _ (I.str j' k' r hj hr' e he)
    | @setSub j c r d h hr =>
      obtain ⟨rfl, rfl, rfl⟩ := thr_of hp hne et h rfl
      refine ⟨?_, ?_, I.ok⟩
      · intro k' e he
        rcases I.acc k' e he with h' | ⟨j', r, hj, hu, h'⟩ | ⟨h1, h2⟩
        · exact .inl (app _ _ _ h')
        · by_cases c' : j' = j
          · subst c'
            rw [hp] at hj
            obtain rfl := Option.some.inj hj
            rcases hu with h | h
            · simp at h
            · rcases own_of h with ⟨_, h⟩ | ⟨_, h⟩ | ⟨_, _, h, hk⟩
              · simp at h
              · simp at h
              · injection h with h _
                subst h
                refine .inl (List.mem_append_right _ ?_)
                show e ∈ (if o.subRel = true ∧ c / K = k' then z.knows j' else [])
                rw [if_pos ⟨o4, hk⟩]
                exact h'
          · exact .inr (.inl ⟨j', r, by show (z.sys.thrs.set j _)[j']? = _; rw [List.getElem?_set_ne (fun h => c' h.symm)]; exact hj, hu, grow _ _ _ h'⟩)
        · exact .inr (.inr ⟨h1, app _ _ _ h2⟩)
      · intro j' k' r hj hr' e he
        rcases thr_set hj with ⟨rfl, rfl⟩ | ⟨hne', hj⟩
        · exact absurd hr' (Nat.lt_irrefl 0)
        · exact grow _ _ _ (I.str j' k' r hj hr' e he)
    | @setFault j c d h hr =>
      have b : c / K < N := S.1.bnd j _ h
      have := List.getElem?_eq_none_iff.mp hr
      have := S.1.len
      omega
    | @setDestroy j d h =>
      obtain ⟨rfl, rfl, rfl⟩ := thr_of hp hne et h rfl
      exact I.dull hp rfl (no_use (fun k => by simp [uses, own])) (fun _ => rfl) rfl (app _ _) (fun _ => app _ _) (grow _) rfl rfl
    | @getAdd j h =>
      obtain ⟨rfl, rfl, rfl⟩ := thr_of hp hne et h rfl
      refine I.dull hp rfl (no_use (fun k => by simp [uses, own])) (fun _ => rfl) ?_ (app _ _) (fun _ => app _ _) (grow _) rfl rfl
      rcases cur_add hL hNW S with h' | h'
      · exact h'
      · change z.sys.since + 1 ≤ L at hl
        omega
    | @getShare j k v d h hd =>
      obtain ⟨rfl, rfl, rfl⟩ := thr_of hp hne et h rfl
      have new : z.events ∈ upd z.knows j (z.knows j ++ [z.events]) j := by rw [upd_same]; simp
      have hj' : (z.sys.thrs.set j (.g2 k))[j]? = some (.g2 k) := thr_new hp
      refine ⟨?_, ?_, I.ok⟩
      · intro k' e he
        change e ∈ upd z.touches k (z.touches k ++ [z.events]) k' at he
        have old : e ∈ z.touches k' ∨ (k' = k ∧ e = z.events) := by
          by_cases c : k' = k
          · subst c
            rw [upd_same] at he
            rcases List.mem_append.mp he with h' | h'
            · exact .inl h'
            · exact .inr ⟨rfl, List.mem_singleton.mp h'⟩
          · rw [upd_ne _ _ c] at he
            exact .inl he
        rcases old with he | ⟨rfl, rfl⟩
        · rcases I.acc k' e he with h' | ⟨j', r, hj, hu, h'⟩ | ⟨h1, h2⟩
          · exact .inl (app _ _ _ h')
          · refine .inr (.inl ?_)
            by_cases c : j' = j
            · subst c
              rw [hp] at hj
              obtain rfl := Option.some.inj hj
              simp [uses, own] at hu
            · exact ⟨j', r, by show (z.sys.thrs.set j _)[j']? = _; rw [List.getElem?_set_ne (fun h => c h.symm)]; exact hj, hu, grow _ _ _ h'⟩
          · exact .inr (.inr ⟨h1, app _ _ _ h2⟩)
        · exact .inr (.inl ⟨j, .g2 k', hj', .inl rfl, new⟩)
      · intro j' k' r hj hr' e he
        change e ∈ upd z.touches k (z.touches k ++ [z.events]) k' at he
        rcases thr_set hj with ⟨rfl, rfl⟩ | ⟨hne', hj2⟩
        · exact absurd hr' (Nat.lt_irrefl 0)
        · by_cases c : k' = k
          · subst c
            have h1 := S.1.claim k' (Nat.lt_of_lt_of_le hr' (le_sumBy (claim k') hj2))
            have h2 := le_sumBy (pend k') hp
            have h3 : pend k' (.g1 k' v) = 1 := eq1_self k'
            omega
          · rw [upd_ne _ _ c] at he
            exact grow _ _ _ (I.str j' k' r hj2 hr' e he)
    | @getFault j k v h hd =>
      have b : k < N := S.1.bnd j _ h
      have := List.getElem?_eq_none_iff.mp hd
      have := S.2.len
      omega
    | @getRef j k r h hr =>
      obtain ⟨rfl, rfl, rfl⟩ := thr_of hp hne et h rfl
      refine ⟨?_, ?_, I.ok⟩
      · intro k' e he
        rcases I.acc k' e he with h' | ⟨j', r, hj, hu, h'⟩ | ⟨h1, h2⟩
        · exact .inl (app _ _ _ h')
        · by_cases c' : j' = j
          · subst c'
            rw [hp] at hj
            obtain rfl := Option.some.inj hj
            rcases hu with h | h
            · injection h with h
              subst h
              refine .inl (List.mem_append_right _ ?_)
              show e ∈ (if o.refRel = true ∧ k = k then z.knows j' else [])
              rw [if_pos ⟨o5, rfl⟩]
              exact h'
            · simp [own] at h
          · exact .inr (.inl ⟨j', r, by show (z.sys.thrs.set j _)[j']? = _; rw [List.getElem?_set_ne (fun h => c' h.symm)]; exact hj, hu, grow _ _ _ h'⟩)
        · exact .inr (.inr ⟨h1, app _ _ _ h2⟩)
      · intro j' k' r hj hr' e he
        rcases thr_set hj with ⟨rfl, rfl⟩ | ⟨hne', hj⟩
        · exact absurd hr' (Nat.lt_irrefl 0)
        · exact grow _ _ _ (I.str j' k' r hj hr' e he)
    | @getBack j k h _ => exact (S.1.bnd j _ h).elim
    | @getLeave j k h _ => exact (S.1.bnd j _ h).elim
    | @getUnref j k r h _ => exact (S.1.bnd j _ h).elim

/-- Is the thread about to share the data of node `k`, or has it just written it? -/
def near (k : Nat) (p : PC) : Prop := (∃ v, p = .g1 k v) ∨ ∃ d, p = .s2 k d

/-- Who knows of the last write of a node. -/
structure RI (z : W) : Prop where
  cur : ∀ k e : Nat, z.wrote k = some e → z.sys.current / K = k → e ∈ z.curC
  near : ∀ (j k e : Nat) (p : PC), z.sys.thrs[j]? = some p → near k p → z.wrote k = some e → e ∈ z.knows j
  ok : ∀ r ∈ z.reads, ∀ e ∈ r.1, e ∈ r.2

theorem RI.dull {z z' : W} (I : RI z) {i : Nat} {q : PC} (ht : z'.sys.thrs = z.sys.thrs.set i q) (hq : ∀ k, ¬ SharedWeak.near k q)
    (hc : z'.sys.current / K = z.sys.current / K) (hC : ∀ e ∈ z.curC, e ∈ z'.curC) (hk : ∀ j e, e ∈ z.knows j → e ∈ z'.knows j)
    (hT : z'.wrote = z.wrote) (hW : ∀ r ∈ z'.reads, r ∈ z.reads ∨ ∀ e ∈ r.1, e ∈ r.2) : RI z' := by
  refine ⟨?_, ?_, fun r hr => (hW r hr).elim (I.ok r) id⟩
  · intro k e he h
    exact hC e (I.cur k e (hT ▸ he) (hc ▸ h))
  · intro j k e p hj hn he
    rw [ht] at hj
    rcases thr_set hj with ⟨-, rfl⟩ | ⟨-, hj⟩
    · exact absurd hn (hq k)
    · exact hk j e (I.near j k e p hj hn (hT ▸ he))

theorem RI.step {o : Orders} {L N : Nat} (ho : o.swapRel = true ∧ o.addAcq = true) (hL : L < K) (hNW : N * K ≤ SharedRes.W) {z z' : W}
    (S : Inv L N z.sys) (I : RI z) (s : Step o L N z z') : RI z' := by
  obtain ⟨o1, o2⟩ := ho
  cases s with
  | @move i p q y hp st et hne hl =>
    have grow : ∀ (l : List Nat) (j e : Nat), e ∈ z.knows j → e ∈ upd z.knows i (z.knows i ++ l) j := fun l j e h => know_grow j e h
    have app : ∀ (a b : List Nat), ∀ e ∈ a, e ∈ a ++ b := fun a b e h => List.mem_append_left _ h
    cases st with
    | @setBegin j h =>
      obtain ⟨rfl, rfl, rfl⟩ := thr_of hp hne et h rfl
      exact I.dull rfl (fun k => by simp [SharedWeak.near]) rfl (app _ _) (grow _) rfl (fun r hr => .inl hr)
    | @setNext j k v r h _ _ =>
      obtain ⟨rfl, rfl, rfl⟩ := thr_of hp hne et h rfl
      exact I.dull rfl (fun k => by simp [SharedWeak.near]) rfl (app _ _) (grow _) rfl (fun r hr => .inl hr)
    | @setClaim j k v h hr =>
      obtain ⟨rfl, rfl, rfl⟩ := thr_of hp hne et h rfl
      exact I.dull rfl (fun k => by simp [SharedWeak.near]) rfl (app _ _) (grow _) rfl (fun r hr => .inl hr)
    | @setWrite j k v d h hd =>
      obtain ⟨rfl, rfl, rfl⟩ := thr_of hp hne et h rfl
      have own1 : 0 < own k (.s1 k v) := by show 0 < eq1 k k; rw [eq1_self]; exact Nat.one_pos
      have cl1 : 0 < claim k (.s1 k v) := own1
      have new : z.events ∈ upd z.knows j (z.knows j ++ [z.events]) j := by rw [upd_same]; simp
      refine ⟨?_, ?_, I.ok⟩
      · intro k' e he hc
        change upd z.wrote k (some z.events) k' = some e at he
        by_cases c : k' = k
        · subst c
          exact absurd hc (sole (j := j) (q := .idle) S.1 hp own1).1
        · rw [upd_ne _ _ c] at he
          exact app _ _ _ (I.cur k' e he hc)
      · intro j' k' e r hj hn he
        change upd z.wrote k (some z.events) k' = some e at he
        rcases thr_set hj with ⟨rfl, rfl⟩ | ⟨hne', hj2⟩
        · have : k = k' := by
            rcases hn with ⟨_, hn⟩ | ⟨_, hn⟩
            · simp at hn
            · injection hn
          subst this
          rw [upd_same] at he
          obtain rfl := Option.some.inj he
          exact new
        · by_cases c : k' = k
          · subst c
            exfalso
            rcases hn with ⟨_, rfl⟩ | ⟨_, rfl⟩
            · have h1 := S.1.claim k' (Nat.lt_of_lt_of_le cl1 (le_sumBy (claim k') hp))
              have h2 := le_sumBy (pend k') hj2
              have h3 : pend k' (.g1 k' ‹_›) = 1 := eq1_self k'
              omega
            · exact hne' ((sole S.1 hp own1).2 hj2 own1)
          · rw [upd_ne _ _ c] at he
            exact grow _ _ _ (I.near j' k' e r hj2 hn he)
    | @setSwap j k d v h hd =>
      obtain ⟨rfl, rfl, rfl⟩ := thr_of hp hne et h rfl
      have kN : k < N := S.1.bnd j _ hp
      have cur' : ((k * K) % SharedRes.W) / K = k := cur_swap kN hNW
      refine ⟨?_, ?_, I.ok⟩
      · intro k' e he hc
        change ((k * K) % SharedRes.W) / K = k' at hc
        rw [cur'] at hc
        subst hc
        refine List.mem_append_right _ ?_
        show e ∈ (if o.swapRel then z.knows j else [])
        rw [o1]
        exact I.near j k e _ hp (.inr ⟨d, rfl⟩) he
      · intro j' k' e r hj hn he
        rcases thr_set hj with ⟨-, rfl⟩ | ⟨-, hj2⟩
        · simp [SharedWeak.near] at hn
        · exact grow _ _ _ (I.near j' k' e r hj2 hn he)
    | @setSub j c r d h hr =>
      obtain ⟨rfl, rfl, rfl⟩ := thr_of hp hne et h rfl
      exact I.dull rfl (fun k => by simp [SharedWeak.near]) rfl (app _ _) (grow _) rfl (fun r hr => .inl hr)
    | @setFault j c d h hr =>
      obtain ⟨rfl, rfl, rfl⟩ := thr_of hp hne et h rfl
      exact I.dull rfl (fun k => by simp [SharedWeak.near]) rfl (app _ _) (grow _) rfl (fun r hr => .inl hr)
    | @setDestroy j d h =>
      obtain ⟨rfl, rfl, rfl⟩ := thr_of hp hne et h rfl
      exact I.dull rfl (fun k => by simp [SharedWeak.near]) rfl (app _ _) (grow _) rfl (fun r hr => .inl hr)
    | @getAdd j h =>
      obtain ⟨rfl, rfl, rfl⟩ := thr_of hp hne et h rfl
      have hc : ((z.sys.current + 1) % SharedRes.W) / K = z.sys.current / K := by
        rcases cur_add hL hNW S with h' | h'
        · exact h'
        · change z.sys.since + 1 ≤ L at hl
          omega
      refine ⟨?_, ?_, I.ok⟩
      · intro k' e he hk
        exact app _ _ _ (I.cur k' e he (hc ▸ hk))
      · intro j' k' e r hj hn he
        rcases thr_set hj with ⟨rfl, rfl⟩ | ⟨-, hj2⟩
        · rcases hn with ⟨_, hn⟩ | ⟨_, hn⟩
          · injection hn with hk _
            show e ∈ upd z.knows j' _ j'
            rw [upd_same]
            refine List.mem_append_right _ ?_
            show e ∈ (if o.addAcq then z.curC else [])
            rw [o2]
            exact I.cur k' e he hk
          · simp at hn
        · exact grow _ _ _ (I.near j' k' e r hj2 hn he)
    | @getShare j k v d h hd =>
      obtain ⟨rfl, rfl, rfl⟩ := thr_of hp hne et h rfl
      refine I.dull rfl (fun k => by simp [SharedWeak.near]) rfl (app _ _) (grow _) rfl (fun r hr => ?_)
      rcases List.mem_append.mp hr with h' | h'
      · exact .inl h'
      · rw [List.mem_singleton.mp h']
        exact .inr fun e he => I.near j k e _ hp (.inl ⟨v, rfl⟩) he
    | @getFault j k v h hd =>
      obtain ⟨rfl, rfl, rfl⟩ := thr_of hp hne et h rfl
      exact I.dull rfl (fun k => by simp [SharedWeak.near]) rfl (app _ _) (grow _) rfl (fun r hr => .inl hr)
    | @getRef j k r h hr =>
      obtain ⟨rfl, rfl, rfl⟩ := thr_of hp hne et h rfl
      exact I.dull rfl (fun k => by simp [SharedWeak.near]) rfl (app _ _) (grow _) rfl (fun r hr => .inl hr)
    | @getBack j k h _ => exact (S.1.bnd j _ h).elim
    | @getLeave j k h _ => exact (S.1.bnd j _ h).elim
    | @getUnref j k r h _ => exact (S.1.bnd j _ h).elim

/-- The accesses of the gets: whoever shares the data of a node knows of the access that wrote it. -/
def ReadsOk (z : W) : Prop := ∀ r ∈ z.reads, ∀ e ∈ r.1, e ∈ r.2

/-- The accesses of the sets: whoever replaces the data of a node knows of every earlier access to it. -/
def WritesOk (z : W) : Prop := ∀ r ∈ z.writes, ∀ e ∈ r.1, e ∈ r.2

/-- The state after a move. -/
def next (o : Orders) (z : W) (i : Nat) (p q : PC) (y : Sys) : W := { z with
        sys := y
        curC := z.curC ++ publishCur o (z.knows i) p q
        refsC := fun j => z.refsC j ++ publishRefs o (z.knows i) p q j
        knows := upd z.knows i (z.knows i ++ learn o z p q)
        events := z.events + (accessed p q).toList.length
        wrote := match p, q with
          | .s1 k _, .s2 _ _ => upd z.wrote k (some z.events)
          | _, _ => z.wrote
        touches := match accessed p q with
          | some k => upd z.touches k (z.touches k ++ [z.events])
          | none => z.touches
        reads := match p, q with
          | .g1 k _, .g2 _ => z.reads ++ [(z.wrote k, z.knows i)]
          | _, _ => z.reads
        writes := match p, q with
          | .s1 k _, .s2 _ _ => z.writes ++ [(z.touches k, z.knows i)]
          | _, _ => z.writes }

theorem go {o : Orders} {L N n : Nat} {z : W} {s : Sys} (r : Reach o L N n z) (h : z.sys = s) (i : Nat) (p q : PC) (y : Sys) (hp : s.thrs[i]? = some p) {y' : Sys} (st : SharedRes.Step false N s y')
    (ey : y' = y) (e : y.thrs = s.thrs.set i q) (hne : p ≠ q) (hl : y.since ≤ L) : Reach o L N n (next o z i p q y) ∧ (next o z i p q y).sys = y := by
  subst h
  subst ey
  exact ⟨r.step (.move hp st e hne hl), rfl⟩

/-- A node is written by thread 0, replaced by thread 1, and then written by thread 2. -/
theorem rewritten (o : Orders) (hb : o.claimAcq = false ∨ o.swapRel = false ∨ o.swapAcq = false ∨ o.subRel = false) : ∃ z, Reach o 0 3 3 z ∧ ∃ r ∈ z.writes, 0 ∈ r.1 ∧ 0 ∉ r.2 := by
  have r := Reach.init (o := o) (L := 0) (N := 3) (n := 3)
  have h : (SharedWeak.init 3 3).sys = SharedRes.init 3 3 := rfl
  obtain ⟨r, h⟩ := go r h 2 .idle (.s0 1 0) ⟨0, [1, 0, 0], [none, none, none], [.idle, .idle, .s0 1 0], 1, none, 0, [], []⟩ rfl (.setBegin (i := 2) rfl) rfl rfl nofun (by decide)
  obtain ⟨r, h⟩ := go r h 0 .idle (.s0 1 1) ⟨0, [1, 0, 0], [none, none, none], [.s0 1 1, .idle, .s0 1 0], 2, none, 0, [], []⟩ rfl (.setBegin (i := 0) rfl) rfl rfl nofun (by decide)
  obtain ⟨r, h⟩ := go r h 0 (.s0 1 1) (.s1 1 1) ⟨0, [1, 1, 0], [none, none, none], [.s1 1 1, .idle, .s0 1 0], 2, none, 0, [], []⟩ rfl (.setClaim (i := 0) rfl rfl) rfl rfl nofun (by decide)
  obtain ⟨r, h⟩ := go r h 0 (.s1 1 1) (.s2 1 none) ⟨0, [1, 1, 0], [none, some 1, none], [.s2 1 none, .idle, .s0 1 0], 2, none, 0, [], []⟩ rfl (.setWrite (i := 0) rfl rfl) rfl rfl nofun (by decide)
  obtain ⟨r, h⟩ := go r h 0 (.s2 1 none) (.s3 0 none) ⟨65536, [1, 1, 0], [none, some 1, none], [.s3 0 none, .idle, .s0 1 0], 2, some 1, 0, [], []⟩ rfl (.setSwap (i := 0) rfl rfl) rfl rfl nofun (by decide)
  obtain ⟨r, h⟩ := go r h 0 (.s3 0 none) (.s4 none) ⟨65536, [0, 1, 0], [none, some 1, none], [.s4 none, .idle, .s0 1 0], 2, some 1, 0, [], []⟩ rfl (.setSub (i := 0) rfl rfl) rfl rfl nofun (by decide)
  obtain ⟨r, h⟩ := go r h 1 .idle (.s0 2 2) ⟨65536, [0, 1, 0], [none, some 1, none], [.s4 none, .s0 2 2, .s0 1 0], 3, some 1, 0, [], []⟩ rfl (.setBegin (i := 1) rfl) rfl rfl nofun (by decide)
  obtain ⟨r, h⟩ := go r h 1 (.s0 2 2) (.s1 2 2) ⟨65536, [0, 1, 1], [none, some 1, none], [.s4 none, .s1 2 2, .s0 1 0], 3, some 1, 0, [], []⟩ rfl (.setClaim (i := 1) rfl rfl) rfl rfl nofun (by decide)
  obtain ⟨r, h⟩ := go r h 1 (.s1 2 2) (.s2 2 none) ⟨65536, [0, 1, 1], [none, some 1, some 2], [.s4 none, .s2 2 none, .s0 1 0], 3, some 1, 0, [], []⟩ rfl (.setWrite (i := 1) rfl rfl) rfl rfl nofun (by decide)
  obtain ⟨r, h⟩ := go r h 1 (.s2 2 none) (.s3 65536 none) ⟨131072, [0, 1, 1], [none, some 1, some 2], [.s4 none, .s3 65536 none, .s0 1 0], 3, some 2, 0, [], []⟩ rfl (.setSwap (i := 1) rfl rfl) rfl rfl nofun (by decide)
  obtain ⟨r, h⟩ := go r h 1 (.s3 65536 none) (.s4 none) ⟨131072, [0, 0, 1], [none, some 1, some 2], [.s4 none, .s4 none, .s0 1 0], 3, some 2, 0, [], []⟩ rfl (.setSub (i := 1) rfl rfl) rfl rfl nofun (by decide)
  obtain ⟨r, h⟩ := go r h 2 (.s0 1 0) (.s1 1 0) ⟨131072, [0, 1, 1], [none, some 1, some 2], [.s4 none, .s4 none, .s1 1 0], 3, some 2, 0, [], []⟩ rfl (.setClaim (i := 2) rfl rfl) rfl rfl nofun (by decide)
  obtain ⟨r, h⟩ := go r h 2 (.s1 1 0) (.s2 1 (some 1)) ⟨131072, [0, 1, 1], [none, some 0, some 2], [.s4 none, .s4 none, .s2 1 (some 1)], 3, some 2, 0, [], []⟩ rfl (.setWrite (i := 2) rfl rfl) rfl rfl nofun (by decide)
  refine ⟨_, r, ([0], if o.claimAcq then (if o.subRel then [1] ++ (if o.swapAcq then (if o.swapRel then [0] else []) else []) else []) else []), ?_, by simp, ?_⟩
  · rcases o with ⟨_ | _, _ | _, _ | _, _ | _, _ | _, _ | _⟩ <;> decide
  · rcases o with ⟨_ | _, _ | _, _ | _, _ | _, _ | _, _ | _⟩ <;> first | decide | (simp at hb)

/-- The first node is shared by thread 0, replaced by thread 1, and then written by thread 2. -/
theorem reread (o : Orders) (hb : o.refRel = false) : ∃ z, Reach o 1 2 3 z ∧ ∃ r ∈ z.writes, 0 ∈ r.1 ∧ 0 ∉ r.2 := by
  have r := Reach.init (o := o) (L := 1) (N := 2) (n := 3)
  have h : (SharedWeak.init 2 3).sys = SharedRes.init 2 3 := rfl
  obtain ⟨r, h⟩ := go r h 0 .idle (.g1 0 none) ⟨1, [1, 0], [none, none], [.g1 0 none, .idle, .idle], 0, none, 1, [], []⟩ rfl (.getAdd (i := 0) rfl) rfl rfl nofun (by decide)
  obtain ⟨r, h⟩ := go r h 0 (.g1 0 none) (.g2 0) ⟨1, [1, 0], [none, none], [.g2 0, .idle, .idle], 0, none, 1, [], [(none, none, false)]⟩ rfl (.getShare (i := 0) rfl rfl) rfl rfl nofun (by decide)
  obtain ⟨r, h⟩ := go r h 0 (.g2 0) (.idle) ⟨1, [3, 0], [none, none], [.idle, .idle, .idle], 0, none, 1, [], [(none, none, false)]⟩ rfl (.getRef (i := 0) rfl rfl) rfl rfl nofun (by decide)
  obtain ⟨r, h⟩ := go r h 1 .idle (.s0 1 0) ⟨1, [3, 0], [none, none], [.idle, .s0 1 0, .idle], 1, none, 1, [], [(none, none, false)]⟩ rfl (.setBegin (i := 1) rfl) rfl rfl nofun (by decide)
  obtain ⟨r, h⟩ := go r h 1 (.s0 1 0) (.s1 1 0) ⟨1, [3, 1], [none, none], [.idle, .s1 1 0, .idle], 1, none, 1, [], [(none, none, false)]⟩ rfl (.setClaim (i := 1) rfl rfl) rfl rfl nofun (by decide)
  obtain ⟨r, h⟩ := go r h 1 (.s1 1 0) (.s2 1 none) ⟨1, [3, 1], [none, some 0], [.idle, .s2 1 none, .idle], 1, none, 1, [], [(none, none, false)]⟩ rfl (.setWrite (i := 1) rfl rfl) rfl rfl nofun (by decide)
  obtain ⟨r, h⟩ := go r h 1 (.s2 1 none) (.s3 1 none) ⟨65536, [3, 1], [none, some 0], [.idle, .s3 1 none, .idle], 1, some 0, 0, [], [(none, none, false)]⟩ rfl (.setSwap (i := 1) rfl rfl) rfl rfl nofun (by decide)
  obtain ⟨r, h⟩ := go r h 1 (.s3 1 none) (.s4 none) ⟨65536, [0, 1], [none, some 0], [.idle, .s4 none, .idle], 1, some 0, 0, [], [(none, none, false)]⟩ rfl (.setSub (i := 1) rfl rfl) rfl rfl nofun (by decide)
  obtain ⟨r, h⟩ := go r h 2 .idle (.s0 0 1) ⟨65536, [0, 1], [none, some 0], [.idle, .s4 none, .s0 0 1], 2, some 0, 0, [], [(none, none, false)]⟩ rfl (.setBegin (i := 2) rfl) rfl rfl nofun (by decide)
  obtain ⟨r, h⟩ := go r h 2 (.s0 0 1) (.s1 0 1) ⟨65536, [1, 1], [none, some 0], [.idle, .s4 none, .s1 0 1], 2, some 0, 0, [], [(none, none, false)]⟩ rfl (.setClaim (i := 2) rfl rfl) rfl rfl nofun (by decide)
  obtain ⟨r, h⟩ := go r h 2 (.s1 0 1) (.s2 0 none) ⟨65536, [1, 1], [some 1, some 0], [.idle, .s4 none, .s2 0 none], 2, some 0, 0, [], [(none, none, false)]⟩ rfl (.setWrite (i := 2) rfl rfl) rfl rfl nofun (by decide)
  refine ⟨_, r, ([0], if o.claimAcq then (if o.subRel then [1] else []) else []), ?_, by simp, ?_⟩
  · rcases o with ⟨_ | _, _ | _, _ | _, _ | _, _ | _, _ | _⟩ <;> first | decide | (simp at hb)
  · rcases o with ⟨_ | _, _ | _, _ | _, _ | _, _ | _, _ | _⟩ <;> decide

/-- A node is written by thread 0 and shared by thread 1. -/
theorem shared (o : Orders) : ∃ z, Reach o 1 2 2 z ∧ z.reads = [(some 0, if o.addAcq then (if o.swapRel then [0] else []) else [])] := by
  have r := Reach.init (o := o) (L := 1) (N := 2) (n := 2)
  have h : (SharedWeak.init 2 2).sys = SharedRes.init 2 2 := rfl
  obtain ⟨r, h⟩ := go r h 0 .idle (.s0 1 0) ⟨0, [1, 0], [none, none], [.s0 1 0, .idle], 1, none, 0, [], []⟩ rfl (.setBegin (i := 0) rfl) rfl rfl nofun (by decide)
  obtain ⟨r, h⟩ := go r h 0 (.s0 1 0) (.s1 1 0) ⟨0, [1, 1], [none, none], [.s1 1 0, .idle], 1, none, 0, [], []⟩ rfl (.setClaim (i := 0) rfl rfl) rfl rfl nofun (by decide)
  obtain ⟨r, h⟩ := go r h 0 (.s1 1 0) (.s2 1 none) ⟨0, [1, 1], [none, some 0], [.s2 1 none, .idle], 1, none, 0, [], []⟩ rfl (.setWrite (i := 0) rfl rfl) rfl rfl nofun (by decide)
  obtain ⟨r, h⟩ := go r h 0 (.s2 1 none) (.s3 0 none) ⟨65536, [1, 1], [none, some 0], [.s3 0 none, .idle], 1, some 0, 0, [], []⟩ rfl (.setSwap (i := 0) rfl rfl) rfl rfl nofun (by decide)
  obtain ⟨r, h⟩ := go r h 1 .idle (.g1 1 (some 0)) ⟨65537, [1, 1], [none, some 0], [.s3 0 none, .g1 1 (some 0)], 1, some 0, 1, [], []⟩ rfl (.getAdd (i := 1) rfl) rfl rfl nofun (by decide)
  obtain ⟨r, h⟩ := go r h 1 (.g1 1 (some 0)) (.g2 1) ⟨65537, [1, 1], [none, some 0], [.s3 0 none, .g2 1], 1, some 0, 1, [], [(some 0, some 0, false)]⟩ rfl (.getShare (i := 1) rfl rfl) rfl rfl nofun (by decide)
  refine ⟨_, r, ?_⟩
  rcases o with ⟨_ | _, _ | _, _ | _, _ | _, _ | _, _ | _⟩ <;> rfl

/-- C138: in every execution, with fewer than 65536 gets between two sets, the access by which a get shares the data of a node happens after the access that wrote it, exactly if the exchange of `current` is a release and the addition to it an acquire. -/
theorem C138_reads (o : Orders) :
    (∀ (L N n : Nat), L < 65536 → 0 < N → N ≤ 2 ^ 48 → n < 2 ^ 63 → ∀ z, Reach o L N n z → ReadsOk z) ↔ (o.swapRel = true ∧ o.addAcq = true) := by
  constructor
  · intro H
    obtain ⟨z, r, h⟩ := shared o
    have := H 1 2 2 (by decide) (by decide) (by decide) (by decide) z r _ (by rw [h]; exact List.mem_singleton_self _) 0 rfl
    rcases o with ⟨_ | _, _ | _, _ | _, _ | _, _ | _, _ | _⟩ <;> simp_all
  · intro ho L N n hL hN hNW hn z r
    have hNW' : N * K ≤ SharedRes.W := by simp only [K, SharedRes.W]; omega
    have hn' : 2 * n < SharedRes.W := by simp only [SharedRes.W]; omega
    have I : RI z := by
      induction r with
      | init => exact ⟨fun _ _ h => by simp [SharedWeak.init] at h, fun _ _ _ _ _ _ h => by simp [SharedWeak.init] at h, fun r h => by simp [SharedWeak.init] at h⟩
      | step r s ih => exact RI.step ho hL hNW' (r.sys.inv hL hN hNW' hn') ih s
    exact I.ok

/-- C138: in every execution, with fewer than 65536 gets between two sets, the access by which a set replaces the data of a node happens after every earlier access to the data of that node, by gets and by sets, exactly if the exchange of `refs` is an acquire, the exchange of `current` both a release
and an acquire, and the subtraction from and the addition to `refs` are releases. -/
theorem C138_writes (o : Orders) :
    (∀ (L N n : Nat), L < 65536 → 0 < N → N ≤ 2 ^ 48 → n < 2 ^ 63 → ∀ z, Reach o L N n z → WritesOk z) ↔ (o.claimAcq = true ∧ o.swapRel = true ∧ o.swapAcq = true ∧ o.subRel = true ∧ o.refRel = true) := by
  constructor
  · intro H
    have h1 : ¬ (o.claimAcq = false ∨ o.swapRel = false ∨ o.swapAcq = false ∨ o.subRel = false) := fun h => by
      obtain ⟨z, r, w, hw, h1, h2⟩ := rewritten o h
      exact h2 (H 0 3 3 (by decide) (by decide) (by decide) (by decide) z r w hw 0 h1)
    have h2 : ¬ o.refRel = false := fun h => by
      obtain ⟨z, r, w, hw, h1, h2⟩ := reread o h
      exact h2 (H 1 2 3 (by decide) (by decide) (by decide) (by decide) z r w hw 0 h1)
    simp only [not_or, Bool.not_eq_false] at h1 h2
    exact ⟨h1.1, h1.2.1, h1.2.2.1, h1.2.2.2, h2⟩
  · intro ho L N n hL hN hNW hn z r
    have hNW' : N * K ≤ SharedRes.W := by simp only [K, SharedRes.W]; omega
    have hn' : 2 * n < SharedRes.W := by simp only [SharedRes.W]; omega
    have I : WI z := by
      induction r with
      | init => exact ⟨fun _ _ h => by simp [SharedWeak.init] at h, fun _ _ _ _ _ _ h => by simp [SharedWeak.init] at h, fun r h => by simp [SharedWeak.init] at h⟩
      | step r s ih => exact WI.step ho hL hNW' (r.sys.inv hL hN hNW' hn') ih s
    exact I.ok

/-- C138, for the orders of the file: what a get shares has been written. -/
theorem C138_code_reads (L N n : Nat) (hL : L < 65536) (hN : 0 < N) (hNW : N ≤ 2 ^ 48) (hn : n < 2 ^ 63) (z : W) (r : Reach code L N n z) : ReadsOk z :=
  (C138_reads code).mpr ⟨rfl, rfl⟩ L N n hL hN hNW hn z r

/-- C138, for the orders of the file: a set may replace, and then destroy, the data of a node without the sharing of it by an earlier get, or the writing of it by an earlier set, happening before. -/
theorem C138_code_refuted : (∃ z, Reach code 1 2 3 z ∧ ¬ WritesOk z) ∧ ∃ z, Reach code 0 3 3 z ∧ ¬ WritesOk z := by
  obtain ⟨z, r, w, hw, h1, h2⟩ := reread code rfl
  obtain ⟨z', r', w', hw', h1', h2'⟩ := rewritten code (.inr (.inr (.inl rfl)))
  exact ⟨⟨z, r, fun H => h2 (H w hw 0 h1)⟩, z', r', fun H => h2' (H w' hw' 0 h1')⟩

/-- With a release wherever a thread gives a node up and an acquire at the exchange of `current`, nothing races. -/
example (L N n : Nat) (hL : L < 65536) (hN : 0 < N) (hNW : N ≤ 2 ^ 48) (hn : n < 2 ^ 63) (z : W) (r : Reach { code with swapAcq := true, subRel := true, refRel := true } L N n z) : ReadsOk z ∧ WritesOk z :=
  ⟨(C138_reads _).mpr ⟨rfl, rfl⟩ L N n hL hN hNW hn z r, (C138_writes _).mpr ⟨rfl, rfl, rfl, rfl, rfl⟩ L N n hL hN hNW hn z r⟩

/-- A get that shares what a set wrote. -/
example : ∃ z, Reach code 1 2 2 z ∧ z.reads = [(some 0, [0])] := shared code

/-- C138: three orders of the file would have to be changed for this, the acquire of the exchange of `current` (87), the release of the subtraction (90) and that of the addition (106); none of them can be left out, nothing else is needed. -/
theorem C138_repairs (a b c : Bool) :
    (∀ (L N n : Nat), L < 65536 → 0 < N → N ≤ 2 ^ 48 → n < 2 ^ 63 → ∀ z, Reach { code with swapAcq := code.swapAcq || a, subRel := code.subRel || b, refRel := code.refRel || c } L N n z → WritesOk z) ↔
      (a = true ∧ b = true ∧ c = true) := by
  rw [C138_writes]
  cases a <;> cases b <;> cases c <;> decide

#print axioms Verif.SharedWeak.C138_reads
#print axioms Verif.SharedWeak.C138_writes
#print axioms Verif.SharedWeak.C138_code_reads
#print axioms Verif.SharedWeak.C138_code_refuted

end Verif.SharedWeak
