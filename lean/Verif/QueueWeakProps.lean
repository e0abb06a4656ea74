import Verif.QueueWeak
import Verif.ConcQueueProps
/-!
# C136: what was done before a push is known after the pop
-/
namespace Verif.QueueWeak
open ConcQueue

theorem upd_self {α : Type} (f : Nat → α) (a : Nat) (b : α) : upd f a b a = b := by simp [upd]

theorem upd_ne {α : Type} (f : Nat → α) {a c : Nat} (b : α) (h : c ≠ a) : upd f a b c = f c := by simp [upd, h]

/-- The node whose `prev` a thread is about to store, or loaded. -/
def sees : PC → Option Ptr
  | .pu4 _ _ t => some t
  | .po3 _ h _ p _ _ => if p.node = none then none else some h
  | .po4 _ h _ p _ _ => if p.node = none then none else some h
  | _ => none

def pushed (z : W) (a : Nat) : List Nat := (z.pushes[a]?).getD []

structure WInv (w : Nat) (z : W) : Prop where
  len : z.pushes.length + 1 = z.sys.chain.length
  pops : z.pops.length = z.sys.popped.length
  prevs : ∀ (a n : Nat), z.sys.chain[a]? = some n → a ∉ z.sys.freed → (z.sys.prev n).node ≠ none → ∀ u ∈ pushed z a, u ∈ z.prevC n
  thr : ∀ (i : Nat) (p : PC) (t : Ptr) (b : Nat), z.sys.thrs[i]? = some p → sees p = some t → At w z.sys.chain b t → b ∉ z.sys.freed → ∀ u ∈ pushed z b, u ∈ z.knows i
  log : ∀ (k : Nat) (c : List Nat), z.pops[k]? = some c → ∀ u ∈ pushed z k, u ∈ c

/-- A thread that sees a node sees one that is not freed. -/
theorem seen {w : Nat} {y : Sys} (I : ConcQueue.Inv w y) {i : Nat} {p : PC} {t : Ptr} (hi : y.thrs[i]? = some p) (hs : sees p = some t) : ∃ b, At w y.chain b t ∧ b ∉ y.freed ∧ b + 1 < y.chain.length := by
  have lt : ∀ {b m : Nat}, y.chain[b]? = some m → b < y.chain.length := fun h => (List.getElem?_eq_some_iff.1 h).1
  have h := I.thr i p hi
  cases p with
  | pu4 s n t' =>
    obtain ⟨b, h1, h2, h3⟩ := h
    simp only [sees, Option.some.injEq] at hs
    subst hs
    exact ⟨b, h1, h2.1, lt h3⟩
  | po3 s hd t' q em st =>
    obtain ⟨b, _, h1, h2, _, h3⟩ := h
    simp only [sees] at hs
    split at hs
    · simp at hs
    · rename_i hq
      simp only [Option.some.injEq] at hs
      subst hs
      rcases h3 with ⟨rfl, _⟩ | ⟨m, h3, _⟩
      · exact absurd rfl hq
      · exact ⟨b, h1, h2.1, lt h3⟩
  | po4 s hd t' q em st =>
    obtain ⟨b, _, h1, h2, _, h3⟩ := h
    simp only [sees] at hs
    split at hs
    · simp at hs
    · rename_i hq
      simp only [Option.some.injEq] at hs
      subst hs
      rcases h3 with ⟨rfl, _⟩ | ⟨m, h3, _⟩
      · exact absurd rfl hq
      · exact ⟨b, h1, h2.1, lt h3⟩
  | _ => simp [sees] at hs

theorem At.uniq {w : Nat} {y : Sys} (I : ConcQueue.Inv w y) {a b : Nat} {t : Ptr} (ha : At w y.chain a t) (hb : At w y.chain b t) (fa : a ∉ y.freed) (fb : b ∉ y.freed) : a = b := by
  obtain ⟨n, h1, e1⟩ := ha
  obtain ⟨m, h2, e2⟩ := hb
  rw [e1] at e2
  obtain rfl : n = m := by simpa using congrArg Ptr.node e2
  exact I.uniq a b n h1 h2 fa fb

theorem learn_mono (o : Orders) (z : W) (k : List Nat) (p q : PC) : ∀ u ∈ k, u ∈ learn o z k p q := by
  intro u h
  unfold learn
  split
  · split
    · split
      · exact List.mem_append_left _ h
      · exact h
    · exact h
  · split
    · exact List.mem_append_left _ h
    · exact h
  · exact h

theorem thr_of {y y' : Sys} {i : Nat} {p q : PC} {j : Nat} {r : PC} (hp : y.thrs[i]? = some p) (hne : p ≠ q) (e1 : y'.thrs = y.thrs.set i q) (hj : y.thrs[j]? = some r) {r' : PC} (e2 : y'.thrs = y.thrs.set j r') :
    j = i ∧ r = p ∧ r' = q := by
  have h : (y.thrs.set i q)[i]? = some q := thr_new hp
  rw [← e1, e2] at h
  rcases thr_set h with ⟨rfl, e⟩ | ⟨e, h'⟩
  · rw [hp] at hj
    exact ⟨rfl, (Option.some.inj hj).symm, e.symm⟩
  · rw [hp] at h'
    exact absurd (Option.some.inj h') hne

/-- A move that changes neither the nodes in the queue nor what they carry. -/
theorem dull {w : Nat} {z z' : W} (I : WInv w z) {i : Nat} {p q : PC} (hp : z.sys.thrs[i]? = some p) (ht : z'.sys.thrs = z.sys.thrs.set i q) (hq : sees q = none ∨ sees q = sees p)
    (hc : z'.sys.chain = z.sys.chain) (ho : z'.sys.popped = z.sys.popped) (hf : z'.sys.freed = z.sys.freed) (hv : ∀ n, z'.sys.prev n = z.sys.prev n ∨ z'.sys.prev n = null) (hC : z'.prevC = z.prevC)
    (hk : ∀ j, ∀ u ∈ z.knows j, u ∈ z'.knows j) (hP : z'.pushes = z.pushes) (hO : z'.pops = z.pops) : WInv w z' := by
  have e : ∀ a, pushed z' a = pushed z a := fun a => by unfold pushed; rw [hP]
  refine ⟨by rw [hP, hc]; exact I.len, by rw [hO, ho]; exact I.pops, ?_, ?_, ?_⟩
  · intro a n ha hfa hn u hu
    rw [e] at hu
    rw [hC]
    rcases hv n with h | h
    · exact I.prevs a n (hc ▸ ha) (hf ▸ hfa) (h ▸ hn) u hu
    · rw [h] at hn
      exact absurd rfl hn
  · intro j r t b hj hs hb hfb u hu
    rw [e] at hu
    rw [ht] at hj
    refine hk j u ?_
    rcases thr_set hj with ⟨rfl, rfl⟩ | ⟨_, hj⟩
    · rcases hq with h | h
      · rw [h] at hs
        simp at hs
      · exact I.thr j p t b hp (h ▸ hs) (hc ▸ hb) (hf ▸ hfb) u hu
    · exact I.thr j r t b hj hs (hc ▸ hb) (hf ▸ hfb) u hu
  · intro k c h u hu
    rw [e] at hu
    exact I.log k c (hO ▸ h) u hu

theorem WInv.step {o : Orders} {w : Nat} {z z' : W} (h1 : o.prevRel = true) (h2 : o.prevAcq = true) (I0 : ConcQueue.Inv w z.sys) (I1 : ConcQueue.Inv w z'.sys) (I : WInv w z) (s : Step o w z z') : WInv w z' := by
  cases s with
  | @work i ht =>
    refine ⟨I.len, I.pops, I.prevs, fun j p t b hj hs hb hf u hu => ?_, I.log⟩
    have h := I.thr j p t b hj hs hb hf u hu
    by_cases e : j = i
    · subst e
      simp only [upd_self]
      exact List.mem_append_left _ h
    · simp only [upd_ne _ _ e]
      exact h
  | @free j l _ _ _ =>
    exact ⟨I.len, I.pops, fun a n ha hf => I.prevs a n ha (fun h => hf (List.mem_cons_of_mem _ h)), fun i p t b hi hs hb hf => I.thr i p t b hi hs hb (fun h => hf (List.mem_cons_of_mem _ h)), I.log⟩
  | @move i p q y hp hs e hne =>
    have know : ∀ j, ∀ u ∈ z.knows j, u ∈ upd z.knows i (learn o z (z.knows i) p q) j := by
      intro j u hu
      by_cases e : j = i
      · subst e
        rw [upd_self]
        exact learn_mono _ _ _ _ _ u hu
      · rw [upd_ne _ _ e]
        exact hu
    cases hs with
    | @pushBegin j n h _ =>
      obtain ⟨rfl, rfl, rfl⟩ := thr_of hp hne e h rfl
      exact dull I hp rfl (by first | exact Or.inl rfl | exact Or.inr rfl) rfl rfl rfl (fun a => by by_cases e : a = n <;> simp [ConcQueue.upd, e]) rfl know (by simp) (by simp)
    | @pushLoad j s n h =>
      obtain ⟨rfl, rfl, rfl⟩ := thr_of hp hne e h rfl
      exact dull I hp rfl (by first | exact Or.inl rfl | exact Or.inr rfl) rfl rfl rfl (fun _ => Or.inl rfl) rfl know (by simp) (by simp)
    | @pushNext j s n t h =>
      obtain ⟨rfl, rfl, rfl⟩ := thr_of hp hne e h rfl
      exact dull I hp rfl (by first | exact Or.inl rfl | exact Or.inr rfl) rfl rfl rfl (fun _ => Or.inl rfl) rfl know (by simp) (by simp)
    | @pushFail j s n t h =>
      obtain ⟨rfl, rfl, rfl⟩ := thr_of hp hne e h rfl
      exact dull I hp rfl (by first | exact Or.inl rfl | exact Or.inr rfl) rfl rfl rfl (fun _ => Or.inl rfl) rfl know (by simp) (by simp)
    | @pushFault j s n t h _ =>
      obtain ⟨rfl, rfl, rfl⟩ := thr_of hp hne e h rfl
      exact dull I hp rfl (by first | exact Or.inl rfl | exact Or.inr rfl) rfl rfl rfl (fun _ => Or.inl rfl) rfl know (by simp) (by simp)
    | @popBegin j h =>
      obtain ⟨rfl, rfl, rfl⟩ := thr_of hp hne e h rfl
      exact dull I hp rfl (by first | exact Or.inl rfl | exact Or.inr rfl) rfl rfl rfl (fun _ => Or.inl rfl) rfl know (by simp) (by simp)
    | @popHead j s h =>
      obtain ⟨rfl, rfl, rfl⟩ := thr_of hp hne e h rfl
      exact dull I hp rfl (by first | exact Or.inl rfl | exact Or.inr rfl) rfl rfl rfl (fun _ => Or.inl rfl) rfl know (by simp) (by simp)
    | @popTail j s hd h =>
      obtain ⟨rfl, rfl, rfl⟩ := thr_of hp hne e h rfl
      exact dull I hp rfl (by first | exact Or.inl rfl | exact Or.inr rfl) rfl rfl rfl (fun _ => Or.inl rfl) rfl know (by simp) (by simp)
    | @popFault j s hd t em h _ =>
      obtain ⟨rfl, rfl, rfl⟩ := thr_of hp hne e h rfl
      exact dull I hp rfl (by first | exact Or.inl rfl | exact Or.inr rfl) rfl rfl rfl (fun _ => Or.inl rfl) rfl know (by simp) (by simp)
    | @popSame j s hd t p em st h _ =>
      obtain ⟨rfl, rfl, rfl⟩ := thr_of hp hne e h rfl
      exact dull I hp rfl (by first | exact Or.inl rfl | exact Or.inr rfl) rfl rfl rfl (fun _ => Or.inl rfl) rfl know (by simp) (by simp)
    | @popChanged j s hd t p em st h _ =>
      obtain ⟨rfl, rfl, rfl⟩ := thr_of hp hne e h rfl
      exact dull I hp rfl (by first | exact Or.inl rfl | exact Or.inr rfl) rfl rfl rfl (fun _ => Or.inl rfl) rfl know (by simp) (by simp)
    | @popNull j s hd t p em st h _ =>
      obtain ⟨rfl, rfl, rfl⟩ := thr_of hp hne e h rfl
      exact dull I hp rfl (by first | exact Or.inl rfl | exact Or.inr rfl) rfl rfl rfl (fun _ => Or.inl rfl) rfl know (by simp) (by simp)
    | @popFix j s hd t p em st h _ _ _ =>
      obtain ⟨rfl, rfl, rfl⟩ := thr_of hp hne e h rfl
      exact dull I hp rfl (by first | exact Or.inl rfl | exact Or.inr rfl) rfl rfl rfl (fun _ => Or.inl rfl) rfl know (by simp) (by simp)
    | @popFail j s hd t p em st h _ _ _ =>
      obtain ⟨rfl, rfl, rfl⟩ := thr_of hp hne e h rfl
      exact dull I hp rfl (by first | exact Or.inl rfl | exact Or.inr rfl) rfl rfl rfl (fun _ => Or.inl rfl) rfl know (by simp) (by simp)
    | @fixGo j s hd c h _ _ => exact (I0.thr _ _ h).elim
    | @fixEnd j s hd c h _ => exact (I0.thr _ _ h).elim
    | @fixNext j s n hd c h _ _ => exact (I0.thr _ _ h).elim
    | @fixPrev j s n hd c m h _ _ => exact (I0.thr _ _ h).elim
    | @fixFault j s hd c h _ => exact (I0.thr _ _ h).elim
    | @fixFault' j s hd c m h _ => exact (I0.thr _ _ h).elim
    | @free j l _ _ _ =>
      have : (z.sys.thrs.set i q)[i]? = some q := thr_new hp
      rw [← e] at this
      exact absurd (Option.some.inj (hp.symm.trans this)) hne
    | @pushCas j s n t h ht =>
      obtain ⟨rfl, rfl, rfl⟩ := thr_of hp hne e h rfl
      have L := I.len
      have hpl := I0.head.lt
      have hP : (if (z.sys.chain ++ [n]).length ≠ z.sys.chain.length then z.pushes ++ [z.knows j] else z.pushes) = z.pushes ++ [z.knows j] := by simp
      have old : ∀ {a : Nat}, a + 1 < z.sys.chain.length → (((if (z.sys.chain ++ [n]).length ≠ z.sys.chain.length then z.pushes ++ [z.knows j] else z.pushes)[a]?).getD []) = pushed z a := by
        intro a ha
        rw [hP, List.getElem?_append_left (by omega)]
        rfl
      refine ⟨by simp only [hP]; simp; omega, by simpa using I.pops, ?_, ?_, ?_⟩
      · intro a n' ha hf hn u hu
        rcases Nat.lt_trichotomy (a + 1) z.sys.chain.length with hl | hl | hl
        · simp only [pushed, old hl] at hu
          exact I.prevs a n' (by rw [← ha]; exact (List.getElem?_append_left (by omega)).symm) hf hn u hu
        · exfalso
          have ha' : z.sys.chain[a]? = some n' := by rw [← ha]; exact (List.getElem?_append_left (by omega)).symm
          rcases I0.prevs a n' ha' hf with ⟨h, _⟩ | ⟨m, hm, _⟩
          · exact hn (by simp only [h]; rfl)
          · have := (List.getElem?_eq_some_iff.1 hm).1
            omega
        · simp only [pushed, hP] at hu
          rw [List.getElem?_eq_none (by simp; omega)] at hu
          simp at hu
      · intro i r t' b hi hs hb hf u hu
        rcases thr_set hi with ⟨rfl, rfl⟩ | ⟨ne, hi⟩
        · simp only [sees, Option.some.injEq] at hs
          subst hs
          have ht' : At w (z.sys.chain ++ [n]) (z.sys.chain.length - 1) t := by
            rw [← ht]
            exact I0.tail.mono fun a m hm => by rw [List.getElem?_append_left (List.getElem?_eq_some_iff.1 hm).1]; exact hm
          have hf' : z.sys.chain.length - 1 ∉ z.sys.freed := fun h => by have := I0.freed _ h; omega
          obtain rfl : b = z.sys.chain.length - 1 := At.uniq I1 hb ht' hf hf'
          refine know i u ?_
          simp only [pushed, hP] at hu
          rw [show z.sys.chain.length - 1 = z.pushes.length by omega] at hu
          simpa using hu
        · obtain ⟨b0, h0, f0, l0⟩ := seen I0 hi hs
          have h0' : At w (z.sys.chain ++ [n]) b0 t' := h0.mono fun a m hm => by rw [List.getElem?_append_left (List.getElem?_eq_some_iff.1 hm).1]; exact hm
          obtain rfl : b = b0 := At.uniq I1 hb h0' hf f0
          simp only [pushed, old l0] at hu
          exact know i u (I.thr i r t' b hi hs h0 f0 u hu)
      · intro k c hk u hu
        simp only [ne_eq, not_true_eq_false, if_false] at hk
        have hlt := (List.getElem?_eq_some_iff.1 hk).1
        have hpo := I.pops
        simp only [pushed, old (show k + 1 < z.sys.chain.length by omega)] at hu
        exact I.log k c hk u hu
    | @pushPrev j s n m t h hm _ =>
      obtain ⟨rfl, rfl, rfl⟩ := thr_of hp hne e h rfl
      have hC : publishPrev o z.prevC (z.knows j) (.pu4 s n t) .idle = upd z.prevC m (z.knows j) := by simp [publishPrev, hm, h1]
      have same : ∀ a, (((if z.sys.chain.length ≠ z.sys.chain.length then z.pushes ++ [z.knows j] else z.pushes)[a]?).getD []) = pushed z a := fun a => by simp [pushed]
      refine ⟨by simpa using I.len, by simpa using I.pops, ?_, ?_, ?_⟩
      · intro a n' ha hf hn u hu
        simp only [pushed, same] at hu
        simp only [hC]
        by_cases e' : n' = m
        · subst e'
          rw [upd_self]
          obtain ⟨b, hb, fb, _⟩ := seen I0 hp (t := t) rfl
          obtain ⟨x, hx, et⟩ := hb
          have : x = n' := by rw [et] at hm; exact Option.some.inj hm
          subst this
          obtain rfl := I0.uniq a b x ha hx hf fb
          exact I.thr j _ t a hp rfl ⟨x, hx, et⟩ fb u hu
        · rw [upd_ne _ _ e']
          exact I.prevs a n' ha hf (by simpa [ConcQueue.upd, e'] using hn) u hu
      · intro i r t' b hi hs hb hf u hu
        simp only [pushed, same] at hu
        rcases thr_set hi with ⟨rfl, rfl⟩ | ⟨ne, hi⟩
        · simp [sees] at hs
        · exact know i u (I.thr i r t' b hi hs hb hf u hu)
      · intro k c hk u hu
        simp only [ne_eq, not_true_eq_false, if_false] at hk
        simp only [pushed, same] at hu
        exact I.log k c hk u hu
    | @popPrev j s n hd t em h hn _ =>
      obtain ⟨rfl, rfl, rfl⟩ := thr_of hp hne e h rfl
      have same : ∀ a, (((if z.sys.chain.length ≠ z.sys.chain.length then z.pushes ++ [z.knows j] else z.pushes)[a]?).getD []) = pushed z a := fun a => by simp [pushed]
      refine ⟨by simpa using I.len, by simpa using I.pops, ?_, ?_, ?_⟩
      · intro a n' ha hf hv u hu
        simp only [pushed, same] at hu
        exact I.prevs a n' ha hf hv u hu
      · intro i r t' b hi hs hb hf u hu
        simp only [pushed, same] at hu
        rcases thr_set hi with ⟨rfl, rfl⟩ | ⟨ne, hi⟩
        · simp only [sees] at hs
          split at hs
          · simp at hs
          · rename_i hv
            obtain rfl := Option.some.inj hs
            obtain ⟨x, hx, et⟩ := hb
            have : x = n := by rw [et] at hn; exact Option.some.inj hn
            subst this
            have := I.prevs b x hx hf hv u hu
            simp only [upd_self, learn, hn, h2, if_true]
            exact List.mem_append_right _ this
        · exact know i u (I.thr i r t' b hi hs hb hf u hu)
      · intro k c hk u hu
        simp only [ne_eq, not_true_eq_false, if_false] at hk
        simp only [pushed, same] at hu
        exact I.log k c hk u hu
    | @popCas j s m hd t p em st h hm _ _ hh =>
      obtain ⟨rfl, rfl, rfl⟩ := thr_of hp hne e h rfl
      have same : ∀ a, (((if z.sys.chain.length ≠ z.sys.chain.length then z.pushes ++ [z.knows j] else z.pushes)[a]?).getD []) = pushed z a := fun a => by simp [pushed]
      have hO : (if (z.sys.popped ++ [m]).length ≠ z.sys.popped.length then z.pops ++ [z.knows j] else z.pops) = z.pops ++ [z.knows j] := by simp
      refine ⟨by simpa using I.len, by simp only [hO]; simp [I.pops], ?_, ?_, ?_⟩
      · intro a n' ha hf hv u hu
        simp only [pushed, same] at hu
        exact I.prevs a n' ha hf hv u hu
      · intro i r t' b hi hs hb hf u hu
        simp only [pushed, same] at hu
        rcases thr_set hi with ⟨rfl, rfl⟩ | ⟨ne, hi⟩
        · simp [sees] at hs
        · exact know i u (I.thr i r t' b hi hs hb hf u hu)
      · intro k c hk u hu
        simp only [pushed, same] at hu
        simp only [hO] at hk
        by_cases e' : k < z.pops.length
        · rw [List.getElem?_append_left e'] at hk
          exact I.log k c hk u hu
        · have hlt := (List.getElem?_eq_some_iff.1 hk).1
          simp at hlt
          obtain rfl : k = z.pops.length := by omega
          simp at hk
          subst hk
          rw [I.pops] at hu
          refine I.thr j _ hd z.sys.popped.length hp (by simp [sees, hm]) (hh ▸ I0.head) (fun h => ?_) u hu
          have := I0.freed _ h
          omega

theorem Reach.sys {o : Orders} {w n : Nat} {z : W} (h : Reach o w n z) : ConcQueue.Reach w n z.sys := by
  induction h with
  | init => exact .init
  | step _ s ih =>
    cases s with
    | work _ => exact ih
    | free h1 h2 h3 => exact ih.step (.free h1 h2 h3)
    | move _ s _ _ => exact ih.step s

theorem Reach.inv {o : Orders} {w n : Nat} {z : W} (h1 : o.prevRel = true) (h2 : o.prevAcq = true) (h : Reach o w n z) : WInv w z := by
  induction h with
  | init =>
    refine ⟨rfl, rfl, fun a n ha hf hn => absurd rfl hn, fun i p t b hi hs => ?_, fun k c hk => by simp [QueueWeak.init] at hk⟩
    simp only [QueueWeak.init, ConcQueue.init, List.getElem?_replicate] at hi
    split at hi
    · rw [← Option.some.inj hi] at hs
      simp [sees] at hs
    · simp at hi
  | step r s ih => exact ih.step h1 h2 r.sys.inv (r.step s).sys.inv s

/-- Thread 0 does something, pushes a node, and thread 1 pops it. -/
theorem handed (o : Orders) : ∃ z, Reach o (2 ^ 32) 2 z ∧ z.pushes = [[0]] ∧ z.pops = [if o.prevRel = true ∧ o.prevAcq = true then [0] else []] := by
  have r := Reach.init (o := o) (w := 2 ^ 32) (n := 2)
  rcases o with ⟨a, b, c, d⟩
  cases a <;> cases b <;> cases c <;> cases d
  all_goals
    have r := r.step (.work (i := 0) rfl)
    have r := r.step (.move (i := 0) rfl (.pushBegin (i := 0) (n := 1) rfl (by decide)) rfl (by decide))
    have r := r.step (.move (i := 0) rfl (.pushLoad (i := 0) rfl) rfl (by decide))
    have r := r.step (.move (i := 0) rfl (.pushNext (i := 0) rfl) rfl (by decide))
    have r := r.step (.move (i := 0) rfl (.pushCas (i := 0) rfl rfl) rfl (by decide))
    have r := r.step (.move (i := 0) rfl (.pushPrev (i := 0) (m := 0) rfl rfl (by decide)) rfl (by decide))
    have r := r.step (.move (i := 1) rfl (.popBegin (i := 1) rfl) rfl (by decide))
    have r := r.step (.move (i := 1) rfl (.popHead (i := 1) rfl) rfl (by decide))
    have r := r.step (.move (i := 1) rfl (.popTail (i := 1) rfl) rfl (by decide))
    have r := r.step (.move (i := 1) rfl (.popPrev (i := 1) (n := 0) rfl rfl (by decide)) rfl (by decide))
    have r := r.step (.move (i := 1) rfl (.popSame (i := 1) rfl rfl) rfl (by decide))
    have r := r.step (.move (i := 1) rfl (.popCas (i := 1) (m := 1) rfl rfl (by decide) rfl rfl) rfl (by decide))
    refine ⟨_, r, ?_⟩
    decide

/-- **C136.**  Everything that was done before a node was pushed happened before its pop returns, in every execution of any number of threads, exactly if the store of `prev` (128) is a release and the load of it (156) an acquire. -/
theorem C136_orders_partial (o : Orders) :
    (∀ n z, Reach o (2 ^ 32) n z → ∀ (k : Nat) (a b : List Nat), z.pushes[k]? = some a → z.pops[k]? = some b → ∀ u ∈ a, u ∈ b) ↔ (o.prevRel = true ∧ o.prevAcq = true) := by
  constructor
  · intro h
    obtain ⟨z, r, h1, h2⟩ := handed o
    have := h 2 z r 0 [0] _ (by rw [h1]; rfl) (by rw [h2]; rfl) 0 (List.mem_singleton_self _)
    split at this
    · assumption
    · simp at this
  · rintro ⟨h1, h2⟩ n z r k a b ha hb u hu
    refine (r.inv h1 h2).log k b hb u ?_
    unfold pushed
    rw [ha]
    exact hu

/-- **C136 fails** for the code: the load of `prev` (156) is relaxed. -/
theorem C136_refuted : ∃ z, Reach code (2 ^ 32) 2 z ∧ ∃ (k u : Nat) (a b : List Nat), z.pushes[k]? = some a ∧ z.pops[k]? = some b ∧ u ∈ a ∧ u ∉ b := by
  obtain ⟨z, r, h1, h2⟩ := handed code
  exact ⟨z, r, 0, 0, [0], [], by rw [h1]; rfl, by rw [h2]; rfl, List.mem_singleton_self _, by simp⟩

/-- With an acquire in place of the relaxed load the pop knows. -/
example : ∃ z, Reach ⟨true, true, true, true⟩ (2 ^ 32) 2 z ∧ z.pushes = [[0]] ∧ z.pops = [[0]] := handed _

/-- **C136**, with the load of `prev` made an acquire and all other orders of the code. -/
theorem C136_repaired_partial (n : Nat) (z : W) (r : Reach { code with prevAcq := true } (2 ^ 32) n z) (k : Nat) (a b : List Nat) (ha : z.pushes[k]? = some a) (hb : z.pops[k]? = some b) : ∀ u ∈ a, u ∈ b :=
  (C136_orders_partial _).2 ⟨rfl, rfl⟩ n z r k a b ha hb

/-! Things done have distinct numbers. -/

theorem publishPrev_mem {o : Orders} {c : Nat → List Nat} {k : List Nat} {p q : PC} {n u : Nat} : u ∈ publishPrev o c k p q n → u ∈ c n ∨ u ∈ k := by
  have up : ∀ (a : Nat) (k' : List Nat), (∀ u ∈ k', u ∈ k) → u ∈ upd c a k' n → u ∈ c n ∨ u ∈ k := by
    intro a k' hk hu
    by_cases e : n = a
    · subst e
      rw [upd_self] at hu
      exact Or.inr (hk u hu)
    · rw [upd_ne _ _ e] at hu
      exact Or.inl hu
  unfold publishPrev
  split
  · rename_i t
    rcases t with ⟨_ | m, tg⟩
    · exact Or.inl
    · refine up m _ fun u hu => ?_
      split at hu
      · exact hu
      · simp at hu
  · rename_i m _ _ _
    rcases m with ⟨_ | m, tg⟩
    · exact Or.inl
    · exact up m _ fun u hu => hu
  · exact Or.inl

structure Fresh (z : W) : Prop where
  prevC : ∀ n, ∀ u ∈ z.prevC n, u < z.events
  headC : ∀ u ∈ z.headC, u < z.events
  knows : ∀ i, ∀ u ∈ z.knows i, u < z.events

theorem Fresh.step {o : Orders} {w : Nat} {z z' : W} (F : Fresh z) (s : Step o w z z') : Fresh z' := by
  cases s with
  | @work i _ =>
    refine ⟨fun n u hu => Nat.lt_succ_of_lt (F.prevC n u hu), fun u hu => Nat.lt_succ_of_lt (F.headC u hu), fun j u hu => ?_⟩
    by_cases e : j = i
    · subst e
      simp only [upd_self] at hu
      rcases List.mem_append.1 hu with h | h
      · exact Nat.lt_succ_of_lt (F.knows j u h)
      · rw [List.mem_singleton.1 h]
        exact Nat.lt_succ_self _
    · simp only [upd_ne _ _ e] at hu
      exact Nat.lt_succ_of_lt (F.knows j u hu)
  | free _ _ _ => exact ⟨F.prevC, F.headC, F.knows⟩
  | @move i p q y _ _ _ _ =>
    refine ⟨fun n u hu => ?_, fun u hu => ?_, fun j u hu => ?_⟩
    · rcases publishPrev_mem hu with h | h
      · exact F.prevC n u h
      · exact F.knows i u h
    · simp only [] at hu
      split at hu
      · rcases List.mem_append.1 hu with h | h
        · exact F.headC u h
        · exact F.knows i u h
      · exact F.headC u hu
    · by_cases e : j = i
      · subst e
        simp only [upd_self, learn] at hu
        split at hu
        · split at hu
          · split at hu
            · rcases List.mem_append.1 hu with h | h
              · exact F.knows j u h
              · exact F.prevC _ u h
            · exact F.knows j u hu
          · exact F.knows j u hu
        · split at hu
          · rcases List.mem_append.1 hu with h | h
            · exact F.knows j u h
            · exact F.headC u h
          · exact F.knows j u hu
        · exact F.knows j u hu
      · simp only [upd_ne _ _ e] at hu
        exact F.knows j u hu

/-- The next thing done is known to nobody before. -/
theorem C136_distinct {o : Orders} {w n : Nat} {z : W} (h : Reach o w n z) : ∀ i, z.events ∉ z.knows i := by
  have F : Fresh z := by
    induction h with
    | init => exact ⟨fun n u hu => by simp [QueueWeak.init] at hu, fun u hu => by simp [QueueWeak.init] at hu, fun i u hu => by simp [QueueWeak.init] at hu⟩
    | step _ s ih => exact ih.step s
  exact fun i h => Nat.lt_irrefl _ (F.knows i _ h)

/-! The pops are ordered by `head`. -/

structure HInv (w : Nat) (z : W) : Prop where
  pops : z.pops.length = z.sys.popped.length
  head : ∀ (k : Nat) (c : List Nat), z.pops[k]? = some c → ∀ u ∈ c, u ∈ z.headC
  thr : ∀ (i s : Nat) (h t p : Ptr) (em st : Bool) (a : Nat), z.sys.thrs[i]? = some (.po4 s h t p em st) → At w z.sys.chain a h → a ∉ z.sys.freed →
    ∀ (k : Nat) (c : List Nat), k < a → z.pops[k]? = some c → ∀ u ∈ c, u ∈ z.knows i
  log : ∀ (k l : Nat) (c d : List Nat), k < l → z.pops[k]? = some c → z.pops[l]? = some d → ∀ u ∈ c, u ∈ d

/-- A move that is neither a pop's exchange nor its second load of `head`. -/
theorem hdull {w : Nat} {z z' : W} (H : HInv w z) (I0 : ConcQueue.Inv w z.sys) (I1 : ConcQueue.Inv w z'.sys) {i : Nat} {p q : PC} (hp : z.sys.thrs[i]? = some p) (ht : z'.sys.thrs = z.sys.thrs.set i q)
    (hq : ∀ s h t p em st, q ≠ .po4 s h t p em st) (hc : ∀ (a n : Nat), z.sys.chain[a]? = some n → z'.sys.chain[a]? = some n) (ho : z'.sys.popped = z.sys.popped) (hf : z'.sys.freed = z.sys.freed) (hC : z'.headC = z.headC)
    (hk : ∀ j, ∀ u ∈ z.knows j, u ∈ z'.knows j) (hO : z'.pops = z.pops) : HInv w z' := by
  refine ⟨by rw [hO, ho]; exact H.pops, by rw [hO, hC]; exact H.head, ?_, by rw [hO]; exact H.log⟩
  intro j s h t r em st a hj ha hfa k c hka hkc u hu
  rw [ht] at hj
  rcases thr_set hj with ⟨_, e⟩ | ⟨_, hj⟩
  · exact absurd e.symm (hq _ _ _ _ _ _)
  · obtain ⟨b, _, h1, h2, _⟩ := I0.thr j _ hj
    obtain rfl : a = b := At.uniq I1 ha (h1.mono hc) hfa (by rw [hf]; exact h2.1)
    rw [hO] at hkc
    exact hk j u (H.thr j s h t r em st a hj h1 h2.1 k c hka hkc u hu)

theorem HInv.step {o : Orders} {w : Nat} {z z' : W} (h1 : o.headRel = true) (h2 : o.headAcq = true) (I0 : ConcQueue.Inv w z.sys) (I1 : ConcQueue.Inv w z'.sys) (H : HInv w z) (s : Step o w z z') : HInv w z' := by
  cases s with
  | @work i ht =>
    refine ⟨H.pops, H.head, fun j s h t p em st a hj ha hf k c hk hc u hu => ?_, H.log⟩
    have h := H.thr j s h t p em st a hj ha hf k c hk hc u hu
    by_cases e : j = i
    · subst e
      simp only [upd_self]
      exact List.mem_append_left _ h
    · simp only [upd_ne _ _ e]
      exact h
  | @free j l _ _ _ =>
    exact ⟨H.pops, H.head, fun i s h t p em st a hi ha hf => H.thr i s h t p em st a hi ha (fun h => hf (List.mem_cons_of_mem _ h)), H.log⟩
  | @move i p q y hp hs e hne =>
    have know : ∀ j, ∀ u ∈ z.knows j, u ∈ upd z.knows i (learn o z (z.knows i) p q) j := by
      intro j u hu
      by_cases e : j = i
      · subst e
        rw [upd_self]
        exact learn_mono _ _ _ _ _ u hu
      · rw [upd_ne _ _ e]
        exact hu
    cases hs with
    | @pushBegin j n h _ =>
      obtain ⟨rfl, rfl, rfl⟩ := thr_of hp hne e h rfl
      exact hdull H I0 I1 hp rfl (by simp) (fun _ _ h => h) rfl rfl (by simp) know (by simp)
    | @pushLoad j s n h =>
      obtain ⟨rfl, rfl, rfl⟩ := thr_of hp hne e h rfl
      exact hdull H I0 I1 hp rfl (by simp) (fun _ _ h => h) rfl rfl (by simp) know (by simp)
    | @pushNext j s n t h =>
      obtain ⟨rfl, rfl, rfl⟩ := thr_of hp hne e h rfl
      exact hdull H I0 I1 hp rfl (by simp) (fun _ _ h => h) rfl rfl (by simp) know (by simp)
    | @pushFail j s n t h =>
      obtain ⟨rfl, rfl, rfl⟩ := thr_of hp hne e h rfl
      exact hdull H I0 I1 hp rfl (by simp) (fun _ _ h => h) rfl rfl (by simp) know (by simp)
    | @pushFault j s n t h _ =>
      obtain ⟨rfl, rfl, rfl⟩ := thr_of hp hne e h rfl
      exact hdull H I0 I1 hp rfl (by simp) (fun _ _ h => h) rfl rfl (by simp) know (by simp)
    | @pushPrev j s n m t h _ _ =>
      obtain ⟨rfl, rfl, rfl⟩ := thr_of hp hne e h rfl
      exact hdull H I0 I1 hp rfl (by simp) (fun _ _ h => h) rfl rfl (by simp) know (by simp)
    | @popBegin j h =>
      obtain ⟨rfl, rfl, rfl⟩ := thr_of hp hne e h rfl
      exact hdull H I0 I1 hp rfl (by simp) (fun _ _ h => h) rfl rfl (by simp) know (by simp)
    | @popHead j s h =>
      obtain ⟨rfl, rfl, rfl⟩ := thr_of hp hne e h rfl
      exact hdull H I0 I1 hp rfl (by simp) (fun _ _ h => h) rfl rfl (by simp) know (by simp)
    | @popTail j s hd h =>
      obtain ⟨rfl, rfl, rfl⟩ := thr_of hp hne e h rfl
      exact hdull H I0 I1 hp rfl (by simp) (fun _ _ h => h) rfl rfl (by simp) know (by simp)
    | @popPrev j s n hd t em h _ _ =>
      obtain ⟨rfl, rfl, rfl⟩ := thr_of hp hne e h rfl
      exact hdull H I0 I1 hp rfl (by simp) (fun _ _ h => h) rfl rfl (by simp) know (by simp)
    | @popFault j s hd t em h _ =>
      obtain ⟨rfl, rfl, rfl⟩ := thr_of hp hne e h rfl
      exact hdull H I0 I1 hp rfl (by simp) (fun _ _ h => h) rfl rfl (by simp) know (by simp)
    | @popChanged j s hd t p em st h _ =>
      obtain ⟨rfl, rfl, rfl⟩ := thr_of hp hne e h rfl
      exact hdull H I0 I1 hp rfl (by simp) (fun _ _ h => h) rfl rfl (by simp) know (by simp)
    | @popNull j s hd t p em st h _ =>
      obtain ⟨rfl, rfl, rfl⟩ := thr_of hp hne e h rfl
      exact hdull H I0 I1 hp rfl (by simp) (fun _ _ h => h) rfl rfl (by simp) know (by simp)
    | @popFix j s hd t p em st h _ _ _ =>
      obtain ⟨rfl, rfl, rfl⟩ := thr_of hp hne e h rfl
      exact hdull H I0 I1 hp rfl (by simp) (fun _ _ h => h) rfl rfl (by simp) know (by simp)
    | @popFail j s hd t p em st h _ _ _ =>
      obtain ⟨rfl, rfl, rfl⟩ := thr_of hp hne e h rfl
      exact hdull H I0 I1 hp rfl (by simp) (fun _ _ h => h) rfl rfl (by simp) know (by simp)
    | @fixGo j s hd c h _ _ => exact (I0.thr _ _ h).elim
    | @fixEnd j s hd c h _ => exact (I0.thr _ _ h).elim
    | @fixNext j s n hd c h _ _ => exact (I0.thr _ _ h).elim
    | @fixPrev j s n hd c m h _ _ => exact (I0.thr _ _ h).elim
    | @fixFault j s hd c h _ => exact (I0.thr _ _ h).elim
    | @fixFault' j s hd c m h _ => exact (I0.thr _ _ h).elim
    | @free j l _ _ _ =>
      have : (z.sys.thrs.set i q)[i]? = some q := thr_new hp
      rw [← e] at this
      exact absurd (Option.some.inj (hp.symm.trans this)) hne
    | @pushCas j s n t h ht =>
      obtain ⟨rfl, rfl, rfl⟩ := thr_of hp hne e h rfl
      exact hdull H I0 I1 hp rfl (by simp) (fun a m hm => by simp only []; rw [List.getElem?_append_left (List.getElem?_eq_some_iff.1 hm).1]; exact hm) rfl rfl (by simp) know (by simp)
    | @popSame j s hd t p em st h hh =>
      obtain ⟨rfl, rfl, rfl⟩ := thr_of hp hne e h rfl
      have hO : (if z.sys.popped.length ≠ z.sys.popped.length then z.pops ++ [z.knows j] else z.pops) = z.pops := by simp
      have hC : (if z.sys.popped.length ≠ z.sys.popped.length ∧ o.headRel = true then z.headC ++ z.knows j else z.headC) = z.headC := by simp
      refine ⟨by simp only [hO]; exact H.pops, by simp only [hO, hC]; exact H.head, ?_, by simp only [hO]; exact H.log⟩
      simp only [hO]
      intro i s' h' t' p' em' st' a hi ha hf k c hk hc u hu
      rcases thr_set hi with ⟨rfl, _⟩ | ⟨ne, hi⟩
      · simp only [upd_self, learn, h2, if_true]
        exact List.mem_append_right _ (H.head k c hc u hu)
      · exact know i u (H.thr i s' h' t' p' em' st' a hi ha hf k c hk hc u hu)
    | @popCas j s m hd t p em st h hm _ _ hh =>
      obtain ⟨rfl, rfl, rfl⟩ := thr_of hp hne e h rfl
      have hO : (if (z.sys.popped ++ [m]).length ≠ z.sys.popped.length then z.pops ++ [z.knows j] else z.pops) = z.pops ++ [z.knows j] := by simp
      have hC : (if (z.sys.popped ++ [m]).length ≠ z.sys.popped.length ∧ o.headRel = true then z.headC ++ z.knows j else z.headC) = z.headC ++ z.knows j := by simp [h1]
      have hfr : z.sys.popped.length ∉ z.sys.freed := fun h => by have := I0.freed _ h; omega
      have hlen := H.pops
      refine ⟨by simp only [hO]; simp [H.pops], ?_, ?_, ?_⟩
      · simp only [hO, hC]
        intro k c hc u hu
        by_cases e' : k < z.pops.length
        · rw [List.getElem?_append_left e'] at hc
          exact List.mem_append_left _ (H.head k c hc u hu)
        · have hlt := (List.getElem?_eq_some_iff.1 hc).1
          simp at hlt
          obtain rfl : k = z.pops.length := by omega
          simp at hc
          subst hc
          exact List.mem_append_right _ hu
      · simp only [hO]
        intro i s' h' t' p' em' st' a hi ha hf k c hk hc u hu
        rcases thr_set hi with ⟨_, e⟩ | ⟨ne, hi⟩
        · simp at e
        · obtain ⟨b, hb, g1, g2, _⟩ := I0.thr i _ hi
          obtain rfl : a = b := At.uniq I0 ha g1 hf g2.1
          rw [List.getElem?_append_left (by omega)] at hc
          exact know i u (H.thr i s' h' t' p' em' st' a hi ha hf k c hk hc u hu)
      · simp only [hO]
        intro k l c d hkl hc hd' u hu
        by_cases e' : l < z.pops.length
        · rw [List.getElem?_append_left e'] at hd'
          rw [List.getElem?_append_left (by omega)] at hc
          exact H.log k l c d hkl hc hd' u hu
        · have hlt := (List.getElem?_eq_some_iff.1 hd').1
          simp at hlt
          obtain rfl : l = z.pops.length := by omega
          rw [List.getElem?_append_left (by omega)] at hc
          simp at hd'
          subst hd'
          exact H.thr j s hd t p em st z.sys.popped.length hp (hh ▸ I0.head) hfr k c (by omega) hc u hu

/-- Thread 0 does something, thread 2 pushes two nodes, thread 0 pops the first one and thread 1 the second one. -/
theorem popped (o : Orders) : ∃ z, Reach o (2 ^ 32) 3 z ∧ z.pops[0]? = some [0] ∧ z.pops[1]? = some (if o.headRel = true ∧ o.headAcq = true then [0] else []) := by
  have r := Reach.init (o := o) (w := 2 ^ 32) (n := 3)
  rcases o with ⟨a, b, c, d⟩
  cases a <;> cases b <;> cases c <;> cases d
  all_goals
    have r := r.step (.work (i := 0) rfl)
    have r := r.step (.move (i := 2) rfl (.pushBegin (i := 2) (n := 1) rfl (by decide)) rfl (by decide))
    have r := r.step (.move (i := 2) rfl (.pushLoad (i := 2) rfl) rfl (by decide))
    have r := r.step (.move (i := 2) rfl (.pushNext (i := 2) rfl) rfl (by decide))
    have r := r.step (.move (i := 2) rfl (.pushCas (i := 2) rfl rfl) rfl (by decide))
    have r := r.step (.move (i := 2) rfl (.pushPrev (i := 2) (m := 0) rfl rfl (by decide)) rfl (by decide))
    have r := r.step (.move (i := 2) rfl (.pushBegin (i := 2) (n := 2) rfl (by decide)) rfl (by decide))
    have r := r.step (.move (i := 2) rfl (.pushLoad (i := 2) rfl) rfl (by decide))
    have r := r.step (.move (i := 2) rfl (.pushNext (i := 2) rfl) rfl (by decide))
    have r := r.step (.move (i := 2) rfl (.pushCas (i := 2) rfl rfl) rfl (by decide))
    have r := r.step (.move (i := 2) rfl (.pushPrev (i := 2) (m := 1) rfl rfl (by decide)) rfl (by decide))
    have r := r.step (.move (i := 0) rfl (.popBegin (i := 0) rfl) rfl (by decide))
    have r := r.step (.move (i := 0) rfl (.popHead (i := 0) rfl) rfl (by decide))
    have r := r.step (.move (i := 0) rfl (.popTail (i := 0) rfl) rfl (by decide))
    have r := r.step (.move (i := 0) rfl (.popPrev (i := 0) (n := 0) rfl rfl (by decide)) rfl (by decide))
    have r := r.step (.move (i := 0) rfl (.popSame (i := 0) rfl rfl) rfl (by decide))
    have r := r.step (.move (i := 0) rfl (.popCas (i := 0) (m := 1) rfl rfl (by decide) rfl rfl) rfl (by decide))
    have r := r.step (.move (i := 1) rfl (.popBegin (i := 1) rfl) rfl (by decide))
    have r := r.step (.move (i := 1) rfl (.popHead (i := 1) rfl) rfl (by decide))
    have r := r.step (.move (i := 1) rfl (.popTail (i := 1) rfl) rfl (by decide))
    have r := r.step (.move (i := 1) rfl (.popPrev (i := 1) (n := 1) rfl rfl (by decide)) rfl (by decide))
    have r := r.step (.move (i := 1) rfl (.popSame (i := 1) rfl rfl) rfl (by decide))
    have r := r.step (.move (i := 1) rfl (.popCas (i := 1) (m := 2) rfl rfl (by decide) rfl rfl) rfl (by decide))
    refine ⟨_, r, ?_⟩
    decide

/-- **C136, pops.**  Everything that happened before a pop happened before every later pop, in every execution of any number of threads, exactly if the exchange of `head` (168) is a release and the second load of `head` (158) an acquire, as in the code. -/
theorem C136_pops (o : Orders) :
    (∀ n z, Reach o (2 ^ 32) n z → ∀ (k l : Nat) (a b : List Nat), k < l → z.pops[k]? = some a → z.pops[l]? = some b → ∀ u ∈ a, u ∈ b) ↔ (o.headRel = true ∧ o.headAcq = true) := by
  constructor
  · intro h
    obtain ⟨z, r, e1, e2⟩ := popped o
    have := h 3 z r 0 1 _ _ Nat.zero_lt_one e1 e2 0 (List.mem_singleton_self _)
    split at this
    · assumption
    · simp at this
  · rintro ⟨h1, h2⟩ n z r
    have H : HInv (2 ^ 32) z := by
      induction r with
      | init =>
        refine ⟨rfl, fun k c hk => by simp [QueueWeak.init] at hk, fun i s h t p em st a hi => ?_, fun k l c d _ hk => by simp [QueueWeak.init] at hk⟩
        simp only [QueueWeak.init, ConcQueue.init, List.getElem?_replicate] at hi
        split at hi
        · simp at hi
        · simp at hi
      | step r s ih => exact ih.step h1 h2 r.sys.inv (r.step s).sys.inv s
    exact H.log

/-- The code's orders are such. -/
example : code.headRel = true ∧ code.headAcq = true := ⟨rfl, rfl⟩

end Verif.QueueWeak

#print axioms Verif.QueueWeak.C136_orders_partial
#print axioms Verif.QueueWeak.C136_refuted
#print axioms Verif.QueueWeak.C136_repaired_partial
#print axioms Verif.QueueWeak.C136_pops
