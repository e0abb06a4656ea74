import Verif.ConcQueue
/-!
# C20: the concurrent queue
-/
namespace Verif.ConcQueue

/-- `t` points to the node at position `a`. -/
def At (w : Nat) (c : List Nat) (a : Nat) (t : Ptr) : Prop := ∃ n, c[a]? = some n ∧ t = ⟨some n, a % w⟩

/-- The node at position `a` is not freed, and will not be as long as section `s` is in progress. -/
def Prot (y : Sys) (s a : Nat) : Prop := a ∉ y.freed ∧ ∀ l, y.retired[a]? = some l → s ∈ l

/-- What a thread has seen. -/
def TInv (w : Nat) (y : Sys) : PC → Prop
  | .idle | .pu1 _ _ | .po0 _ => True
  | .pu2 s _ t | .pu3 s _ t => ∃ b, At w y.chain b t ∧ Prot y s b
  | .pu4 s n t => ∃ b, At w y.chain b t ∧ Prot y s b ∧ y.chain[b + 1]? = some n
  | .po1 s h => ∃ a, a ≤ y.popped.length ∧ At w y.chain a h ∧ Prot y s a
  | .po2 s h t em => ∃ a, a ≤ y.popped.length ∧ At w y.chain a h ∧ Prot y s a ∧ (a = y.popped.length → t = h → em = true)
  | .po3 s h t p em st => ∃ a, a ≤ y.popped.length ∧ At w y.chain a h ∧ Prot y s a ∧ (a = y.popped.length → t = h → em = true) ∧
      ((p = null ∧ (a = y.popped.length → em = true ∨ st = true)) ∨ ∃ m, y.chain[a + 1]? = some m ∧ p = ⟨some m, a % w⟩)
  | .po4 s h t p em st => ∃ a, a ≤ y.popped.length ∧ At w y.chain a h ∧ Prot y s a ∧ (t = h → em = true) ∧
      ((p = null ∧ (em = true ∨ st = true)) ∨ ∃ m, y.chain[a + 1]? = some m ∧ p = ⟨some m, a % w⟩)
  | .fx1 _ _ _ | .fx2 _ _ _ | .fx3 _ _ _ _ | .fault => False

structure Inv (w : Nat) (y : Sys) : Prop where
  head : At w y.chain y.popped.length y.head
  tail : At w y.chain (y.chain.length - 1) y.tail
  pop : y.popped = y.chain.tail.take y.popped.length
  ret : y.retired.length = y.popped.length
  freed : ∀ j ∈ y.freed, j < y.popped.length
  uniq : ∀ (a b n : Nat), y.chain[a]? = some n → y.chain[b]? = some n → a ∉ y.freed → b ∉ y.freed → a = b
  own : ∀ (i : Nat) (p : PC) (n : Nat), y.thrs[i]? = some p → p.own? = some n →
    (∀ a : Nat, y.chain[a]? = some n → a ∈ y.freed) ∧ y.prev n = null ∧ ∀ (j : Nat) (q : PC), y.thrs[j]? = some q → j ≠ i → q.own? ≠ some n
  prevs : ∀ (a n : Nat), y.chain[a]? = some n → a ∉ y.freed →
    (y.prev n = null ∧ (a + 1 = y.chain.length ∨ ∃ (i s m : Nat), y.thrs[i]? = some (.pu4 s m ⟨some n, a % w⟩) ∧ y.chain[a + 1]? = some m)) ∨
    ∃ m, y.chain[a + 1]? = some m ∧ y.prev n = ⟨some m, a % w⟩
  thr : ∀ (i : Nat) (p : PC), y.thrs[i]? = some p → TInv w y p
  hist : ∀ p ∈ y.nulls, p.1 = true ∨ p.2 = true

theorem mem_live {y : Sys} {n : Nat} : n ∈ y.live ↔ (∃ a : Nat, y.chain[a]? = some n ∧ a ∉ y.freed) ∨ ∃ (i : Nat) (p : PC), y.thrs[i]? = some p ∧ p.own? = some n := by
  unfold Sys.live
  rw [List.mem_append]
  apply or_congr
  · rw [List.mem_filterMap]
    constructor
    · rintro ⟨a, ha, h⟩
      rw [List.mem_filter] at ha
      exact ⟨a, h, by simpa using ha.2⟩
    · rintro ⟨a, h, ha⟩
      refine ⟨a, ?_, h⟩
      rw [List.mem_filter, List.mem_range]
      exact ⟨(List.getElem?_eq_some_iff.1 h).1, by simpa using ha⟩
  · rw [List.mem_filterMap]
    constructor
    · rintro ⟨p, hp, h⟩
      obtain ⟨i, hi⟩ := List.mem_iff_getElem?.1 hp
      exact ⟨i, p, hi, h⟩
    · rintro ⟨i, p, hi, h⟩
      exact ⟨p, List.mem_iff_getElem?.2 ⟨i, hi⟩, h⟩

theorem mem_active {y : Sys} {s : Nat} : s ∈ y.active ↔ ∃ (i : Nat) (p : PC), y.thrs[i]? = some p ∧ p.sec? = some s := by
  unfold Sys.active
  rw [List.mem_filterMap]
  constructor
  · rintro ⟨p, hp, h⟩
    obtain ⟨i, hi⟩ := List.mem_iff_getElem?.1 hp
    exact ⟨i, p, hi, h⟩
  · rintro ⟨i, p, hi, h⟩
    exact ⟨p, List.mem_iff_getElem?.2 ⟨i, hi⟩, h⟩

theorem thr_set {l : List PC} {i j : Nat} {t t' : PC} (h : (l.set i t)[j]? = some t') : (j = i ∧ t' = t) ∨ (j ≠ i ∧ l[j]? = some t') := by
  by_cases e : j = i
  · subst e
    rw [List.getElem?_set] at h
    simp at h
    exact .inl ⟨rfl, h.2.symm⟩
  · rw [List.getElem?_set_ne (fun h => e h.symm)] at h
    exact .inr ⟨e, h⟩

theorem thr_new {l : List PC} {i : Nat} {t p : PC} (h : l[i]? = some p) : (l.set i t)[i]? = some t := by
  rw [List.getElem?_set]
  simp [(List.getElem?_eq_some_iff.1 h).1]

theorem thr_other {l : List PC} {i j : Nat} {t : PC} (h : j ≠ i) : (l.set i t)[j]? = l[j]? := List.getElem?_set_ne (fun e => h e.symm)

theorem At.mono {w : Nat} {c c' : List Nat} (hc : ∀ (a n : Nat), c[a]? = some n → c'[a]? = some n) {a : Nat} {t : Ptr} (h : At w c a t) : At w c' a t := by
  obtain ⟨n, h, e⟩ := h
  exact ⟨n, hc a n h, e⟩

theorem At.lt {w : Nat} {c : List Nat} {a : Nat} {t : Ptr} (h : At w c a t) : a < c.length := by
  obtain ⟨n, h, e⟩ := h
  exact (List.getElem?_eq_some_iff.1 h).1

/-- What a thread has seen stays true when the queue grows, nodes are popped, and nodes are freed that the thread's section does not protect. -/
theorem TInv.mono {w : Nat} {y y' : Sys} {p : PC} (h : TInv w y p) (hc : ∀ (a n : Nat), y.chain[a]? = some n → y'.chain[a]? = some n) (hh : y.popped.length ≤ y'.popped.length)
    (hp : ∀ s a, p.sec? = some s → a ≤ y.chain.length → Prot y s a → Prot y' s a) : TInv w y' p := by
  cases p with
  | idle | pu1 | po0 => trivial
  | fx1 | fx2 | fx3 | fault => exact h
  | pu2 s n t | pu3 s n t =>
    obtain ⟨b, h1, h2⟩ := h
    exact ⟨b, h1.mono hc, hp s b rfl (Nat.le_of_lt h1.lt) h2⟩
  | pu4 s n t =>
    obtain ⟨b, h1, h2, h3⟩ := h
    exact ⟨b, h1.mono hc, hp s b rfl (Nat.le_of_lt h1.lt) h2, hc _ _ h3⟩
  | po1 s h =>
    obtain ⟨a, h1, h2, h3⟩ := h
    exact ⟨a, by omega, h2.mono hc, hp s a rfl (Nat.le_of_lt h2.lt) h3⟩
  | po2 s h t em =>
    obtain ⟨a, h1, h2, h3, h4⟩ := h
    exact ⟨a, by omega, h2.mono hc, hp s a rfl (Nat.le_of_lt h2.lt) h3, fun e => h4 (by omega)⟩
  | po3 s h t q em st =>
    obtain ⟨a, h1, h2, h3, h4, h5⟩ := h
    refine ⟨a, by omega, h2.mono hc, hp s a rfl (Nat.le_of_lt h2.lt) h3, fun e => h4 (by omega), ?_⟩
    rcases h5 with ⟨e, h5⟩ | ⟨m, h5, e⟩
    · exact .inl ⟨e, fun e => h5 (by omega)⟩
    · exact .inr ⟨m, hc _ _ h5, e⟩
  | po4 s h t q em st =>
    obtain ⟨a, h1, h2, h3, h4, h5⟩ := h
    refine ⟨a, by omega, h2.mono hc, hp s a rfl (Nat.le_of_lt h2.lt) h3, h4, ?_⟩
    rcases h5 with h5 | ⟨m, h5, e⟩
    · exact .inl h5
    · exact .inr ⟨m, hc _ _ h5, e⟩

/-- A step that only moves a thread, not into or out of an exchange, and stores to a `next`. -/
theorem Inv.move {w : Nat} {y : Sys} (I : Inv w y) {i : Nat} {p p' : PC} {N : Nat → Ptr} {S : Nat} {L : List (Bool × Bool)} (hi : y.thrs[i]? = some p)
    (ho : ∀ n, p'.own? = some n → p.own? = some n) (hn : ∀ s n t, p ≠ .pu4 s n t) (ht : TInv w y p') (hL : ∀ p ∈ L, p.1 = true ∨ p.2 = true) :
    Inv w { y with next := N, thrs := y.thrs.set i p', secs := S, nulls := L } := by
  refine ⟨I.head, I.tail, I.pop, I.ret, I.freed, I.uniq, ?_, ?_, ?_, hL⟩
  · intro j q n hj hq
    have old : ∀ (j : Nat) (q : PC), (y.thrs.set i p')[j]? = some q → q.own? = some n → ∃ q', y.thrs[j]? = some q' ∧ q'.own? = some n := by
      intro j q hj hq
      rcases thr_set hj with ⟨rfl, rfl⟩ | ⟨-, hj⟩
      · exact ⟨p, hi, ho n hq⟩
      · exact ⟨q, hj, hq⟩
    obtain ⟨q', h1, h2⟩ := old j q hj hq
    obtain ⟨a1, a2, a3⟩ := I.own j q' n h1 h2
    refine ⟨a1, a2, fun j' r hj' hne hr => ?_⟩
    obtain ⟨r', h3, h4⟩ := old j' r hj' hr
    exact a3 j' r' h3 hne h4
  · intro a n ha hf
    rcases I.prevs a n ha hf with ⟨h1, h2⟩ | h
    · refine .inl ⟨h1, ?_⟩
      rcases h2 with h2 | ⟨j, s, m, h2, h3⟩
      · exact .inl h2
      · refine .inr ⟨j, s, m, ?_, h3⟩
        have : j ≠ i := by rintro rfl; rw [hi] at h2; cases h2; exact hn _ _ _ rfl
        exact (thr_other this).trans h2
    · exact .inr h
  · intro j q hj
    rcases thr_set hj with ⟨rfl, rfl⟩ | ⟨-, hj⟩
    · exact ht.mono (fun _ _ h => h) (Nat.le_refl _) (fun _ _ _ _ h => h)
    · exact (I.thr j q hj).mono (fun _ _ h => h) (Nat.le_refl _) (fun _ _ _ _ h => h)

theorem Inv.hd_lt {w : Nat} {y : Sys} (I : Inv w y) : y.popped.length < y.chain.length := I.head.lt

/-- The nodes that are not yet popped are protected. -/
theorem Inv.prot {w : Nat} {y : Sys} (I : Inv w y) (s : Nat) {a : Nat} (h : y.popped.length ≤ a) : Prot y s a := by
  refine ⟨fun hf => ?_, fun l hl => ?_⟩
  · have := I.freed a hf; omega
  · have := (List.getElem?_eq_some_iff.1 hl).1
    rw [I.ret] at this; omega

theorem Inv.pos_eq {w : Nat} {y : Sys} (I : Inv w y) {a b : Nat} {t : Ptr} (h : At w y.chain a t) (h' : At w y.chain b t) (ha : a ∉ y.freed) (hb : b ∉ y.freed) : a = b := by
  obtain ⟨n, h1, e1⟩ := h
  obtain ⟨m, h2, e2⟩ := h'
  have e : n = m := by simpa using congrArg Ptr.node (e1.symm.trans e2)
  subst e
  exact I.uniq a b n h1 h2 ha hb

theorem At.node_mem {w : Nat} {y : Sys} {a : Nat} {t : Ptr} (h : At w y.chain a t) (ha : a ∉ y.freed) : ∃ n, t.node = some n ∧ n ∈ y.live := by
  obtain ⟨n, h, e⟩ := h
  exact ⟨n, by rw [e], mem_live.2 (.inl ⟨a, h, ha⟩)⟩

theorem append_stays {c : List Nat} (m a n : Nat) (h : c[a]? = some n) : (c ++ [m])[a]? = some n := by
  rw [List.getElem?_append_left (List.getElem?_eq_some_iff.1 h).1]; exact h

theorem append_new {c : List Nat} {m a n : Nat} (h : (c ++ [m])[a]? = some n) : (c[a]? = some n) ∨ (a = c.length ∧ n = m) := by
  rcases Nat.lt_or_ge a c.length with hl | hl
  · rw [List.getElem?_append_left hl] at h; exact .inl h
  · rw [List.getElem?_append_right hl] at h
    have := (List.getElem?_eq_some_iff.1 h).1
    simp at this
    have e : a = c.length := by omega
    subst e
    simp at h
    exact .inr ⟨rfl, h.symm⟩

theorem Inv.step {w : Nat} {y y' : Sys} (I : Inv w y) (st : Step w y y') : Inv w y' := by
  cases st with
  | @pushBegin i n hi hn =>
    have hnl : ¬ ((∃ a : Nat, y.chain[a]? = some n ∧ a ∉ y.freed) ∨ ∃ (i : Nat) (p : PC), y.thrs[i]? = some p ∧ p.own? = some n) := fun h => hn (mem_live.2 h)
    have hch : ∀ a : Nat, y.chain[a]? = some n → a ∈ y.freed := fun a ha => Decidable.byContradiction fun hf => hnl (.inl ⟨a, ha, hf⟩)
    refine ⟨I.head, I.tail, I.pop, I.ret, I.freed, I.uniq, ?_, ?_, ?_, I.hist⟩
    · intro j q m hj hq
      rcases thr_set hj with ⟨e, rfl⟩ | ⟨hne, hj⟩
      · simp [PC.own?] at hq
        subst hq
        refine ⟨hch, by simp [upd], fun j' r hj' hne hr => ?_⟩
        rcases thr_set hj' with ⟨e', -⟩ | ⟨-, hj'⟩
        · omega
        · exact hnl (.inr ⟨j', r, hj', hr⟩)
      · obtain ⟨a1, a2, a3⟩ := I.own j q m hj hq
        refine ⟨a1, ?_, fun j' r hj' hne' hr => ?_⟩
        · by_cases e : m = n
          · simp [upd, e]
          · simp [upd, e, a2]
        · rcases thr_set hj' with ⟨e', rfl⟩ | ⟨-, hj'⟩
          · simp [PC.own?] at hr
            subst hr
            exact hnl (.inr ⟨j, q, hj, hq⟩)
          · exact a3 j' r hj' hne' hr
    · intro a m ha hf
      have hne : m ≠ n := by rintro rfl; exact hf (hch a ha)
      have e : upd y.prev n null m = y.prev m := by simp [upd, hne]
      simp only [e]
      rcases I.prevs a m ha hf with ⟨h1, h2⟩ | h
      · refine .inl ⟨h1, ?_⟩
        rcases h2 with h2 | ⟨j, s, k, h2, h3⟩
        · exact .inl h2
        · refine .inr ⟨j, s, k, ?_, h3⟩
          have : j ≠ i := by rintro rfl; rw [hi] at h2; cases h2
          exact (thr_other this).trans h2
      · exact .inr h
    · intro j q hj
      rcases thr_set hj with ⟨-, rfl⟩ | ⟨-, hj⟩
      · trivial
      · exact (I.thr j q hj).mono (fun _ _ h => h) (Nat.le_refl _) (fun _ _ _ _ h => h)
  | pushLoad hi => exact I.move hi (by simp [PC.own?]) (by simp) ⟨_, I.tail, I.prot _ (by have := I.hd_lt; omega)⟩ I.hist
  | pushNext hi =>
    have h := I.thr _ _ hi
    exact I.move hi (by simp [PC.own?]) (by simp) h I.hist
  | @pushCas i s n t hi ht =>
    obtain ⟨b, hb, hp⟩ := I.thr _ _ hi
    have hlt := I.hd_lt
    have hpl := I.prot s (a := y.chain.length - 1) (by omega)
    have hbl : b = y.chain.length - 1 := I.pos_eq hb (by have := I.tail; rwa [ht] at this) hp.1 hpl.1
    obtain ⟨o1, o2, o3⟩ := I.own i _ n hi rfl
    obtain ⟨m, hm, et⟩ := hb
    have hnf : ∀ a : Nat, y.chain.length ≤ a → a ∉ y.freed := fun a ha hf => by have := I.freed a hf; omega
    refine ⟨I.head.mono (append_stays n), ?_, ?_, I.ret, I.freed, ?_, ?_, ?_, ?_, I.hist⟩
    · refine ⟨n, ?_, ?_⟩
      · simp
      · simp only [et, List.length_append, List.length_singleton]
        rw [Nat.mod_add_mod, show b + 1 = y.chain.length + 1 - 1 by omega]
    · have := I.pop
      dsimp only
      cases hc : y.chain with
      | nil => rw [hc] at hlt; simp at hlt
      | cons c cs =>
        rw [hc] at this hlt
        simp only [List.tail_cons, List.cons_append] at this ⊢
        simp only [List.length_cons] at hlt
        rw [List.take_append_of_le_length (by omega)]
        exact this
    · intro a c k ha hc hfa hfc
      rcases append_new ha with ha' | ⟨ea, en⟩
      · rcases append_new hc with hc' | ⟨ec, en⟩
        · exact I.uniq a c k ha' hc' hfa hfc
        · subst en; exact absurd (o1 a ha') hfa
      · rcases append_new hc with hc' | ⟨ec, en'⟩
        · subst en; exact absurd (o1 c hc') hfc
        · omega
    · intro j q k hj hq
      rcases thr_set hj with ⟨-, rfl⟩ | ⟨hne, hj⟩
      · simp [PC.own?] at hq
      · obtain ⟨a1, a2, a3⟩ := I.own j q k hj hq
        have hno := o3 j q hj hne
        refine ⟨fun a ha => ?_, a2, fun j' r hj' hne' hr => ?_⟩
        · rcases append_new ha with ha | ⟨-, en⟩
          · exact a1 a ha
          · subst en; exact absurd hq hno
        · rcases thr_set hj' with ⟨-, rfl⟩ | ⟨-, hj'⟩
          · simp [PC.own?] at hr
          · exact a3 j' r hj' hne' hr
    · intro a k ha hf
      rcases append_new ha with ha | ⟨ea, en⟩
      · rcases I.prevs a k ha hf with ⟨h1, h2⟩ | ⟨m', h1, h2⟩
        · refine .inl ⟨h1, .inr ?_⟩
          rcases h2 with h2 | ⟨j, s', m', h2, h3⟩
          · have ea : a = b := by omega
            subst ea
            rw [hm] at ha; cases ha
            refine ⟨i, s, n, ?_, ?_⟩
            · rw [← et]; exact thr_new hi
            · rw [h2]; simp
          · refine ⟨j, s', m', ?_, append_stays _ _ _ h3⟩
            have : j ≠ i := by rintro rfl; rw [hi] at h2; cases h2
            exact (thr_other this).trans h2
        · exact .inr ⟨m', append_stays _ _ _ h1, h2⟩
      · subst en
        exact .inl ⟨o2, .inl (by simp [ea])⟩
    · intro j q hj
      rcases thr_set hj with ⟨-, rfl⟩ | ⟨-, hj⟩
      · refine ⟨b, At.mono (append_stays n) ⟨m, hm, et⟩, hp, ?_⟩
        rw [show b + 1 = y.chain.length by omega]; simp
      · exact (I.thr j q hj).mono (append_stays n) (Nat.le_refl _) (fun _ _ _ _ h => h)
  | pushFail hi => exact I.move hi (by simp [PC.own?]) (by simp) trivial I.hist
  | @pushPrev i s n m t hi htm hm =>
    obtain ⟨b, hb, hp, hn⟩ := I.thr _ _ hi
    obtain ⟨m', hm', et⟩ := hb
    have e : m' = m := by rw [et] at htm; simpa using htm
    subst e
    refine ⟨I.head, I.tail, I.pop, I.ret, I.freed, I.uniq, ?_, ?_, ?_, I.hist⟩
    · intro j q k hj hq
      rcases thr_set hj with ⟨-, rfl⟩ | ⟨hne, hj⟩
      · simp [PC.own?] at hq
      · obtain ⟨a1, a2, a3⟩ := I.own j q k hj hq
        refine ⟨a1, ?_, fun j' r hj' hne' hr => ?_⟩
        · have : k ≠ m' := by rintro rfl; exact hp.1 (a1 b hm')
          simp [upd, this, a2]
        · rcases thr_set hj' with ⟨-, rfl⟩ | ⟨-, hj'⟩
          · simp [PC.own?] at hr
          · exact a3 j' r hj' hne' hr
    · intro a k ha hf
      by_cases e : k = m'
      · subst e
        have := I.uniq a b k ha hm' hf hp.1
        subst this
        exact .inr ⟨n, hn, by simp [upd, et]⟩
      · have e' : upd y.prev m' ⟨some n, t.tag⟩ k = y.prev k := by simp [upd, e]
        simp only [e']
        rcases I.prevs a k ha hf with ⟨h1, h2⟩ | h
        · refine .inl ⟨h1, ?_⟩
          rcases h2 with h2 | ⟨j, s', l, h2, h3⟩
          · exact .inl h2
          · refine .inr ⟨j, s', l, ?_, h3⟩
            have : j ≠ i := by
              rintro rfl; rw [hi, et] at h2; simp at h2; exact e h2.2.2.1.symm
            exact (thr_other this).trans h2
        · exact .inr h
    · intro j q hj
      rcases thr_set hj with ⟨-, rfl⟩ | ⟨-, hj⟩
      · trivial
      · exact (I.thr j q hj).mono (fun _ _ h => h) (Nat.le_refl _) (fun _ _ _ _ h => h)
  | pushFault hi hf =>
    obtain ⟨b, hb, hp, hn⟩ := I.thr _ _ hi
    obtain ⟨m, h1, h2⟩ := hb.node_mem hp.1
    exact absurd h2 (hf m h1)
  | popBegin hi => exact I.move hi (by simp [PC.own?]) (by simp) trivial I.hist
  | popHead hi => exact I.move hi (by simp [PC.own?]) (by simp) ⟨_, Nat.le_refl _, I.head, I.prot _ (Nat.le_refl _)⟩ I.hist
  | popTail hi =>
    obtain ⟨a, h1, h2, h3⟩ := I.thr _ _ hi
    refine I.move hi (by simp [PC.own?]) (by simp) ⟨a, h1, h2, h3, fun ea et => ?_⟩ I.hist
    have hlt := I.hd_lt
    have := I.pos_eq h2 (by have := I.tail; rwa [et] at this) h3.1 (I.prot 0 (by omega)).1
    simp only [Sys.empty, beq_iff_eq]; omega
  | @popPrev i s n h t em hi hn hm =>
    obtain ⟨a, h1, h2, h3, h4⟩ := I.thr _ _ hi
    refine I.move hi (by simp [PC.own?]) (by simp) ⟨a, h1, h2, h3, fun ea et => by simp [h4 ea et], ?_⟩ I.hist
    obtain ⟨n', hn', eh⟩ := h2
    have e : n' = n := by rw [eh] at hn; simpa using hn
    subst e
    rcases I.prevs a n' hn' h3.1 with ⟨p1, p2⟩ | p
    · refine .inl ⟨p1, fun ea => ?_⟩
      rcases p2 with p2 | ⟨j, s', m, p2, p3⟩
      · left; simp [Sys.empty, ← ea, p2]
      · right
        unfold Sys.stalled
        rw [List.any_eq_true]
        refine ⟨_, List.mem_iff_getElem?.2 ⟨j, p2⟩, ?_⟩
        obtain ⟨n'', hh, eh'⟩ := I.head
        rw [← ea, hn'] at hh; cases hh
        rw [← ea] at eh'
        simp [eh']
    · exact .inr p
  | popFault hi hf =>
    obtain ⟨a, h1, h2, h3, h4⟩ := I.thr _ _ hi
    obtain ⟨m, h1, h2⟩ := h2.node_mem h3.1
    exact absurd h2 (hf m h1)
  | popSame hi hh =>
    obtain ⟨a, h1, h2, h3, h4, h5⟩ := I.thr _ _ hi
    have ea := I.pos_eq h2 (by have := I.head; rwa [hh] at this) h3.1 (I.prot 0 (Nat.le_refl _)).1
    refine I.move hi (by simp [PC.own?]) (by simp) ⟨a, h1, h2, h3, h4 ea, ?_⟩ I.hist
    rcases h5 with ⟨e, h5⟩ | h5
    · exact .inl ⟨e, h5 ea⟩
    · exact .inr h5
  | popChanged hi _ => exact I.move hi (by simp [PC.own?]) (by simp) trivial I.hist
  | @popNull i s h t p em st hi hn =>
    obtain ⟨a, h1, h2, h3, h4, h5⟩ := I.thr _ _ hi
    refine I.move hi (by simp [PC.own?]) (by simp) trivial fun q hq => ?_
    rcases List.mem_append.1 hq with hq | hq
    · exact I.hist q hq
    · obtain rfl := List.mem_singleton.1 hq
      rcases hn with hn | hn
      · rcases h5 with ⟨-, h5⟩ | ⟨m, -, e⟩
        · exact h5
        · rw [e] at hn; cases hn
      · exact .inl (h4 hn)
  | @popFix i s h t p em st hi hn ht htag =>
    obtain ⟨a, h1, ⟨n, h2, eh⟩, h3, h4, h5⟩ := I.thr _ _ hi
    rcases h5 with ⟨e, h5⟩ | ⟨m, -, e⟩
    · rw [e] at hn; exact absurd rfl hn
    · rw [e, eh] at htag; exact absurd rfl htag
  | @popCas i s m h t p em st hi hn ht htag hh =>
    obtain ⟨a, h1, h2, h3, h4, h5⟩ := I.thr _ _ hi
    have ea := I.pos_eq h2 (by have := I.head; rwa [hh] at this) h3.1 (I.prot 0 (Nat.le_refl _)).1
    obtain ⟨n, h2, eh⟩ := h2
    have hm : y.chain[a + 1]? = some m := by
      rcases h5 with ⟨e, -⟩ | ⟨m', h5, e⟩
      · rw [e] at hn; cases hn
      · rw [e] at hn; cases hn; exact h5
    have hpr : ∀ (j : Nat) (q : PC) (s' a' : Nat), y.thrs[j]? = some q → q.sec? = some s' → Prot y s' a' →
        Prot { y with head := ⟨p.node, (h.tag + 1) % w⟩, thrs := y.thrs.set i .idle, popped := y.popped ++ [m], retired := y.retired ++ [y.active] } s' a' := by
      intro j q s' a' hj hq hp
      refine ⟨hp.1, fun l hl => ?_⟩
      rcases Nat.lt_or_ge a' y.retired.length with c | c
      · exact hp.2 l (by rwa [List.getElem?_append_left c] at hl)
      · rw [List.getElem?_append_right c] at hl
        have := List.mem_of_getElem? hl
        obtain rfl := List.mem_singleton.1 this
        exact mem_active.2 ⟨j, q, hj, hq⟩
    refine ⟨?_, I.tail, ?_, by simp [I.ret], ?_, I.uniq, ?_, ?_, ?_, I.hist⟩
    · refine ⟨m, ?_, ?_⟩
      · simp [← ea, hm]
      · simp [hn, eh, ← ea]
    · have := I.pop
      cases hc : y.chain with
      | nil => rw [hc] at hm; simp at hm
      | cons c cs =>
        rw [hc] at this hm
        simp only [List.tail_cons, List.getElem?_cons_succ] at this hm
        simp only [List.tail_cons, List.length_append, List.length_singleton]
        rw [← ea] at this ⊢
        rw [List.take_add_one, hm, ← this]; rfl
    · intro j hj
      have := I.freed j hj
      simp; omega
    · intro j q k hj hq
      rcases thr_set hj with ⟨-, rfl⟩ | ⟨hne, hj⟩
      · simp [PC.own?] at hq
      · obtain ⟨a1, a2, a3⟩ := I.own j q k hj hq
        refine ⟨a1, a2, fun j' r hj' hne' hr => ?_⟩
        rcases thr_set hj' with ⟨-, rfl⟩ | ⟨-, hj'⟩
        · simp [PC.own?] at hr
        · exact a3 j' r hj' hne' hr
    · intro b k hb hf
      rcases I.prevs b k hb hf with ⟨p1, p2⟩ | p
      · refine .inl ⟨p1, ?_⟩
        rcases p2 with p2 | ⟨j, s', l, p2, p3⟩
        · exact .inl p2
        · refine .inr ⟨j, s', l, ?_, p3⟩
          have : j ≠ i := by rintro rfl; rw [hi] at p2; cases p2
          exact (thr_other this).trans p2
      · exact .inr p
    · intro j q hj
      rcases thr_set hj with ⟨-, rfl⟩ | ⟨-, hj⟩
      · trivial
      · exact (I.thr j q hj).mono (fun _ _ h => h) (by simp) (fun s' a' hs _ hp => hpr j q s' a' hj hs hp)
  | popFail hi _ _ _ => exact I.move hi (by simp [PC.own?]) (by simp) trivial I.hist
  | fixGo hi _ _ => exact (I.thr _ _ hi).elim
  | fixEnd hi _ => exact (I.thr _ _ hi).elim
  | fixNext hi _ _ => exact (I.thr _ _ hi).elim
  | fixPrev hi _ _ => exact (I.thr _ _ hi).elim
  | fixFault hi _ => exact (I.thr _ _ hi).elim
  | fixFault' hi _ => exact (I.thr _ _ hi).elim
  | @free k l hk hkf hs =>
    have hkl : k < y.popped.length := by have := (List.getElem?_eq_some_iff.1 hk).1; rwa [I.ret] at this
    have nf : ∀ {a : Nat}, a ∉ k :: y.freed → a ∉ y.freed := fun h h' => h (List.mem_cons_of_mem _ h')
    refine ⟨I.head, I.tail, I.pop, I.ret, ?_, ?_, ?_, ?_, ?_, I.hist⟩
    · intro j hj
      rcases List.mem_cons.1 hj with rfl | hj
      · exact hkl
      · exact I.freed j hj
    · exact fun a b n ha hb hfa hfb => I.uniq a b n ha hb (nf hfa) (nf hfb)
    · intro j q n hj hq
      obtain ⟨a1, a2, a3⟩ := I.own j q n hj hq
      exact ⟨fun a ha => List.mem_cons_of_mem _ (a1 a ha), a2, a3⟩
    · exact fun a n ha hf => I.prevs a n ha (nf hf)
    · intro j q hj
      refine (I.thr j q hj).mono (fun _ _ h => h) (Nat.le_refl _) (fun s' a' hs' _ hp => ⟨fun hm => ?_, hp.2⟩)
      rcases List.mem_cons.1 hm with rfl | hm
      · exact hs s' (hp.2 l hk) (mem_active.2 ⟨j, q, hj, hs'⟩)
      · exact hp.1 hm

theorem inv_init (w n : Nat) : Inv w (init n) := by
  have hidle : ∀ (i : Nat) (p : PC), (init n).thrs[i]? = some p → p = .idle := by
    intro i p hp
    simp [init, List.getElem?_replicate] at hp
    exact hp.2.symm
  refine ⟨⟨0, rfl, by simp [init]⟩, ⟨0, rfl, by simp [init]⟩, rfl, rfl, by simp [init], ?_, ?_, ?_, ?_, by simp [init]⟩
  · intro a b k ha hb _ _
    have h1 := (List.getElem?_eq_some_iff.1 ha).1
    have h2 := (List.getElem?_eq_some_iff.1 hb).1
    simp [init] at h1 h2; omega
  · intro i p k hi hk
    rw [hidle i p hi] at hk; cases hk
  · intro a k ha _
    have h1 := (List.getElem?_eq_some_iff.1 ha).1
    simp [init] at h1
    subst h1
    exact .inl ⟨rfl, .inl rfl⟩
  · intro i p hi
    rw [hidle i p hi]; trivial

theorem Reach.inv {w n : Nat} {y : Sys} (h : Reach w n y) : Inv w y := by
  induction h with
  | init => exact inv_init w n
  | step _ s ih => exact ih.step s

/-- The nodes pushed so far, in the order in which the pushes took effect: the first node was put there when the queue was created. -/
def Sys.pushed (y : Sys) : List Nat := y.chain.tail

/-- **C20**, what holds.  In every interleaving of any number of pushes and pops, with the addresses of freed nodes used again:
* the nodes popped are the first ones of the nodes pushed, in that order: none is skipped, reordered or popped twice;
* no operation accesses a null or a freed node, and the repair of the list is never needed;
* a node that is in the queue is not freed, nor is the last one popped;
* a pop returns null only if the queue was empty at some moment during the pop, or if during the pop a push was between its exchange of `tail` and its store of the `prev` of the node in `head`.
Missing: in the second case the queue is not empty (`C20_false_empty_refuted`). -/
theorem C20_queue_partial (w n : Nat) (y : Sys) (h : Reach w n y) :
    y.popped <+: y.pushed ∧
    (∀ p ∈ y.thrs, p ≠ .fault ∧ (∀ s hd c, p ≠ .fx1 s hd c)) ∧
    (∀ j : Nat, y.popped.length ≤ j → j ∉ y.freed) ∧
    (∀ r ∈ y.nulls, r.1 = true ∨ r.2 = true) := by
  have I := h.inv
  refine ⟨?_, ?_, fun j hj hf => ?_, I.hist⟩
  · rw [I.pop]; exact List.take_prefix _ _
  · intro p hp
    obtain ⟨i, hi⟩ := List.mem_iff_getElem?.1 hp
    have := I.thr i p hi
    constructor
    · rintro rfl; exact this
    · rintro s hd c rfl; exact this
  · have := I.freed j hf; omega

/-- Steps of thread `i` alone. -/
inductive Solo (w i : Nat) : Sys → Sys → Prop
  | refl {y : Sys} : Solo w i y y
  | step {y y' y'' : Sys} : Solo w i y y' → Step w y' y'' → (∀ j : Nat, j ≠ i → y''.thrs[j]? = y'.thrs[j]?) → Solo w i y y''

/-- **C20**, no node is lost: when no push is between its exchange and its store, and not all nodes pushed have been popped, a pop that runs alone returns the next one. -/
theorem C20_pop_progress (w n : Nat) (y : Sys) (h : Reach w n y) (i m : Nat) (hi : y.thrs[i]? = some .idle) (hp : ∀ p ∈ y.thrs, ∀ s k t, p ≠ .pu4 s k t)
    (hm : y.pushed[y.popped.length]? = some m) :
    ∃ y', Solo w i y y' ∧ y'.popped = y.popped ++ [m] ∧ y'.thrs = y.thrs := by
  have I := h.inv
  have hm' : y.chain[y.popped.length + 1]? = some m := by
    rw [← hm, Sys.pushed]
    cases hc : y.chain with
    | nil => have := I.hd_lt; rw [hc] at this; simp at this
    | cons c cs => simp
  obtain ⟨a, ha, eh⟩ := I.head
  have hnf : y.popped.length ∉ y.freed := fun hf => by have := I.freed _ hf; omega
  have hlive : a ∈ y.live := mem_live.2 (.inl ⟨_, ha, hnf⟩)
  have hprev : y.prev a = ⟨some m, y.popped.length % w⟩ := by
    rcases I.prevs _ a ha hnf with ⟨-, h2⟩ | ⟨m', h1, h2⟩
    · rcases h2 with h2 | ⟨j, s, k, h2, -⟩
      · have := (List.getElem?_eq_some_iff.1 hm').1; omega
      · exact absurd rfl (hp _ (List.mem_iff_getElem?.2 ⟨j, h2⟩) _ _ _)
    · rw [hm'] at h1; cases h1; exact h2
  have htail : y.tail ≠ y.head := by
    intro e
    have h1 := I.tail
    rw [e] at h1
    have := I.pos_eq h1 I.head (I.prot 0 (by have := I.hd_lt; omega)).1 hnf
    have := (List.getElem?_eq_some_iff.1 hm').1
    have := h1.lt
    omega
  have hil := (List.getElem?_eq_some_iff.1 hi).1
  have hne : ∀ (l : List PC) (t : PC) (j : Nat), j ≠ i → (l.set i t)[j]? = l[j]? := fun l t j hj => thr_other hj
  have r := Solo.refl (w := w) (i := i) (y := y)
  have r := r.step (Step.popBegin hi) (hne _ _)
  have r := r.step (Step.popHead (thr_new hi)) (hne _ _)
  have r := r.step (Step.popTail (thr_new (thr_new hi))) (hne _ _)
  have r := r.step (Step.popPrev (n := a) (thr_new (thr_new (thr_new hi))) (by simp [eh]) ?_) (hne _ _)
  · have r := r.step (Step.popSame (thr_new (thr_new (thr_new (thr_new hi)))) rfl) (hne _ _)
    have r := r.step (Step.popCas (m := m) (thr_new (thr_new (thr_new (thr_new (thr_new hi))))) (by simp [hprev]) htail (by simp [hprev, eh]) rfl) (hne _ _)
    refine ⟨_, r, rfl, ?_⟩
    apply List.ext_getElem?
    intro j
    by_cases e : j = i
    · subst e
      rw [hi]
      exact thr_new (thr_new (thr_new (thr_new (thr_new (thr_new hi)))))
    · simp only [hne _ _ _ e]
  · exact mem_live.2 (.inl ⟨_, ha, hnf⟩)

/-- **C20** fails for empty: a push that is interrupted between its exchange and its store hides the nodes behind it.  Thread 0 is interrupted there, thread 1 then completes the push of node 2, nothing has been popped; a pop that thread 2 begins after
that and runs alone returns null. -/
theorem C20_false_empty_refuted : ∃ y y', Reach (2 ^ 32) 3 y ∧ y.pushed = [1, 2] ∧ y.popped = [] ∧ y.thrs = [.pu4 0 1 ⟨some 0, 0⟩, .idle, .idle] ∧ y.nulls = [] ∧
    Solo (2 ^ 32) 2 y y' ∧ y'.popped = [] ∧ y'.thrs = y.thrs ∧ y'.nulls = [(false, true)] := by
  have h := Reach.init (w := 2 ^ 32) (n := 3)
  have h := h.step (Step.pushBegin (i := 0) (n := 1) rfl (by decide))
  have h := h.step (Step.pushLoad (i := 0) rfl)
  have h := h.step (Step.pushNext (i := 0) rfl)
  have h := h.step (Step.pushCas (i := 0) rfl rfl)
  have h := h.step (Step.pushBegin (i := 1) (n := 2) rfl (by decide))
  have h := h.step (Step.pushLoad (i := 1) rfl)
  have h := h.step (Step.pushNext (i := 1) rfl)
  have h := h.step (Step.pushCas (i := 1) rfl rfl)
  have h := h.step (Step.pushPrev (i := 1) (m := 1) rfl rfl (by decide))
  obtain ⟨y, e, h⟩ : ∃ y, y = _ ∧ Reach (2 ^ 32) 3 y := ⟨_, rfl, h⟩
  have r := Solo.refl (w := 2 ^ 32) (i := 2) (y := y)
  subst e
  have r := r.step (Step.popBegin (i := 2) rfl) (fun j hj => thr_other hj)
  have r := r.step (Step.popHead (i := 2) rfl) (fun j hj => thr_other hj)
  have r := r.step (Step.popTail (i := 2) rfl) (fun j hj => thr_other hj)
  have r := r.step (Step.popPrev (i := 2) (n := 0) rfl rfl (by decide)) (fun j hj => thr_other hj)
  have r := r.step (Step.popSame (i := 2) rfl rfl) (fun j hj => thr_other hj)
  have r := r.step (Step.popNull (i := 2) rfl (.inl rfl)) (fun j hj => thr_other hj)
  exact ⟨_, _, h, rfl, rfl, rfl, rfl, r, rfl, rfl, rfl⟩

/-- Two nodes are pushed and popped; the first node of the queue is freed and its address used for a third one, which is pushed and popped too; then the queue is empty. -/
example : ∃ y, Reach (2 ^ 32) 2 y ∧ y.pushed = [1, 2, 0] ∧ y.popped = [1, 2, 0] ∧ y.freed = [0] ∧ y.nulls = [(true, false)] := by
  have h := Reach.init (w := 2 ^ 32) (n := 2)
  have h := h.step (Step.pushBegin (i := 0) (n := 1) rfl (by decide))
  have h := h.step (Step.pushLoad (i := 0) rfl)
  have h := h.step (Step.pushNext (i := 0) rfl)
  have h := h.step (Step.pushCas (i := 0) rfl rfl)
  have h := h.step (Step.pushPrev (i := 0) (m := 0) rfl rfl (by decide))
  have h := h.step (Step.pushBegin (i := 0) (n := 2) rfl (by decide))
  have h := h.step (Step.pushLoad (i := 0) rfl)
  have h := h.step (Step.pushNext (i := 0) rfl)
  have h := h.step (Step.pushCas (i := 0) rfl rfl)
  have h := h.step (Step.pushPrev (i := 0) (m := 1) rfl rfl (by decide))
  have h := h.step (Step.popBegin (i := 1) rfl)
  have h := h.step (Step.popHead (i := 1) rfl)
  have h := h.step (Step.popTail (i := 1) rfl)
  have h := h.step (Step.popPrev (i := 1) (n := 0) rfl rfl (by decide))
  have h := h.step (Step.popSame (i := 1) rfl rfl)
  have h := h.step (Step.popCas (i := 1) rfl rfl (by decide) rfl rfl)
  have h := h.step (Step.free (j := 0) rfl (by decide) (by decide))
  have h := h.step (Step.pushBegin (i := 0) (n := 0) rfl (by decide))
  have h := h.step (Step.pushLoad (i := 0) rfl)
  have h := h.step (Step.pushNext (i := 0) rfl)
  have h := h.step (Step.pushCas (i := 0) rfl rfl)
  have h := h.step (Step.pushPrev (i := 0) (m := 2) rfl rfl (by decide))
  have h := h.step (Step.popBegin (i := 1) rfl)
  have h := h.step (Step.popHead (i := 1) rfl)
  have h := h.step (Step.popTail (i := 1) rfl)
  have h := h.step (Step.popPrev (i := 1) (n := 1) rfl rfl (by decide))
  have h := h.step (Step.popSame (i := 1) rfl rfl)
  have h := h.step (Step.popCas (i := 1) rfl rfl (by decide) rfl rfl)
  have h := h.step (Step.popBegin (i := 1) rfl)
  have h := h.step (Step.popHead (i := 1) rfl)
  have h := h.step (Step.popTail (i := 1) rfl)
  have h := h.step (Step.popPrev (i := 1) (n := 2) rfl rfl (by decide))
  have h := h.step (Step.popSame (i := 1) rfl rfl)
  have h := h.step (Step.popCas (i := 1) rfl rfl (by decide) rfl rfl)
  have h := h.step (Step.popBegin (i := 1) rfl)
  have h := h.step (Step.popHead (i := 1) rfl)
  have h := h.step (Step.popTail (i := 1) rfl)
  have h := h.step (Step.popPrev (i := 1) (n := 0) rfl rfl (by decide))
  have h := h.step (Step.popSame (i := 1) rfl rfl)
  have h := h.step (Step.popNull (i := 1) rfl (.inl rfl))
  exact ⟨_, h, rfl, rfl, rfl, rfl⟩

#print axioms C20_queue_partial
#print axioms C20_pop_progress
#print axioms C20_false_empty_refuted
end Verif.ConcQueue
