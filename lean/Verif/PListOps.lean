import Verif.PListLemmas
namespace Verif.PList
open Verif.Array
variable {α : Type}

/-- Rebuilding the shape from a decomposition. -/
theorem shape_mid {ps : Nat} {init : List (Cells α)} {t A x B} (s : Shape ps init t) (h : init ++ [t] = A ++ x :: B) :
    (∀ y ∈ A, y.length = ps) ∧ x.length ≤ ps ∧
    ((B = [] ∧ init = A ∧ t = x) ∨ (∃ mid, B = mid ++ [t] ∧ init = A ++ x :: mid ∧ x.length = ps ∧ ∀ y ∈ mid, y.length = ps)) := by
  rcases List.eq_nil_or_concat B with rfl | ⟨mid, z, rfl⟩
  · obtain ⟨rfl, h'⟩ := List.append_inj' h rfl
    simp at h'; subst h'
    exact ⟨s.full, s.le, Or.inl ⟨rfl, rfl, rfl⟩⟩
  · have h2 : init ++ [t] = (A ++ x :: mid) ++ [z] := by simpa using h
    obtain ⟨rfl, h'⟩ := List.append_inj' h2 rfl
    simp at h'; subst h'
    have hx : x.length = ps := s.full x (by simp)
    exact ⟨fun y hy => s.full y (by simp [hy]), by omega, Or.inr ⟨mid, by simp, rfl, hx, fun y hy => s.full y (by simp [hy])⟩⟩

theorem replace_rep {chunk} {L : PL α} {init t} (o : LOk chunk L init t) (i e) (hi : i < (init ++ [t]).flatten.length) :
    StepRep chunk L (init ++ [t]).flatten (.replace i e) := by
  rw [← o.count] at hi
  obtain ⟨A, x, B, PA, a, PB, h1, h2, hl1, hl2, f1, hg, f2, hA, hx, hp, hAl, hle⟩ := at_index o hi
  obtain ⟨a', r, ea, ga⟩ := pg_replace hg _ e hx
  have hs : step L (.replace i e) = .ok ({ L with pages := PA ++ a' :: PB }, .unit) := by
    simp only [step, replace, hi, if_true]
    rw [hp, ebind, page_mid h2, ebind, ea, ebind, h2, set_mid]; rfl
  obtain ⟨s1, s2, s3⟩ := shape_mid o.shape h1
  cases e with
  | none =>
    refine ⟨_, hs, rfl, init, t, ⟨?_, o.shape, o.count, o.chunk1, o.ps1, o.last⟩, rfl⟩
    simp only [h1]; exact f2_mid f1 ga f2
  | some v =>
    simp only at ga
    have hset : (A ++ x.set (i - i / L.pageSize * L.pageSize) (some v) :: B).flatten = (init ++ [t]).flatten.set i (some v) := by
      simp only [h1, List.flatten_append, List.flatten_cons]
      rw [List.set_append_right _ _ (by omega), List.set_append_left _ _ (by omega), hAl]
    have hcnt : L.count = (A ++ x.set (i - i / L.pageSize * L.pageSize) (some v) :: B).flatten.length := by
      rw [hset, List.length_set, o.count]
    rcases s3 with ⟨rfl, rfl, rfl⟩ | ⟨mid, rfl, rfl, hxl, hmid⟩
    · refine ⟨_, hs, rfl, init, t.set (i - i / L.pageSize * L.pageSize) (some v), ⟨f2_mid f1 ga f2, ⟨hA, by simpa using s2, ?_⟩, hcnt, o.chunk1, o.ps1, o.last⟩, hset⟩
      intro h; exact o.shape.ne (by simpa using h)
    · refine ⟨_, hs, rfl, A ++ x.set (i - i / L.pageSize * L.pageSize) (some v) :: mid, t, ⟨?_, ⟨?_, o.shape.le, ?_⟩, ?_, o.chunk1, o.ps1, o.last⟩, ?_⟩
      · have := f2_mid f1 ga f2; simpa using this
      · intro y hy; simp only [List.mem_append, List.mem_cons] at hy
        rcases hy with hy | rfl | hy
        · exact hA y hy
        · simpa using hxl
        · exact hmid y hy
      · intro h; exfalso; have := o.shape.ne h; simp at this
      · rw [hcnt]; simp
      · simp only [PList.Spec.edit]; rw [← hset]; simp

theorem removeAll_rep {chunk} {L : PL α} {init t} (o : LOk chunk L init t) : StepRep chunk L (init ++ [t]).flatten .removeAll := by
  obtain ⟨x, B, hxB⟩ : ∃ x B, init ++ [t] = [] ++ x :: B := by cases init <;> simp
  obtain ⟨PA, a, PB, h1, h2, h3, h4, h5, h6⟩ := f2_split (hxB ▸ o.pages)
  obtain rfl : PA = [] := List.length_eq_zero_iff.1 h2
  obtain ⟨a', r, e1, e2, e3, e4, -⟩ := step_removeAll h5.1
  have hr : r ≠ .sizeMax := fun h => by simpa [Array.Spec.refused] using (e4 h).1
  rw [if_neg hr] at e3
  have e1' : Array.removeAll a = .ok (a', r) := e1
  refine ⟨{ L with pages := [a'], count := 0, hasLast := true }, ?_, rfl, [], [], ⟨?_, ⟨by simp, by simp, by simp⟩, by simp, o.chunk1, o.ps1, rfl⟩, rfl⟩
  · simp only [step, removeAll]
    rw [show page L 0 = .ok a from page_mid (PA := []) h1, ebind, e1', ebind]; rfl
  · exact .cons ⟨e3, e2.trans h5.2⟩ .nil

theorem cons_weaken {chunk} {a : Arr α} {c : Option α} {z : Option α} {l} (g : PG chunk a (c :: l)) (h : ∀ v, z = some v → c = some v) :
    PG chunk a (z :: l) := by
  refine pg_weaken g (by simp) fun i v hv => ?_
  cases i with
  | zero => simp at hv ⊢; exact h v hv
  | succ i => simpa using hv

theorem snoc_weaken {chunk} {a : Arr α} {c : Option α} {z : Option α} {l} (g : PG chunk a (l ++ [c])) (h : ∀ v, z = some v → c = some v) :
    PG chunk a (l ++ [z]) := by
  refine pg_weaken g (by simp) fun i v hv => ?_
  rcases Nat.lt_trichotomy i l.length with hi | hi | hi
  · rw [List.getElem?_append_left hi] at hv ⊢; exact hv
  · subst hi; simp at hv ⊢; exact h v hv
  · rw [List.getElem?_append_right (by omega)] at hv
    have : i - l.length ≠ 0 := by omega
    cases hk : i - l.length with
    | zero => omega
    | succ k => simp [hk] at hv

/-- The pages after the one the hole has reached. -/
def After (ps : Nat) (x : Cells α) (B : List (Cells α)) : Prop :=
  B = [] ∨ (x.length + 1 = ps ∧ ∃ mid t, B = mid ++ [t] ∧ (∀ y ∈ mid, y.length = ps) ∧ t ≠ [] ∧ t.length ≤ ps)

theorem shift_ok {chunk ps : Nat} (hps : 1 ≤ ps) (p : Nat) : ∀ (k : Nat) (pages : List (Arr α)) (A : List (Cells α)) (x : Cells α) (B : List (Cells α)),
    List.Forall₂ (PG chunk) pages (A ++ x :: B) → A.length = k → (∀ y ∈ A, y.length = ps) → x.length < ps → After ps x B → p ≤ k →
    ∃ pages' x' B', shift ps p k pages = .ok pages' ∧ List.Forall₂ (PG chunk) pages' (A.take p ++ x' :: B') ∧ x'.length < ps ∧ After ps x' B' ∧
      x' ++ B'.flatten = (A.drop p).flatten ++ x ++ B.flatten ∧ (p = k → x' = x) ∧ (p < k → x'.length + 1 = ps) := by
  intro k
  induction k with
  | zero =>
    intro pages A x B h1 h2 h3 h4 h5 h6
    obtain rfl : p = 0 := by omega
    obtain rfl : A = [] := List.length_eq_zero_iff.1 h2
    exact ⟨pages, x, B, rfl, h1, h4, h5, by simp, fun _ => rfl, fun h => by omega⟩
  | succ k ih =>
    intro pages A x B h1 h2 h3 h4 h5 h6
    by_cases hp : k + 1 = p
    · subst hp
      refine ⟨pages, x, B, by simp [shift], ?_, h4, h5, ?_, fun _ => rfl, fun h => by omega⟩
      · rwa [List.take_of_length_le (by omega)]
      · rw [List.drop_of_length_le (by omega)]; simp
    · rcases List.eq_nil_or_concat A with rfl | ⟨A0, y, rfl⟩
      · simp at h2
      · have hA0 : A0.length = k := by simpa using h2
        have hy : y.length = ps := h3 y (by simp)
        rcases List.eq_nil_or_concat y with rfl | ⟨y0, z, rfl⟩
        · simp at hy; omega
        · have hy0 : y0.length + 1 = ps := by simpa using hy
          have h1' : List.Forall₂ (PG chunk) pages (A0 ++ (y0.concat z) :: (x :: B)) := by simpa using h1
          obtain ⟨PA, src, PB', g1, g2, g3, g4, g5, g6⟩ := f2_split h1'
          cases g6 with
          | @cons dst _ PB _ g7 g8 =>
          rw [List.concat_eq_append] at g5
          obtain ⟨c, ec, hc⟩ := pg_get g5 (ps - 1) (by simp; omega)
          have hzc : ∀ v, z = some v → c = some v := by
            intro v hv; apply hc
            rw [List.getElem_append_right (by omega)]; simp [hv]
          obtain ⟨src', r1, e1, gs⟩ := pg_remove g5 (ps - 1) (by simp; omega)
          have gs' : PG chunk src' y0 := by
            rw [show ps - 1 = y0.length by omega] at gs
            simpa [List.take_append_of_le_length, List.drop_of_length_le] using gs
          have hdst : ∃ dst' r, pushFront dst c = .ok (dst', r) ∧ PG chunk dst' (z :: x) := by
            have hcnt := g7.count
            by_cases hd : dst.count ≠ 0
            · obtain ⟨d, r, e, g⟩ := pg_insert g7 0 c (by omega)
              exact ⟨d, r, by rw [pushFront, if_pos hd]; exact e, cons_weaken (by simpa using g) hzc⟩
            · obtain ⟨d, r, e, g⟩ := pg_append g7 c
              have : x = [] := List.length_eq_zero_iff.1 (by omega)
              subst this
              exact ⟨d, r, by rw [pushFront, if_neg hd]; exact e, cons_weaken (by simpa using g) hzc⟩
          obtain ⟨dst', r2, e2, gd⟩ := hdst
          have hk : PA.length = k := by omega
          have hpk : pages[k]? = some src := by simp [g1, ← hk]
          have hpk1 : pages[k + 1]? = some dst := by simp [g1, ← hk]
          have hset : (pages.set (k + 1) dst').set k src' = PA ++ src' :: dst' :: PB := by
            rw [g1, ← hk]; simp
          obtain ⟨pages', x', B', k1, k2, k3, k4, k5, k6, k7⟩ := ih (PA ++ src' :: dst' :: PB) A0 y0 ((z :: x) :: B)
            (f2_mid g4 gs' (.cons gd g8)) hA0 (fun q hq => h3 q (by simp [hq])) (by omega) (by
              refine Or.inr ⟨hy0, ?_⟩
              rcases h5 with rfl | ⟨hx, mid, t, rfl, h6, h7, h8⟩
              · exact ⟨[], z :: x, rfl, by simp, by simp, by simp; omega⟩
              · refine ⟨(z :: x) :: mid, t, rfl, ?_, h7, h8⟩
                intro q hq; rcases List.mem_cons.1 hq with rfl | hq
                · simpa using hx
                · exact h6 q hq) (by omega)
          refine ⟨pages', x', B', ?_, ?_, k3, k4, ?_, fun h => by omega, fun _ => ?_⟩
          · simp only [shift]
            rw [if_neg hp, hpk]; simp only [hpk1, ec, ebind, e2, e1, hset, k1]
          · rw [List.concat_eq_append, List.take_append_of_le_length (by omega)]; exact k2
          · rw [k5, List.concat_eq_append, List.drop_append_of_le_length (by omega)]; simp
          · rcases Nat.lt_or_eq_of_le (show p ≤ k by omega) with h | h
            · exact k7 h
            · rw [k6 h]; exact hy0

theorem insert_rep {chunk} {L : PL α} {init t} (o : LOk chunk L init t) (i e) (hi : i < (init ++ [t]).flatten.length) :
    StepRep chunk L (init ++ [t]).flatten (.insert i e) := by
  rw [← o.count] at hi
  obtain ⟨A, x, B, PA, a, PB, h1, h2, hl1, hl2, f1, hg, f2, hA, hx, hp, hAl, hle⟩ := at_index o hi
  have hLL : ({ L with hasLast := true } : PL α) = L := by have := o.last; cases L; simp_all
  obtain ⟨P, z, q1, q2, q3, q4⟩ := last_page o
  have hz := q4.count
  have hk : L.pages.length - 1 = init.length := by rw [q1]; simp [q2]
  have hAlen : A.length ≤ init.length := by have := congrArg List.length h1; simp at this; omega
  -- the pages before shifting
  have hpre : ∃ pages A' x' , makeRoom L init.length z = .ok (pages, A'.length) ∧ List.Forall₂ (PG chunk) pages (A' ++ x' :: []) ∧
      (∀ y ∈ A', y.length = L.pageSize) ∧ x'.length < L.pageSize ∧ (A' ++ [x']).flatten = (init ++ [t]).flatten ∧
      A.length ≤ A'.length ∧ (A.length = A'.length → x' = x) ∧ A'.take A.length = A := by
    by_cases hf : z.count = L.pageSize
    · obtain ⟨b, eb, gb⟩ := pg_create (α := α) o.chunk1
      refine ⟨L.pages ++ [b], init ++ [t], [], ?_, f2_append o.pages (.cons gb .nil), ?_, ?_, by simp, by simp; omega, ?_, ?_⟩
      · rw [makeRoom, if_pos hf, q4.2, eb, ebind]; simp; rfl
      · intro y hy; rcases List.mem_append.1 hy with hy | hy
        · exact o.shape.full y hy
        · simp at hy; subst hy; omega
      · have := o.ps1; simp; omega
      · intro h; simp at h; omega
      · rw [h1]; simp
    · refine ⟨L.pages, init, t, ?_, o.pages, o.shape.full, ?_, rfl, hAlen, ?_, ?_⟩
      · rw [makeRoom, if_neg hf]; rfl
      · have := o.shape.le; omega
      · intro h; have := List.append_inj h1 h.symm; simp_all
      · have := congrArg (List.take A.length) h1
        rw [List.take_append_of_le_length hAlen] at this; simpa using this
  obtain ⟨pages, A', x', p1, p2, p3, p4, p5, p6, p7, p8⟩ := hpre
  obtain ⟨pages', x'', B'', k1, k2, k3, k4, k5, k6, k7⟩ := shift_ok o.ps1 A.length A'.length pages A' x' [] p2 rfl p3 p4 (Or.inl rfl) p6
  rw [p8] at k2
  obtain ⟨PA', a', PB', r1, r2, r3, r4, r5, r6⟩ := f2_split k2
  have hei : i - i / L.pageSize * L.pageSize ≤ x''.length := by
    rcases Nat.lt_or_eq_of_le p6 with h | h
    · have := k7 h; have := (shape_mid o.shape h1).2.1; omega
    · rw [k6 h, p7 h]; omega
  have hfin : ∃ a'' r, place a' (i - i / L.pageSize * L.pageSize) e = .ok (a'', r) ∧
      PG chunk a'' (x''.take (i - i / L.pageSize * L.pageSize) ++ [e] ++ x''.drop (i - i / L.pageSize * L.pageSize)) := by
    have := r5.count
    by_cases he : i - i / L.pageSize * L.pageSize = a'.count
    · obtain ⟨d, r, ed, gd⟩ := pg_append r5 e
      refine ⟨d, r, by rw [place, if_pos he]; exact ed, ?_⟩
      rw [List.take_of_length_le (by omega), List.drop_of_length_le (by omega)]; simpa using gd
    · obtain ⟨d, r, ed, gd⟩ := pg_insert r5 (i - i / L.pageSize * L.pageSize) e (by omega)
      exact ⟨d, r, by rw [place, if_neg he]; exact ed, gd⟩
  obtain ⟨a'', r, ea, ga⟩ := hfin
  have hzp : page L (L.pages.length - 1) = .ok z := by rw [hk, ← q2]; exact page_mid q1
  have hs : step L (.insert i e) = .ok ({ L with pages := PA' ++ a'' :: PB', count := L.count + 1, hasLast := true }, .index i) := by
    simp only [step, insert, hi, if_true]
    rw [hLL, hp, ebind, hzp, ebind, hk, p1, ebind]
    simp only []
    rw [hl1, k1, ebind]
    have : pages'[A.length]? = some a' := by simp [r1, ← r2]
    rw [this]; simp only []
    rw [ea, ebind]; simp only []
    rw [r1, ← r2, set_mid]; rfl
  have hfl : (init ++ [t]).flatten = A.flatten ++ (x'' ++ B''.flatten) := by
    rw [k5, ← p5]; simp only [List.flatten_nil, List.append_nil, List.flatten_append, List.flatten_cons]
    rw [← List.append_assoc, ← List.flatten_append]; congr 1
    conv_lhs => rw [← List.take_append_drop A.length A', p8]
  have hflat : (A ++ (x''.take (i - i / L.pageSize * L.pageSize) ++ [e] ++ x''.drop (i - i / L.pageSize * L.pageSize)) :: B'').flatten
      = (init ++ [t]).flatten.take i ++ [e] ++ (init ++ [t]).flatten.drop i := by
    rw [hfl]
    simp only [List.flatten_append, List.flatten_cons]
    rw [List.take_append, List.drop_append, List.take_of_length_le (l := A.flatten) (by omega), List.drop_of_length_le (l := A.flatten) (by omega), hAl]
    rw [List.take_append_of_le_length hei, List.drop_append_of_le_length hei]
    simp
  have hcnt : L.count + 1 = (A ++ (x''.take (i - i / L.pageSize * L.pageSize) ++ [e] ++ x''.drop (i - i / L.pageSize * L.pageSize)) :: B'').flatten.length := by
    rw [hflat]
    rw [List.length_append, List.length_append, List.length_take, List.length_drop, ← o.count]; simp; omega
  have hlx : (x''.take (i - i / L.pageSize * L.pageSize) ++ [e] ++ x''.drop (i - i / L.pageSize * L.pageSize)).length = x''.length + 1 := by
    rw [List.length_append, List.length_append, List.length_take, List.length_drop]; simp; omega
  rcases k4 with rfl | ⟨kl, mid, t', rfl, m1, m2, m3⟩
  · exact ⟨_, hs, rfl, A, _, ⟨f2_mid r4 ga r6, ⟨hA, by simp only []; omega, by simp⟩, hcnt, o.chunk1, o.ps1, rfl⟩, hflat⟩
  · refine ⟨_, hs, rfl, A ++ (x''.take (i - i / L.pageSize * L.pageSize) ++ [e] ++ x''.drop (i - i / L.pageSize * L.pageSize)) :: mid, t',
      ⟨?_, ⟨?_, m3, fun h => absurd h m2⟩, ?_, o.chunk1, o.ps1, rfl⟩, ?_⟩
    · rw [List.append_assoc, List.cons_append]; exact f2_mid r4 ga r6
    · intro y hy; simp only [List.mem_append (s := A), List.mem_cons] at hy
      rcases hy with hy | rfl | hy
      · exact hA y hy
      · simp only []; omega
      · exact m1 y hy
    · rw [List.append_assoc, List.cons_append]; exact hcnt
    · rw [List.append_assoc, List.cons_append]; exact hflat

theorem pull_ok {chunk ps : Nat} : ∀ (PB : List (Arr α)) (B : List (Cells α)) (a : Arr α) (x : Cells α), PG chunk a x → List.Forall₂ (PG chunk) PB B →
    x.length ≤ ps → After ps x B →
    ∃ P mid t, pull a PB = .ok P ∧ List.Forall₂ (PG chunk) P (mid ++ [t]) ∧ (∀ y ∈ mid, y.length = ps) ∧ t.length ≤ ps ∧
      (mid ++ [t]).flatten = x ++ B.flatten := by
  intro PB
  induction PB with
  | nil =>
    intro B a x g h hx _
    cases h
    exact ⟨[a], [], x, rfl, .cons g .nil, by simp, hx, by simp⟩
  | cons b PB ih =>
    intro B a x g h hx ha
    cases h with
    | @cons _ y _ B hb hB =>
    rcases ha with ha | ⟨hx', mid, t, hm, m1, m2, m3⟩
    · cases ha
    · have hy : ∃ y0 z, y = z :: y0 ∧ y0.length < ps ∧ After ps y0 B := by
        cases mid with
        | nil =>
          simp at hm; obtain ⟨rfl, rfl⟩ := hm
          cases y with
          | nil => exact absurd rfl m2
          | cons z y0 => exact ⟨y0, z, rfl, by simp at m3; omega, Or.inl rfl⟩
        | cons y' mid =>
          simp at hm; obtain ⟨rfl, rfl⟩ := hm
          have hy := m1 y (by simp)
          cases y with
          | nil => simp at hy; omega
          | cons z y0 => exact ⟨y0, z, rfl, by simp at hy; omega, Or.inr ⟨by simpa using hy, mid, t, rfl, fun q hq => m1 q (by simp [hq]), m2, m3⟩⟩
      obtain ⟨y0, z, rfl, hy0, hAf⟩ := hy
      obtain ⟨c, ec, hc⟩ := pg_get hb 0 (by simp)
      obtain ⟨a', r1, e1, g1⟩ := pg_append g c
      obtain ⟨b', r2, e2, g2⟩ := pg_remove hb 0 (by simp)
      have g1' := snoc_weaken g1 (z := z) (fun v hv => hc v (by simpa using hv))
      have g2' : PG chunk b' y0 := by simpa using g2
      obtain ⟨P, mid', t', k1, k2, k3, k4, k5⟩ := ih B b' y0 g2' hB (by omega) hAf
      refine ⟨a' :: P, (x ++ [z]) :: mid', t', ?_, ?_, ?_, k4, ?_⟩
      · simp only [pull]; rw [ec, ebind, e1, ebind]; simp only []; rw [e2, ebind]; simp only []; rw [k1, ebind]; rfl
      · exact .cons g1' k2
      · intro q hq; rcases List.mem_cons.1 hq with rfl | hq
        · simp; omega
        · exact k3 q hq
      · rw [List.cons_append, List.flatten_cons, k5]; simp

theorem remove_rep {chunk} {L : PL α} {init t} (o : LOk chunk L init t) (i) (hi : i < (init ++ [t]).flatten.length) :
    StepRep chunk L (init ++ [t]).flatten (.remove i) := by
  rw [← o.count] at hi
  obtain ⟨A, x, B, PA, a, PB, h1, h2, hl1, hl2, f1, hg, f2, hA, hx, hp, hAl, hle⟩ := at_index o hi
  obtain ⟨s1, s2, s3⟩ := shape_mid o.shape h1
  obtain ⟨a', r, ea, ga⟩ := pg_remove hg _ hx
  have hlen : (x.take (i - i / L.pageSize * L.pageSize) ++ x.drop (i - i / L.pageSize * L.pageSize + 1)).length + 1 = x.length := by
    rw [List.length_append, List.length_take, List.length_drop]; omega
  obtain ⟨P, mid, t', k1, k2, k3, k4, k5⟩ := pull_ok (ps := L.pageSize) PB B a' _ ga f2 (by omega) (by
    rcases s3 with ⟨rfl, -, -⟩ | ⟨mid, rfl, hini, hxl, hmid⟩
    · exact Or.inl rfl
    · exact Or.inr ⟨by omega, mid, t, rfl, hmid, fun h => by have := o.shape.ne h; simp [this] at hini, o.shape.le⟩)
  have hall : List.Forall₂ (PG chunk) (PA ++ P) ((A ++ mid) ++ [t']) := by rw [List.append_assoc]; exact f2_append f1 k2
  obtain ⟨Q, z, ZB, z1, z2, z3, z4, z5, z6⟩ := f2_split (A := A ++ mid) (x := t') (B := []) hall
  obtain rfl : ZB = [] := List.length_eq_zero_iff.1 z3
  have hz := z5.count
  have hflat : ((A ++ mid) ++ [t']).flatten = (init ++ [t]).flatten.take i ++ (init ++ [t]).flatten.drop (i + 1) := by
    rw [List.append_assoc, List.flatten_append, k5, h1]
    simp only [List.flatten_append, List.flatten_cons]
    rw [List.take_append, List.drop_append, List.take_of_length_le (l := A.flatten) (by omega), List.drop_of_length_le (l := A.flatten) (by omega), hAl]
    rw [show i + 1 - i / L.pageSize * L.pageSize = (i - i / L.pageSize * L.pageSize) + 1 by omega]
    rw [List.take_append_of_le_length (by omega), List.drop_append_of_le_length (by omega)]
    simp
  have hcnt : L.count - 1 = ((A ++ mid) ++ [t']).flatten.length := by
    rw [hflat, List.length_append, List.length_take, List.length_drop, ← o.count]; omega
  have hs : step L (.remove i) = .ok ({ L with
      pages := if L.count - 1 ≠ 0 ∧ z.count = 0 then Q else Q ++ [z], count := L.count - 1
      hasLast := if L.count - 1 ≠ 0 ∧ z.count = 0 then true else L.hasLast }, .unit) := by
    simp only [step, remove, hi, if_true]
    rw [hp, ebind, page_mid h2, ebind, ea, ebind]
    simp only []
    have d1 : L.pages.drop (PA.length + 1) = PB := by rw [h2]; simp
    have d2 : L.pages.take PA.length = PA := by rw [h2]; simp
    rw [d1, d2, k1, ebind, z1]
    simp only [show (Q ++ [z]).length - 1 = Q.length by simp, List.getElem?_concat_length, List.dropLast_concat]; rfl
  have hfull : ∀ y ∈ A ++ mid, y.length = L.pageSize := fun y hy => by
    rcases List.mem_append.1 hy with hy | hy
    · exact hA y hy
    · exact k3 y hy
  have hlast : (if L.count - 1 ≠ 0 ∧ z.count = 0 then true else L.hasLast) = true := by rw [o.last]; simp
  have hps := o.ps1
  by_cases hd : L.count - 1 ≠ 0 ∧ z.count = 0
  · rw [if_pos hd, if_pos hd] at hs
    obtain rfl : t' = [] := List.length_eq_zero_iff.1 (by omega)
    rcases List.eq_nil_or_concat (A ++ mid) with he | ⟨init', t'', he⟩
    · rw [he] at hcnt; simp at hcnt; omega
    · rw [List.concat_eq_append] at he
      rw [he] at z4 hfull hcnt hflat
      have := hfull t'' (by simp)
      refine ⟨_, hs, rfl, init', t'', ⟨z4, ⟨fun y hy => hfull y (by simp [hy]), by simp only []; omega, ?_⟩, ?_, o.chunk1, hps, rfl⟩, ?_⟩
      · intro h; subst h; simp at this; omega
      · rw [hcnt]; simp
      · simp only [PList.Spec.edit]; rw [← hflat]; simp
  · rw [if_neg hd, if_neg hd] at hs
    refine ⟨_, hs, rfl, A ++ mid, t', ⟨z1 ▸ hall, ⟨hfull, k4, ?_⟩, hcnt, o.chunk1, hps, o.last⟩, hflat⟩
    intro h; subst h
    by_cases hne : A ++ mid = []
    · exact hne
    · exfalso; apply hd; refine ⟨?_, by simpa using hz⟩
      rw [hcnt]; intro h0
      rw [List.flatten_append, List.length_append, flatten_full hfull] at h0
      have : 0 < (A ++ mid).length := List.length_pos_iff.2 hne
      have : (A ++ mid).length * L.pageSize = 0 := by omega
      rcases Nat.mul_eq_zero.1 this with h | h <;> omega

end Verif.PList
namespace Verif.PList
open Verif.Array PList.Spec
variable {α : Type}

theorem agrees_nil : Agrees ([] : List (Cell α)) [] := ⟨rfl, by simp⟩

theorem agrees_cons {c : Cell α} {o : Option α} {cs l} (h : ∀ v, o = some v → c = some v) (a : Agrees cs l) : Agrees (c :: cs) (o :: l) := by
  refine ⟨by simp [a.1], fun i v hv => ?_⟩
  cases i with
  | zero => simp at hv ⊢; exact h v hv
  | succ i => simp at hv ⊢; exact a.2 i v hv

theorem current_ok {chunk} {L : PL α} {PA a PB} {x : Cells α} (hP : L.pages = PA ++ a :: PB) (g : PG chunk a x) {j tl} (hj : j < x.length) :
    ∃ c, Enum.current L ⟨some PA.length, tl, a.count, j⟩ = .ok (some c) ∧ ∀ v, x[j] = some v → c = some v := by
  obtain ⟨c, ec, hc⟩ := pg_get g j hj
  refine ⟨c, ?_, hc⟩
  have := g.count
  rw [Enum.current, if_neg (by simp only; omega)]
  simp only []
  rw [page_mid hP, ebind, ec]; rfl

theorem forward_from {chunk} {L : PL α} : ∀ (fuel : Nat) {PA a PB} {A : List (Cells α)} {x : Cells α} {B : List (Cells α)} {j tl c},
    L.pages = PA ++ a :: PB → List.Forall₂ (PG chunk) PA A → PG chunk a x → List.Forall₂ (PG chunk) PB B → (∀ y ∈ B, y ≠ []) →
    (hj : j < x.length) → (∀ v, x[j] = some v → c = some v) → (x.drop j ++ B.flatten).length ≤ fuel →
    ∃ cs, collect (enumNext L) fuel (⟨some PA.length, tl, a.count, j⟩, some c) = .ok cs ∧ Agrees cs (x.drop j ++ B.flatten) := by
  intro fuel
  induction fuel with
  | zero => intro PA a PB A x B j tl c _ _ _ _ _ hj _ h; simp at h; omega
  | succ fuel ih =>
    intro PA a PB A x B j tl c hP fA g fB hB hj hc hf
    have hcnt := g.count
    have hdrop : x.drop j = x[j] :: x.drop (j + 1) := List.drop_eq_getElem_cons hj
    rw [hdrop] at hf ⊢
    rw [List.cons_append, List.length_cons] at hf
    have hrest : ∃ st, enumNext L ⟨some PA.length, tl, a.count, j⟩ = .ok st ∧ ∃ cs, collect (enumNext L) fuel st = .ok cs ∧ Agrees cs (x.drop (j + 1) ++ B.flatten) := by
      rw [enumNext, if_neg (by simp only; omega)]
      by_cases hj1 : j + 1 < x.length
      · rw [if_pos (by simp only; omega)]
        obtain ⟨c', ec', hc'⟩ := current_ok (tl := tl) hP g hj1
        refine ⟨_, by simp only [ec', ebind]; rfl, ih hP fA g fB hB hj1 hc' (by omega)⟩
      · rw [if_neg (by simp only; omega)]
        have hd : x.drop (j + 1) = [] := List.drop_of_length_le (by omega)
        rw [hd] at hf ⊢
        cases fB with
        | nil =>
          simp only []
          rw [if_neg (by simp [hP])]
          exact ⟨_, rfl, [], by cases fuel <;> rfl, by simpa using agrees_nil⟩
        | @cons b y PB B gb fB =>
          simp only []
          rw [if_pos (by simp [hP])]
          have hP' : L.pages = (PA ++ [a]) ++ b :: PB := by simp [hP]
          have hlen : PA.length + 1 = (PA ++ [a]).length := by simp
          rw [hlen, page_mid hP', ebind]
          have hy : y ≠ [] := hB y (by simp)
          have hy0 : 0 < y.length := List.length_pos_iff.2 hy
          obtain ⟨c', ec', hc'⟩ := current_ok (tl := tl) hP' gb hy0
          simp only [ec', ebind]
          refine ⟨_, rfl, ?_⟩
          have := ih (tl := tl) hP' (f2_append fA (.cons g .nil)) gb fB (fun y hy => hB y (by simp [hy])) hy0 hc' (by simpa using hf)
          simpa using this
    obtain ⟨st, e1, cs, e2, e3⟩ := hrest
    refine ⟨c :: cs, ?_, agrees_cons hc e3⟩
    rw [collect, e1, ebind, e2, ebind]; rfl

theorem shape_ne {ps : Nat} (hps : 1 ≤ ps) {init : List (Cells α)} {t A x B} (s : Shape ps init t) (h : init ++ [t] = A ++ x :: B) :
    (∀ y ∈ A, y ≠ []) ∧ (∀ y ∈ B, y ≠ []) := by
  obtain ⟨s1, s2, s3⟩ := shape_mid s h
  have key : ∀ y : Cells α, y.length = ps → y ≠ [] := fun y hy h => by subst h; simp at hy; omega
  refine ⟨fun y hy => key y (s1 y hy), ?_⟩
  rcases s3 with ⟨rfl, -, -⟩ | ⟨mid, rfl, hi, h1, h2⟩
  · simp
  · intro y hy; rcases List.mem_append.1 hy with hy | hy
    · exact key y (h2 y hy)
    · simp at hy; subst hy; intro h; have := s.ne h; rw [this] at hi; simp at hi

theorem forwards_ok {chunk} {L : PL α} {init t} (o : LOk chunk L init t) : ∃ cs, forwards L = .ok cs ∧ Agrees cs (init ++ [t]).flatten := by
  obtain ⟨x, B, hxB⟩ : ∃ x B, init ++ [t] = [] ++ x :: B := by cases init <;> simp
  obtain ⟨PA, a, PB, h1, h2, h3, h4, h5, h6⟩ := f2_split (hxB ▸ o.pages)
  obtain rfl : PA = [] := List.length_eq_zero_iff.1 h2
  have hp : page L 0 = .ok a := page_mid (PA := []) h1
  have hc := h5.count
  obtain ⟨-, hBn⟩ := shape_ne o.ps1 o.shape hxB
  have hcount := o.count
  rw [hxB] at hcount ⊢
  simp only [forwards, getEnumerable]
  rw [hp, ebind]
  simp only [enumHead, hp, ebind, pure_bind]
  by_cases hx : x = []
  · subst hx
    have hini : init = [] := by
      cases init with
      | nil => rfl
      | cons y ys => simp at hxB; obtain ⟨rfl, -⟩ := hxB; have := o.shape.full [] (by simp); have := o.ps1; simp at *; omega
    subst hini; simp at hxB; obtain ⟨rfl, rfl⟩ := hxB
    refine ⟨[], ?_, by simpa using agrees_nil⟩
    have : a.count = 0 := by simpa using hc
    simp only [Enum.current, this, if_true, ebind]; cases L.count <;> rfl
  · have hx0 : 0 < x.length := List.length_pos_iff.2 hx
    obtain ⟨c, ec, hcc⟩ := current_ok (tl := if L.hasLast then some (L.pages.length - 1) else none) h1 h5 hx0
    have := forward_from L.count (tl := if L.hasLast then some (L.pages.length - 1) else none) h1 h4 h5 h6 hBn hx0 hcc (by simp at hcount; simp; omega)
    simp only [List.length_nil] at ec this
    rw [ec, ebind]
    simpa using this

theorem backward_from {chunk} {L : PL α} : ∀ (fuel : Nat) {PA a PB} {A : List (Cells α)} {x : Cells α} {j tl c},
    L.pages = PA ++ a :: PB → List.Forall₂ (PG chunk) PA A → PG chunk a x → (∀ y ∈ A, y ≠ []) →
    (hj : j < x.length) → (∀ v, x[j] = some v → c = some v) → (A.flatten ++ x.take (j + 1)).length ≤ fuel →
    ∃ cs, collect (enumPrev L) fuel (⟨some PA.length, tl, a.count, j⟩, some c) = .ok cs ∧ Agrees cs (A.flatten ++ x.take (j + 1)).reverse := by
  intro fuel
  induction fuel with
  | zero => intro PA a PB A x j tl c _ _ _ _ hj _ h; simp only [List.length_append, List.length_take] at h; omega
  | succ fuel ih =>
    intro PA a PB A x j tl c hP fA g hA hj hc hf
    have hcnt := g.count
    have htk : x.take (j + 1) = x.take j ++ [x[j]] := (List.take_append_getElem hj).symm
    rw [htk] at hf ⊢
    rw [← List.append_assoc, List.length_append] at hf
    simp only [List.length_cons, List.length_nil] at hf
    have hrest : ∃ st, enumPrev L ⟨some PA.length, tl, a.count, j⟩ = .ok st ∧ ∃ cs, collect (enumPrev L) fuel st = .ok cs ∧ Agrees cs (A.flatten ++ x.take j).reverse := by
      rw [enumPrev, if_neg (by simp only; omega)]
      by_cases hj1 : j > 0
      · rw [if_pos (by simp only; omega)]
        obtain ⟨c', ec', hc'⟩ := current_ok (j := j - 1) (tl := tl) hP g (by omega)
        refine ⟨_, by simp only [ec', ebind]; rfl, ?_⟩
        have := ih (j := j - 1) (tl := tl) hP fA g hA (by omega) hc' (by rw [show j - 1 + 1 = j by omega]; omega)
        rwa [show j - 1 + 1 = j by omega] at this
      · rw [if_neg (by simp only; omega)]
        obtain rfl : j = 0 := by omega
        rcases List.eq_nil_or_concat A with rfl | ⟨A0, y, rfl⟩
        · cases fA
          exact ⟨_, rfl, [], by cases fuel <;> rfl, by simpa using agrees_nil⟩
        · rw [List.concat_eq_append] at fA hA hf ⊢
          obtain ⟨P0, b, PB', e1, e2, e3, e4, e5, e6⟩ := f2_split (A := A0) (x := y) (B := []) fA
          obtain rfl : PB' = [] := List.length_eq_zero_iff.1 e3
          have hP' : L.pages = P0 ++ b :: (a :: PB) := by rw [hP, e1]; simp
          have hlen : PA.length = P0.length + 1 := by rw [e1]; simp
          have hb := e5.count
          have hy : y ≠ [] := hA y (by simp)
          have hy0 : 0 < y.length := List.length_pos_iff.2 hy
          obtain ⟨c', ec', hc'⟩ := current_ok (j := y.length - 1) (tl := tl) hP' e5 (by omega)
          rw [hlen]; simp only []
          rw [page_mid hP', ebind, hb]
          rw [hb] at ec'
          simp only [ec', ebind]
          refine ⟨_, rfl, ?_⟩
          have := ih (j := y.length - 1) (tl := tl) hP' e4 e5 (fun y hy => hA y (by simp [hy])) (by omega) hc'
            (by rw [show y.length - 1 + 1 = y.length by omega, List.take_length]; simpa using hf)
          rw [hb, show y.length - 1 + 1 = y.length by omega, List.take_length] at this
          simpa using this
    obtain ⟨st, e1, cs, e2, e3⟩ := hrest
    refine ⟨c :: cs, ?_, ?_⟩
    · rw [collect, e1, ebind, e2, ebind]; rfl
    · rw [← List.append_assoc, List.reverse_append]; exact agrees_cons hc e3

theorem backwards_ok {chunk} {L : PL α} {init t} (o : LOk chunk L init t) : ∃ cs, backwards L = .ok cs ∧ Agrees cs (init ++ [t]).flatten.reverse := by
  obtain ⟨P, a, h1, h2, h3, h4⟩ := last_page o
  obtain ⟨hAn, -⟩ := shape_ne o.ps1 o.shape (show init ++ [t] = init ++ t :: [] from rfl)
  obtain ⟨p0, hp0⟩ : ∃ p0, page L 0 = .ok p0 := by
    simp only [page]; cases hpp : L.pages[0]? with
    | some q => exact ⟨q, rfl⟩
    | none => exfalso; simp at hpp; rw [hpp] at h1; simp at h1
  have hp : page L P.length = .ok a := page_mid h1
  have hlen : L.pages.length - 1 = P.length := by rw [h1]; simp
  have hcnt := h4.count
  have hcount := o.count
  simp only [backwards, getEnumerable]
  rw [hp0, ebind]
  simp only [pure_bind, o.last, if_true, hlen, enumTail, ebind, hp]
  by_cases ht : t = []
  · have hini := o.shape.ne ht; subst hini; subst ht
    refine ⟨[], ?_, by simpa using agrees_nil⟩
    have : a.count = 0 := by simpa using hcnt
    simp only [Enum.current, this, if_true, ebind]; cases L.count <;> rfl
  · have ht0 : 0 < t.length := List.length_pos_iff.2 ht
    obtain ⟨c, ec, hcc⟩ := current_ok (j := t.length - 1) (tl := some P.length) h1 h4 (by omega)
    have := backward_from L.count (tl := some P.length) h1 h3 h4 hAn (j := t.length - 1) (by omega) hcc
      (by rw [show t.length - 1 + 1 = t.length by omega, List.take_length]; simp at hcount; simp; omega)
    rw [hcnt] at ec this ⊢
    rw [ec, ebind]
    rw [show t.length - 1 + 1 = t.length by omega, List.take_length] at this
    simpa using this

theorem step_rep {chunk} {L : PL α} {l} (h : Rep chunk L l) (op : Op α) (hv : valid l.length op) (hh : handled L.pageSize l.length op) :
    StepRep chunk L l op := by
  obtain ⟨init, t, o, rfl⟩ := h
  cases op with
  | append e => exact append_rep o e
  | appendN s => exact appendN_rep o s hv hh
  | replace i e => exact replace_rep o i e hv
  | insert i e => exact insert_rep o i e hv
  | remove i => exact remove_rep o i hv
  | removeAll => exact removeAll_rep o

theorem rep_shows {chunk} {L : PL α} {l} (h : Rep chunk L l) : Shows L l := by
  obtain ⟨init, t, o, rfl⟩ := h
  exact ⟨o.count, fun i hi => get_ok o hi, forwards_ok o, backwards_ok o⟩

theorem history_rep {chunk ps : Nat} {L : PL α} {l} (h : HistoryH chunk ps L l) : Rep chunk L l := by
  induction h with
  | create L h => exact ⟨[], [], create_lok h, rfl⟩
  | call L l op L' r _ hv hh hs ih =>
    obtain ⟨L2, e, -, rep⟩ := step_rep ih op hv hh
    rw [e] at hs; cases hs; exact rep

end Verif.PList
