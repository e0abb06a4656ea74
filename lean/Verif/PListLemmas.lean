import Verif.PListSpec
import Verif.ArrayLemmas
import Mathlib.Data.List.Forall2
import Mathlib.Data.List.Induction
namespace Verif.PList
open Verif.Array Spec
variable {α : Type}

abbrev Cells (α : Type) := List (Option α)

/-- Page `a` holds `l`. -/
def PG (chunk : Nat) (a : Arr α) (l : Cells α) : Prop := Good a l ∧ a.chunk = chunk

theorem PG.count {chunk} {a : Arr α} {l} (g : PG chunk a l) : a.count = l.length := g.1.cnt

theorem pg_create {chunk : Nat} (h : 1 ≤ chunk) : ∃ a, Array.create α chunk true = .ok a ∧ PG chunk a [] := by
  refine ⟨_, by simp [Array.create, h]; rfl, good_create (chunk := chunk) (ok := true) (by simp [Array.create, h]), rfl⟩

theorem pg_append {chunk} {a : Arr α} {l} (g : PG chunk a l) (e) :
    ∃ a' r, Array.append a e true = .ok (a', r) ∧ PG chunk a' (l ++ [e]) := by
  obtain ⟨a', r, h1, h2, h3, h4, -⟩ := step_append g.1 e true
  have : r ≠ .sizeMax := fun h => by simpa [Array.Spec.refused] using (h4 h).1
  rw [if_neg this] at h3
  exact ⟨a', r, h1, h3, h2.trans g.2⟩

theorem pg_appendN {chunk} {a : Arr α} {l} (g : PG chunk a l) (s : Src α) (hs : s.count ≠ 0) :
    ∃ a' r, Array.appendN a s true = .ok (a', r) ∧ PG chunk a' (l ++ s.cells) := by
  obtain ⟨a', r, h1, h2, h3, h4, -⟩ := step_appendN g.1 s true hs
  have : r ≠ .sizeMax := fun h => by simpa [Array.Spec.refused] using (h4 h).1
  rw [if_neg this] at h3
  exact ⟨a', r, h1, h3, h2.trans g.2⟩

theorem pg_insert {chunk} {a : Arr α} {l} (g : PG chunk a l) (i e) (hi : i < l.length) :
    ∃ a' r, Array.insert a i e true = .ok (a', r) ∧ PG chunk a' (l.take i ++ [e] ++ l.drop i) := by
  obtain ⟨a', r, h1, h2, h3, h4, -⟩ := step_insert g.1 i e true hi
  have : r ≠ .sizeMax := fun h => by simpa [Array.Spec.refused] using (h4 h).1
  rw [if_neg this] at h3
  exact ⟨a', r, h1, h3, h2.trans g.2⟩

theorem pg_remove {chunk} {a : Arr α} {l} (g : PG chunk a l) (i) (hi : i < l.length) :
    ∃ a' r, Array.remove a i = .ok (a', r) ∧ PG chunk a' (l.take i ++ l.drop (i + 1)) := by
  obtain ⟨a', r, h1, h2, h3, h4, -⟩ := step_remove g.1 i hi
  have : r ≠ .sizeMax := fun h => by simpa [Array.Spec.refused] using (h4 h).1
  rw [if_neg this] at h3
  exact ⟨a', r, h1, h3, h2.trans g.2⟩

theorem pg_replace {chunk} {a : Arr α} {l} (g : PG chunk a l) (i e) (hi : i < l.length) :
    ∃ a' r, Array.replace a i e = .ok (a', r) ∧ PG chunk a' (match e with | none => l | some v => l.set i (some v)) := by
  obtain ⟨a', r, h1, h2, h3, h4, -⟩ := step_replace g.1 i e hi
  have : r ≠ .sizeMax := fun h => by simpa [Array.Spec.refused] using (h4 h).1
  rw [if_neg this] at h3
  exact ⟨a', r, h1, h3, h2.trans g.2⟩

theorem pg_get {chunk} {a : Arr α} {l} (g : PG chunk a l) (i) (hi : i < l.length) :
    ∃ c, Array.get a i = .ok c ∧ ∀ v, l[i] = some v → c = some v := (good_shows g.1).2 i hi

/-- A page whose contents are only weakened still holds them. -/
theorem pg_weaken {chunk} {a : Arr α} {l l'} (g : PG chunk a l) (hlen : l'.length = l.length)
    (h : ∀ (i : Nat) (v : α), l'[i]? = some (some v) → l[i]? = some (some v)) : PG chunk a l' :=
  ⟨⟨g.1.inv, by rw [g.1.cnt, hlen], fun c hc i v hv => g.1.agree c hc i v (h i v hv)⟩, g.2⟩

/-- Contents of the pages: all full except the last, which is empty only when it is the only page. -/
structure Shape (ps : Nat) (init : List (Cells α)) (t : Cells α) : Prop where
  full : ∀ x ∈ init, x.length = ps
  le : t.length ≤ ps
  ne : t = [] → init = []

structure LOk (chunk : Nat) (L : PL α) (init : List (Cells α)) (t : Cells α) : Prop where
  pages : List.Forall₂ (PG chunk) L.pages (init ++ [t])
  shape : Shape L.pageSize init t
  count : L.count = (init ++ [t]).flatten.length
  chunk1 : 1 ≤ chunk
  ps1 : 1 ≤ L.pageSize
  last : L.hasLast = true

theorem flatten_full {ps : Nat} {A : List (Cells α)} (h : ∀ x ∈ A, x.length = ps) : A.flatten.length = A.length * ps := by
  induction A with
  | nil => simp
  | cons x xs ih =>
    have h1 := h x (by simp)
    have h2 := ih (fun y hy => h y (by simp [hy]))
    simp only [List.flatten_cons, List.length_append, List.length_cons, h1, h2, Nat.add_mul]; omega

/-- Where index `i` lives. -/
theorem locate {ps : Nat} {init : List (Cells α)} {t} (s : Shape ps init t) (hps : 1 ≤ ps) {i} (hi : i < (init ++ [t]).flatten.length) :
    ∃ A x B, init ++ [t] = A ++ x :: B ∧ A.length = i / ps ∧ (∀ y ∈ A, y.length = ps) ∧ i - i / ps * ps < x.length ∧
      ((init ++ [t]).flatten.length - 1) / ps = A.length + B.length := by
  have hlen : (init ++ [t]).flatten.length = init.length * ps + t.length := by
    simp [flatten_full s.full]
  rw [hlen] at hi ⊢
  have hmod := Nat.mod_lt i (show ps > 0 by omega)
  have hdm := Nat.div_add_mod i ps
  rw [Nat.mul_comm] at hdm
  have hle := s.le
  have htpos : 0 < t.length := by
    rcases Nat.eq_zero_or_pos t.length with h | h
    · have := s.ne (List.length_eq_zero_iff.1 h); subst this; simp [h] at hi
    · exact h
  have hmax : (init.length * ps + t.length - 1) / ps = init.length := by
    rw [Nat.add_sub_assoc htpos, Nat.add_comm, Nat.mul_comm, Nat.add_mul_div_left _ _ (by omega), Nat.div_eq_of_lt (by omega)]; omega
  have hp : i / ps ≤ init.length := by
    rw [← Nat.lt_succ_iff, Nat.div_lt_iff_lt_mul (by omega), Nat.succ_mul]; omega
  rcases Nat.lt_or_eq_of_le hp with hp | hp
  · refine ⟨init.take (i / ps), init[i / ps], init.drop (i / ps + 1) ++ [t], ?_, by simp; omega, fun y hy => s.full y (List.mem_of_mem_take hy), ?_, ?_⟩
    · rw [← List.cons_append, ← List.append_assoc]; congr 1; rw [List.getElem_cons_drop, List.take_append_drop]
    · rw [s.full _ (List.getElem_mem _)]; omega
    · rw [hmax]; simp; omega
  · refine ⟨init, t, [], rfl, hp.symm, s.full, ?_, by simp [hmax]⟩
    rw [hp] at hdm ⊢; omega

theorem f2_split {R : Arr α → Cells α → Prop} {P : List (Arr α)} {A : List (Cells α)} {x B} (h : List.Forall₂ R P (A ++ x :: B)) :
    ∃ PA a PB, P = PA ++ a :: PB ∧ PA.length = A.length ∧ PB.length = B.length ∧ List.Forall₂ R PA A ∧ R a x ∧ List.Forall₂ R PB B := by
  induction A generalizing P with
  | nil =>
    cases h with
    | cons hax hB => exact ⟨[], _, _, rfl, rfl, hB.length_eq, .nil, hax, hB⟩
  | cons y A ih =>
    cases h with
    | cons hy h =>
      obtain ⟨PA, a, PB, rfl, h2, h3, h4, h5, h6⟩ := ih h
      exact ⟨_ :: PA, a, PB, rfl, by simp [h2], h3, .cons hy h4, h5, h6⟩

theorem f2_append {R : Arr α → Cells α → Prop} {P Q : List (Arr α)} {A B} (h : List.Forall₂ R P A) (h' : List.Forall₂ R Q B) :
    List.Forall₂ R (P ++ Q) (A ++ B) := List.rel_append h h'

theorem f2_mid {R : Arr α → Cells α → Prop} {P Q : List (Arr α)} {A B} {a x} (h : List.Forall₂ R P A) (ha : R a x) (h' : List.Forall₂ R Q B) :
    List.Forall₂ R (P ++ a :: Q) (A ++ x :: B) := f2_append h (.cons ha h')

theorem getPage_ok {chunk} {L : PL α} {init t} (o : LOk chunk L init t) {i A x B} (hi : i < L.count)
    (h1 : init ++ [t] = A ++ x :: B) (h2 : A.length = i / L.pageSize)
    (h3 : ((init ++ [t]).flatten.length - 1) / L.pageSize = A.length + B.length) : getPage L (i / L.pageSize) = .ok A.length := by
  have hl := o.pages.length_eq
  rw [h1] at hl; simp at hl
  simp only [getPage, o.count, h3, ← h2]
  split
  · rw [if_pos (by omega)]; congr 1; omega
  · rw [if_pos (by omega)]

/-- Everything needed about a position. -/
theorem at_index {chunk} {L : PL α} {init t} (o : LOk chunk L init t) {i} (hi : i < L.count) :
    ∃ A x B PA a PB, init ++ [t] = A ++ x :: B ∧ L.pages = PA ++ a :: PB ∧ PA.length = A.length ∧ PB.length = B.length ∧
      List.Forall₂ (PG chunk) PA A ∧ PG chunk a x ∧ List.Forall₂ (PG chunk) PB B ∧
      (∀ y ∈ A, y.length = L.pageSize) ∧ i - i / L.pageSize * L.pageSize < x.length ∧
      getPage L (i / L.pageSize) = .ok PA.length ∧ A.flatten.length = i / L.pageSize * L.pageSize ∧ i / L.pageSize * L.pageSize ≤ i := by
  obtain ⟨A, x, B, h1, h2, h3, h4, h5⟩ := locate o.shape o.ps1 (by rw [← o.count]; exact hi)
  obtain ⟨PA, a, PB, h6, h7, h8, h9, h10, h11⟩ := f2_split (h1 ▸ o.pages)
  exact ⟨A, x, B, PA, a, PB, h1, h6, h7, h8, h9, h10, h11, h3, h4, by rw [h7]; exact getPage_ok o hi h1 h2 h5,
    by rw [flatten_full h3, h2], Nat.div_mul_le_self _ _⟩

theorem page_mid {L : PL α} {PA a PB} (h : L.pages = PA ++ a :: PB) : page L PA.length = .ok a := by
  simp [page, h]

theorem set_mid {β} (PA : List β) (a a' PB) : (PA ++ a :: PB).set PA.length a' = PA ++ a' :: PB := by simp

theorem ebind {ε β γ} (x : β) (f : β → Except ε γ) : (Except.ok x >>= f) = f x := rfl

theorem create_lok {chunk ps : Nat} {L : PL α} (h : create α chunk ps = .ok L) : LOk chunk L [] [] := by
  unfold create at h
  split at h
  · next hc =>
    obtain ⟨a, e, g⟩ := pg_create (α := α) hc.1
    rw [e, ebind] at h
    cases h
    refine ⟨by simpa using g, ⟨by simp, by simp, by simp⟩, rfl, hc.1, ?_, rfl⟩
    simp only []; split <;> omega
  · cases h

theorem get_ok {chunk} {L : PL α} {init t} (o : LOk chunk L init t) {i} (hi : i < (init ++ [t]).flatten.length) :
    ∃ c, get L i = .ok c ∧ ∀ v, (init ++ [t]).flatten[i] = some v → c = some v := by
  rw [← o.count] at hi
  obtain ⟨A, x, B, PA, a, PB, h1, h2, -, -, -, hg, -, -, hx, hp, hA, hle⟩ := at_index o hi
  obtain ⟨c, hc, hv⟩ := pg_get hg _ hx
  refine ⟨c, ?_, ?_⟩
  · rw [get, if_pos hi, hp, ebind, page_mid h2, ebind, hc]
  · intro v h; apply hv; rw [← h]
    simp only [h1, List.flatten_append, List.flatten_cons]
    rw [List.getElem_append_right (by omega), List.getElem_append_left (by omega)]
    simp only [hA]

/-- The list holds `l`. -/
def Rep (chunk : Nat) (L : PL α) (l : Cells α) : Prop := ∃ init t, LOk chunk L init t ∧ (init ++ [t]).flatten = l

def StepRep (chunk : Nat) (L : PL α) (l : Cells α) (op : Op α) : Prop :=
  ∃ L', step L op = .ok (L', result l op) ∧ L'.pageSize = L.pageSize ∧ Rep chunk L' (edit l op)

theorem last_page {chunk} {L : PL α} {init t} (o : LOk chunk L init t) :
    ∃ P a, L.pages = P ++ [a] ∧ P.length = init.length ∧ List.Forall₂ (PG chunk) P init ∧ PG chunk a t := by
  obtain ⟨PA, a, PB, h1, h2, h3, h4, h5, h6⟩ := f2_split (A := init) (x := t) (B := []) o.pages
  obtain rfl : PB = [] := List.length_eq_zero_iff.1 h3
  exact ⟨PA, a, h1, h2, h4, h5⟩

theorem append_rep {chunk} {L : PL α} {init t} (o : LOk chunk L init t) (e) : StepRep chunk L (init ++ [t]).flatten (.append e) := by
  obtain ⟨P, a, h1, h2, h3, h4⟩ := last_page o
  have hp : page L (L.pages.length - 1) = .ok a := by
    rw [show L.pages.length - 1 = P.length by simp [h1]]; exact page_mid h1
  by_cases hf : a.count = L.pageSize
  · obtain ⟨b, eb, gb⟩ := pg_create (α := α) o.chunk1
    obtain ⟨b', r, eb', gb'⟩ := pg_append gb e
    refine ⟨{ L with pages := L.pages ++ [b'], count := L.count + 1, hasLast := true }, ?_, ?_, init ++ [t], [e], ⟨?_, ⟨?_, ?_, ?_⟩, ?_, o.chunk1, ?_, ?_⟩, ?_⟩
    · simp only [step, append]
      rw [hp, ebind, if_pos hf, h4.2, eb, ebind, eb', ebind]
      simp only [PList.Spec.result, o.count]; rfl
    · rfl
    · exact f2_append o.pages (.cons gb' .nil)
    · intro x hx; rcases List.mem_append.1 hx with hx | hx
      · exact o.shape.full x hx
      · simp at hx; subst hx; rw [← h4.count]; exact hf
    · exact o.ps1
    · simp
    · simp [o.count]; omega
    · exact o.ps1
    · rfl
    · simp [PList.Spec.edit]
  · obtain ⟨a', r, ea, ga⟩ := pg_append h4 e
    refine ⟨{ L with pages := L.pages.set (L.pages.length - 1) a', count := L.count + 1, hasLast := true }, ?_, ?_, init, t ++ [e], ⟨?_, ⟨?_, ?_, ?_⟩, ?_, o.chunk1, ?_, ?_⟩, ?_⟩
    · simp only [step, append]
      rw [hp, ebind, if_neg hf, ea, ebind]
      simp only [PList.Spec.result, o.count]; rfl
    · rfl
    · rw [h1, show (P ++ [a]).length - 1 = P.length by simp, set_mid]
      exact f2_append h3 (.cons ga .nil)
    · exact o.shape.full
    · have := o.shape.le; have := h4.count; simp; omega
    · simp
    · simp [o.count]; omega
    · exact o.ps1
    · exact rfl
    · simp [PList.Spec.edit]

theorem slice_cells {vs : List α} {loop n} (h : loop + n ≤ vs.length) :
    slice (.buf vs) loop n = .ok (.buf ((vs.drop loop).take n)) ∧ (Src.buf ((vs.drop loop).take n)).count = n ∧
    (Src.buf ((vs.drop loop).take n)).cells = ((vs.map some).drop loop).take n := by
  refine ⟨by simp [slice, h], by simp [Src.count]; omega, by simp [Src.cells]⟩

theorem loop_ok {chunk ps : Nat} (hc : 1 ≤ chunk) (hps : 1 ≤ ps) (vs : List α) : ∀ (fuel loop : Nat) (pages : List (Arr α)) (init : List (Cells α)) (t : Cells α),
    List.Forall₂ (PG chunk) pages (init ++ [t]) → (∀ x ∈ init, x.length = ps) → t.length ≤ ps →
    (t.length < ps ∨ (vs.length - loop) % ps = 0) → (t = [] → init ≠ [] → loop < vs.length) →
    loop ≤ vs.length → vs.length - loop ≤ fuel →
    ∃ pages' init' t', appendLoop ps (.buf vs) fuel loop pages = .ok pages' ∧ List.Forall₂ (PG chunk) pages' (init' ++ [t']) ∧
      Shape ps init' t' ∧ (init' ++ [t']).flatten = (init ++ [t]).flatten ++ (vs.map some).drop loop := by
  intro fuel
  induction fuel with
  | zero =>
    intro loop pages init t h1 h2 h3 _ h5 h6 h7
    refine ⟨pages, init, t, ?_, h1, ⟨h2, h3, fun h => ?_⟩, ?_⟩
    · have : ¬ loop < (Src.buf vs).count := by simp only [Src.count]; omega
      simp [appendLoop, this]
    · by_cases hi : init = []
      · exact hi
      · have := h5 h hi; omega
    · rw [List.drop_of_length_le (by simp; omega)]; simp
  | succ fuel ih =>
    intro loop pages init t h1 h2 h3 h4 h5 h6 h7
    by_cases hl : loop < vs.length
    · obtain ⟨P, a, PB, g1, g2, g3, g4, g5, g6⟩ := f2_split (A := init) (x := t) (B := []) h1
      obtain rfl : PB = [] := List.length_eq_zero_iff.1 g3
      have gc := g5.count
      have gch := g5.2
      have hpg : pages[pages.length - 1]? = some a := by simp [g1]
      simp only [appendLoop, Src.count, hl, if_true, hpg]
      by_cases hca : vs.length - loop > ps - a.count
      · rw [if_pos hca]
        obtain ⟨b, eb, gb⟩ := pg_create (α := α) hc
        rw [gch, eb, ebind]
        by_cases ha : ps - a.count = 0
        · rw [if_pos ha]
          have hm : (vs.length - loop) % ps = 0 := by rcases h4 with h | h; omega; exact h
          have hge : ps ≤ vs.length - loop := by
            rcases Nat.lt_or_ge (vs.length - loop) ps with h | h
            · rw [Nat.mod_eq_of_lt h] at hm; omega
            · exact h
          obtain ⟨s1, s2, s3⟩ := slice_cells (vs := vs) (loop := loop) (n := ps) (by omega)
          obtain ⟨b', r, eb', gb'⟩ := pg_appendN gb _ (by rw [s2]; omega)
          rw [s1, ebind, eb', ebind]; simp only []
          rw [s3] at gb'
          have hlen : ((vs.map some).drop loop |>.take ps).length = ps := by simp; omega
          obtain ⟨pages', init', t', k1, k2, k3, k4⟩ := ih (loop + ps) (pages ++ [b']) (init ++ [t]) _
            (f2_append h1 (.cons gb' .nil)) (by
              intro x hx; rcases List.mem_append.1 hx with hx | hx
              · exact h2 x hx
              · simp at hx; subst hx; omega) (by simp only [List.nil_append]; omega) (by
              right; rw [show vs.length - (loop + ps) = vs.length - loop - ps by omega]
              rw [← Nat.mod_eq_sub_mod hge]; exact hm) (by
              intro hh; simp only [List.nil_append] at hh; rw [hh] at hlen; simp at hlen; omega) (by omega) (by omega)
          refine ⟨pages', init', t', k1, k2, k3, ?_⟩
          rw [k4, List.flatten_append (L₁ := init ++ [t])]
          simp only [List.append_assoc, List.flatten_cons, List.flatten_nil, List.append_nil, List.nil_append]
          rw [show (vs.map some).drop (loop + ps) = ((vs.map some).drop loop).drop ps from List.drop_drop.symm, List.take_append_drop]
        · rw [if_neg ha]
          obtain ⟨s1, s2, s3⟩ := slice_cells (vs := vs) (loop := loop) (n := ps - a.count) (by omega)
          obtain ⟨a', r, ea', ga'⟩ := pg_appendN g5 _ (by rw [s2]; omega)
          rw [s1, ebind, ea', ebind]; simp only []
          rw [s3] at ga'
          have hset : pages.set (pages.length - 1) a' = P ++ [a'] := by
            rw [g1, show (P ++ [a]).length - 1 = P.length by simp, set_mid]
          rw [hset]
          obtain ⟨pages', init', t', k1, k2, k3, k4⟩ := ih (loop + (ps - a.count)) (P ++ [a'] ++ [b]) (init ++ [t ++ ((vs.map some).drop loop).take (ps - a.count)]) []
            (f2_append (f2_append g4 (.cons ga' .nil)) (.cons gb .nil)) (by
              intro x hx; rcases List.mem_append.1 hx with hx | hx
              · exact h2 x hx
              · simp at hx; subst hx; simp; omega) (by simp) (by left; simp; omega) (by intros; omega) (by omega) (by omega)
          refine ⟨pages', init', t', k1, k2, k3, ?_⟩
          rw [k4]
          simp only [List.append_assoc, List.flatten_append, List.flatten_cons, List.flatten_nil, List.append_nil, List.nil_append]
          rw [show (vs.map some).drop (loop + (ps - a.count)) = ((vs.map some).drop loop).drop (ps - a.count) from List.drop_drop.symm, List.take_append_drop]
      · rw [if_neg hca]
        obtain ⟨s1, s2, s3⟩ := slice_cells (vs := vs) (loop := loop) (n := vs.length - loop) (by omega)
        obtain ⟨a', r, ea', ga'⟩ := pg_appendN g5 _ (by rw [s2]; omega)
        rw [s1, ebind, ea', ebind]; simp only []
        rw [s3] at ga'
        have hset : pages.set (pages.length - 1) a' = P ++ [a'] := by
          rw [g1, show (P ++ [a]).length - 1 = P.length by simp, set_mid]
        rw [hset]
        have htk : ((vs.map some).drop loop).take (vs.length - loop) = (vs.map some).drop loop := List.take_of_length_le (by simp)
        rw [htk] at ga'
        obtain ⟨pages', init', t', k1, k2, k3, k4⟩ := ih (loop + (vs.length - loop)) (P ++ [a']) init (t ++ (vs.map some).drop loop)
          (f2_append g4 (.cons ga' .nil)) h2 (by simp; omega) (by right; rw [show vs.length - (loop + (vs.length - loop)) = 0 by omega]; simp)
          (by intro h; exfalso; have := congrArg List.length h; simp at this; omega) (by omega) (by omega)
        refine ⟨pages', init', t', k1, k2, k3, ?_⟩
        rw [k4, List.drop_of_length_le (l := vs.map some) (i := loop + (vs.length - loop)) (by simp; omega)]
        simp
    · refine ⟨pages, init, t, ?_, h1, ⟨h2, h3, fun h => ?_⟩, ?_⟩
      · simp [appendLoop, Src.count, hl]
      · by_cases hi : init = []
        · exact hi
        · exact absurd (h5 h hi) hl
      · rw [List.drop_of_length_le (by simp; omega)]; simp

/-- The last page is full exactly when the count is a positive multiple of the page size. -/
theorem last_full {ps : Nat} {init : List (Cells α)} {t : Cells α} (s : Shape ps init t) (hps : 1 ≤ ps) :
    ((init ++ [t]).flatten.length = 0 ∨ (init ++ [t]).flatten.length % ps ≠ 0 → t.length < ps) ∧
    (t.length < ps → t.length = (init ++ [t]).flatten.length % ps) := by
  have hlen : (init ++ [t]).flatten.length = init.length * ps + t.length := by simp [flatten_full s.full]
  have hle := s.le
  rw [hlen]
  refine ⟨fun h => ?_, fun h => ?_⟩
  · rcases Nat.lt_or_eq_of_le hle with h' | h'
    · exact h'
    · rw [h', ← Nat.succ_mul, Nat.mul_mod_left] at h
      rcases h with h | h
      · have := Nat.le_mul_of_pos_left ps (show 0 < init.length.succ by omega); omega
      · exact absurd rfl h
  · rw [Nat.mul_add_mod_self_right, Nat.mod_eq_of_lt h]

theorem appendN_rep {chunk} {L : PL α} {init t} (o : LOk chunk L init t) (s : Src α)
    (hv : s.count ≠ 0) (hh : handled L.pageSize (init ++ [t]).flatten.length (.appendN s)) :
    StepRep chunk L (init ++ [t]).flatten (.appendN s) := by
  have lf := last_full o.shape o.ps1
  cases s with
  | buf vs =>
    simp only [handled] at hh
    obtain ⟨pages', init', t', k1, k2, k3, k4⟩ := loop_ok o.chunk1 o.ps1 vs vs.length 0 L.pages init t o.pages o.shape.full o.shape.le
      (by rcases hh with h | h
          · exact Or.inl (lf.1 h)
          · right; simpa using h)
      (fun h hi => absurd (o.shape.ne h) hi) (by omega) (by omega)
    refine ⟨{ L with pages := pages', count := L.count + vs.length, hasLast := true }, ?_, rfl, init', t', ⟨k2, k3, ?_, o.chunk1, o.ps1, rfl⟩, ?_⟩
    · simp only [step, appendN, Src.count, k1, ebind, PList.Spec.result, o.count]; rfl
    · simp only []; rw [k4, o.count]; simp; omega
    · rw [k4]; simp [PList.Spec.edit, Src.cells]
  | null k =>
    simp only [handled] at hh
    have hlt := lf.1 hh.1
    have hmod := lf.2 hlt
    simp only [Src.count] at hv
    obtain ⟨P, a, h1, h2, h3, h4⟩ := last_page o
    have hc := h4.count
    obtain ⟨a', r, ea, ga⟩ := pg_appendN h4 (.null k) (by simpa [Src.count] using hv)
    obtain ⟨k', rfl⟩ : ∃ k', k = k' + 1 := ⟨k - 1, by omega⟩
    refine ⟨{ L with pages := P ++ [a'], count := L.count + (k' + 1), hasLast := true }, ?_, rfl, init, t ++ List.replicate (k' + 1) none, ⟨?_, ⟨o.shape.full, ?_, by simp⟩, ?_, o.chunk1, o.ps1, rfl⟩, ?_⟩
    · have hp : L.pages[L.pages.length - 1]? = some a := by simp [h1]
      have hset : L.pages.set (L.pages.length - 1) a' = P ++ [a'] := by
        rw [h1, show (P ++ [a]).length - 1 = P.length by simp, set_mid]
      have hend : ∀ pages, appendLoop L.pageSize (.null (α := α) (k' + 1)) k' (k' + 1) pages = .ok pages := by
        intro pages; cases k' <;> simp [appendLoop, Src.count]
      simp only [step, appendN, appendLoop, Src.count, hp]
      rw [if_pos (by omega), if_neg (by omega)]
      simp only [slice, if_true, ebind, Nat.sub_zero, ea, hset, Nat.zero_add, hend, PList.Spec.result, o.count]; rfl
    · exact f2_append h3 (.cons ga .nil)
    · simp; omega
    · simp [o.count]; omega
    · simp [PList.Spec.edit, Src.cells]

end Verif.PList
