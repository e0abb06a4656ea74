import Verif.ArraySpec
/-! Helper lemmas for CCArray. -/
namespace Verif.Array
open Spec

variable {α : Type}

/-- Capacity invariant: a whole number of chunks that covers the count is allocated. -/
def Inv (a : Arr α) : Prop :=
  1 ≤ a.chunk ∧
  match a.data with
  | none => a.count = 0
  | some cells => ∃ k, 1 ≤ k ∧ k * a.chunk ≤ cells.length ∧ a.count ≤ k * a.chunk

/-- The cells agree with the sequence wherever the sequence is specified. -/
def Agree (l : List (Option α)) (cells : List (Cell α)) : Prop :=
  ∀ (i : Nat) (v : α), l[i]? = some (some v) → cells[i]? = some (some v)

theorem write_ok {cells : List (Cell α)} {i vs} (h : i + vs.length ≤ cells.length) :
    write cells i vs = .ok (cells.take i ++ vs ++ cells.drop (i + vs.length)) := by simp [write, h]

theorem write_length {cells : List (Cell α)} {i vs} (h : i + vs.length ≤ cells.length) :
    (cells.take i ++ vs ++ cells.drop (i + vs.length)).length = cells.length := by
  simp; omega

theorem write_get {cells : List (Cell α)} {i vs} (h : i + vs.length ≤ cells.length) (j : Nat) :
    (cells.take i ++ vs ++ cells.drop (i + vs.length))[j]? =
      if j < i then cells[j]? else if j < i + vs.length then vs[j - i]? else cells[j]? := by
  grind

theorem realloc_length (d : Option (List (Cell α))) (n : Nat) : (realloc d n).length = n := by
  simp [realloc]

theorem realloc_get (d : Option (List (Cell α))) (n j : Nat) :
    (realloc d n)[j]? = if j < n then (if j < (d.getD []).length then (d.getD [])[j]? else some none) else none := by
  unfold realloc; grind

structure Good (a : Arr α) (l : List (Option α)) : Prop where
  inv : Inv a
  cnt : a.count = l.length
  agree : ∀ cells, a.data = some cells → Agree l cells

theorem Good.none_nil {a : Arr α} {l} (g : Good a l) (h : a.data = none) : l = [] := by
  have := g.inv.2; rw [h] at this; have hc := g.cnt
  exact List.length_eq_zero_iff.mp (by simp_all)

theorem good_create {chunk ok} {a : Arr α} (h : create α chunk ok = .ok a) : Good a [] := by
  unfold create at h
  split at h
  · rename_i hc
    cases h
    refine ⟨⟨hc, ?_⟩, rfl, ?_⟩
    · cases ok
      · simp
      · simp only [if_true]; exact ⟨1, by omega, by simp, by simp⟩
    · intro cells _ i v hv; simp at hv
  · cases h

/-- After the growth phase of the single element calls. -/
theorem grow1 {a : Arr α} {l} (g : Good a l) :
    ∃ cells, (if needGrow1 a then { a with data := some (realloc a.data ((a.count / a.chunk + 1) * a.chunk)) } else a)
        = { a with data := some cells } ∧
      (∃ k, 1 ≤ k ∧ k * a.chunk ≤ cells.length ∧ a.count + 1 ≤ k * a.chunk) ∧ Agree l cells := by
  obtain ⟨⟨hch, hinv⟩, hcnt, hag⟩ := g
  by_cases hg : needGrow1 a
  · refine ⟨realloc a.data ((a.count / a.chunk + 1) * a.chunk), by simp [hg], ⟨a.count / a.chunk + 1, Nat.le_add_left _ _, ?_, ?_⟩, ?_⟩
    · rw [realloc_length]; exact Nat.le_refl _
    · have := Nat.lt_div_mul_add (a := a.count) (b := a.chunk) (by omega)
      rw [Nat.add_mul]; omega
    · intro i v hv
      have hi : i < l.length := by
        rcases Nat.lt_or_ge i l.length with h | h
        · exact h
        · rw [List.getElem?_eq_none h] at hv; cases hv
      have hb : a.count < (a.count / a.chunk + 1) * a.chunk := by
        have := Nat.lt_div_mul_add (a := a.count) (b := a.chunk) (by omega)
        rw [Nat.add_mul]; omega
      rw [realloc_get, if_pos (by omega)]
      cases hd : a.data with
      | none => rw [hd] at hinv; simp at hinv; omega
      | some c =>
        have := hag c hd i v hv
        have hlt : i < c.length := by
          rcases Nat.lt_or_ge i c.length with h | h
          · exact h
          · rw [List.getElem?_eq_none h] at this; cases this
        simp [hlt]
        rw [List.getElem?_eq_getElem hlt] at this; simpa using this
  · cases hd : a.data with
    | none =>
      exfalso; rw [hd] at hinv; simp at hinv
      simp [needGrow1, hd, hinv] at hg
    | some c =>
      rw [hd] at hinv
      obtain ⟨k, hk1, hk2, hk3⟩ := hinv
      refine ⟨c, ?_, ⟨k, hk1, hk2, ?_⟩, hag c hd⟩
      · rw [if_neg hg]; cases a; simp_all
      · simp [needGrow1, hd] at hg
        rcases Nat.lt_or_eq_of_le hk3 with h | h
        · omega
        · have : a.count = 0 := by apply hg; rw [h]; exact Nat.mul_mod_left _ _
          have : 1 * 1 ≤ k * a.chunk := Nat.mul_le_mul hk1 hch
          omega

/-- After the growth phase of the multi-element calls. -/
theorem growN {a : Arr α} {l} (g : Good a l) (n : Nat) (_hn : n ≠ 0) :
    ∃ cells, (if needGrowN a n then { a with data := some (realloc a.data (((a.count + n) / a.chunk + 1) * a.chunk)) } else a)
        = { a with data := some cells } ∧
      (∃ k, 1 ≤ k ∧ k * a.chunk ≤ cells.length ∧ a.count + n ≤ k * a.chunk) ∧ Agree l cells := by
  obtain ⟨⟨hch, hinv⟩, hcnt, hag⟩ := g
  by_cases hg : needGrowN a n
  · have hb : a.count + n < ((a.count + n) / a.chunk + 1) * a.chunk := by
      have := Nat.lt_div_mul_add (a := a.count + n) (b := a.chunk) (by omega)
      rw [Nat.add_mul]; omega
    refine ⟨realloc a.data (((a.count + n) / a.chunk + 1) * a.chunk), by simp [hg], ⟨(a.count + n) / a.chunk + 1, Nat.le_add_left _ _, ?_, Nat.le_of_lt hb⟩, ?_⟩
    · rw [realloc_length]; exact Nat.le_refl _
    · intro i v hv
      have hi : i < l.length := by
        rcases Nat.lt_or_ge i l.length with h | h
        · exact h
        · rw [List.getElem?_eq_none h] at hv; cases hv
      rw [realloc_get, if_pos (by omega)]
      cases hd : a.data with
      | none => rw [hd] at hinv; simp at hinv; omega
      | some c =>
        have := hag c hd i v hv
        have hlt : i < c.length := by
          rcases Nat.lt_or_ge i c.length with h | h
          · exact h
          · rw [List.getElem?_eq_none h] at this; cases this
        simp [hlt]
        rw [List.getElem?_eq_getElem hlt] at this; simpa using this
  · cases hd : a.data with
    | none =>
      exfalso; rw [hd] at hinv; simp at hinv
      simp [needGrowN, hd, hinv] at hg
    | some c =>
      rw [hd] at hinv
      obtain ⟨k, hk1, hk2, hk3⟩ := hinv
      refine ⟨c, ?_, ⟨k, hk1, hk2, ?_⟩, hag c hd⟩
      · rw [if_neg hg]; cases a; simp_all
      · simp [needGrowN, hd] at hg
        obtain ⟨hg1, hg2⟩ := hg
        have hdm := Nat.div_add_mod a.count a.chunk
        have hml := Nat.mod_lt a.count (show 0 < a.chunk by omega)
        rcases Nat.eq_zero_or_pos (a.count % a.chunk) with h0 | h0
        · have hc0 := hg2 h0
          rw [h0] at hg1
          have : 1 * a.chunk ≤ k * a.chunk := Nat.mul_le_mul_right _ hk1
          omega
        · have hq : a.count / a.chunk < k := by
            rcases Nat.lt_or_ge (a.count / a.chunk) k with h | h
            · exact h
            · have := Nat.mul_le_mul_right a.chunk h
              rw [Nat.mul_comm (a.count / a.chunk)] at this
              omega
          have := Nat.mul_le_mul_right a.chunk (show a.count / a.chunk + 1 ≤ k from hq)
          rw [Nat.add_mul, Nat.mul_comm (a.count / a.chunk)] at this
          omega

theorem writeSrc_ok {cells : List (Cell α)} {i} {s : Src α} (h : i + s.count ≤ cells.length) :
    ∃ c', writeSrc cells i s = .ok c' ∧ c'.length = cells.length ∧
      (∀ j, j < i ∨ i + s.count ≤ j → c'[j]? = cells[j]?) ∧
      (∀ j v, s.cells[j]? = some (some v) → c'[i + j]? = some (some v)) ∧
      (∀ n, s = .null n → c' = cells) := by
  cases s with
  | null n => exact ⟨cells, rfl, rfl, fun _ _ => rfl, by intro j v hv; simp [Src.cells, List.getElem?_replicate] at hv, fun _ _ => rfl⟩
  | buf vs =>
    have h' : i + (vs.map some).length ≤ cells.length := by simpa [Src.count] using h
    refine ⟨_, write_ok h', write_length h', ?_, ?_, by simp⟩
    · intro j hj
      rw [write_get h']
      simp [Src.count] at hj
      grind
    · intro j v hv
      have hj : j < vs.length := by
        rcases Nat.lt_or_ge j vs.length with h | h
        · exact h
        · rw [List.getElem?_eq_none (by simpa [Src.cells] using h)] at hv; cases hv
      rw [write_get h', if_neg (by omega), if_pos (by simp; omega), show i + j - i = j by omega]
      exact hv

theorem memmove_ok {cells : List (Cell α)} {d s n} (h1 : s + n ≤ cells.length) (h2 : d + n ≤ cells.length) :
    ∃ c', memmove cells d s n = .ok c' ∧ c'.length = cells.length ∧
      (∀ j, j < d ∨ d + n ≤ j → c'[j]? = cells[j]?) ∧
      (∀ j, j < n → c'[d + j]? = cells[s + j]?) := by
  have hl : ((cells.drop s).take n).length = n := by simp; omega
  have h' : d + ((cells.drop s).take n).length ≤ cells.length := by omega
  refine ⟨_, by rw [memmove, if_pos h1, write_ok h'], write_length h', ?_, ?_⟩
  · intro j hj
    rw [write_get h', hl]; grind
  · intro j hj
    rw [write_get h', hl, if_neg (by omega), if_pos (by omega), show d + j - d = j by omega]
    rw [List.getElem?_take, if_pos hj, List.getElem?_drop]

/-- What one call does, relative to the sequence shown before. -/
def StepGood (a : Arr α) (l : List (Option α)) (op : Op α) : Prop :=
  ∃ a' r, step a op = .ok (a', r) ∧ a'.chunk = a.chunk ∧
    Good a' (if r = .sizeMax then l else edit l op) ∧
    (r = .sizeMax → refused op = true ∧ a' = a) ∧ (r ≠ .sizeMax → r = result l op)

theorem srcOf_count (e : Option α) : (srcOf e).count = 1 := by cases e <;> rfl
theorem srcOf_cells (e : Option α) : (srcOf e).cells = [e] := by cases e <;> rfl
theorem Src.cells_length (s : Src α) : s.cells.length = s.count := by cases s <;> simp [Src.cells, Src.count]

theorem ok_bind {ε β γ} (x : β) (f : β → Except ε γ) : (Except.ok x >>= f) = f x := rfl
theorem deref_some (a : Arr α) (c : List (Cell α)) : deref { a with data := some c } = .ok c := rfl

theorem lt_of_get {β} {l : List β} {i : Nat} {x} (h : l[i]? = some x) : i < l.length := by
  rcases Nat.lt_or_ge i l.length with h' | h'
  · exact h'
  · rw [List.getElem?_eq_none h'] at h; cases h

/-- Common part of the appending calls. -/
theorem append_core {a : Arr α} {l} (g : Good a l) {cells c' : List (Cell α)} {s : Src α}
    (hk : ∃ k, 1 ≤ k ∧ k * a.chunk ≤ cells.length ∧ a.count + s.count ≤ k * a.chunk) (hag : Agree l cells)
    (hlen : c'.length = cells.length)
    (h1 : ∀ j, j < a.count ∨ a.count + s.count ≤ j → c'[j]? = cells[j]?)
    (h2 : ∀ (j : Nat) v, s.cells[j]? = some (some v) → c'[a.count + j]? = some (some v)) :
    Good { a with data := some c', count := a.count + s.count } (l ++ s.cells) := by
  refine ⟨⟨g.inv.1, ?_⟩, ?_, ?_⟩
  · obtain ⟨k, hk1, hk2, hk3⟩ := hk
    exact ⟨k, hk1, by simpa [hlen] using hk2, hk3⟩
  · simp [g.cnt, Src.cells_length]
  · intro cc hcc i v hv
    cases hcc
    have := g.cnt
    rcases Nat.lt_or_ge i l.length with h | h
    · rw [List.getElem?_append_left h] at hv
      rw [h1 i (by omega)]; exact hag i v hv
    · rw [List.getElem?_append_right h] at hv
      have := h2 _ v hv
      rwa [show a.count + (i - l.length) = i by omega] at this

theorem step_append {a : Arr α} {l} (g : Good a l) (e ok) : StepGood a l (.append e ok) := by
  by_cases hf : (needGrow1 a && !ok) = true
  · refine ⟨a, .sizeMax, by simp [step, append, hf], rfl, by simpa using g, ?_, by simp⟩
    intro _; simp at hf; simp [refused, hf.2]
  · obtain ⟨cells, hc, hk, hag⟩ := grow1 g
    obtain ⟨k, hk1, hk2, hk3⟩ := hk
    obtain ⟨c', hw, hlen, h1, h2, -⟩ := writeSrc_ok (cells := cells) (i := a.count) (s := srcOf e) (by rw [srcOf_count]; omega)
    refine ⟨{ a with data := some c', count := a.count + 1 }, .index a.count, ?_, rfl, ?_, by simp, ?_⟩
    · simp only [step, append]
      rw [if_neg hf, hc, deref_some, ok_bind]; simp only []; rw [hw]; rfl
    · have := append_core g (s := srcOf e) ⟨k, hk1, hk2, by rw [srcOf_count]; omega⟩ hag hlen h1 h2
      simpa [edit, srcOf_cells, srcOf_count] using this
    · intro _; simp [result, g.cnt]

theorem step_appendN {a : Arr α} {l} (g : Good a l) (s ok) (hs : s.count ≠ 0) : StepGood a l (.appendN s ok) := by
  by_cases hf : (needGrowN a s.count && !ok) = true
  · refine ⟨a, .sizeMax, by simp [step, appendN, hf, hs], rfl, by simpa using g, ?_, by simp⟩
    intro _; simp at hf; simp [refused, hf.2]
  · obtain ⟨cells, hc, hk, hag⟩ := growN g s.count hs
    obtain ⟨k, hk1, hk2, hk3⟩ := hk
    obtain ⟨c', hw, hlen, h1, h2, -⟩ := writeSrc_ok (cells := cells) (i := a.count) (s := s) (by omega)
    refine ⟨{ a with data := some c', count := a.count + s.count }, .index a.count, ?_, rfl, ?_, by simp, ?_⟩
    · simp only [step, appendN]
      rw [if_neg hs, if_neg hf, hc, deref_some, ok_bind]; simp only []; rw [hw]; rfl
    · have := append_core g (s := s) ⟨k, hk1, hk2, by omega⟩ hag hlen h1 h2
      simpa [edit] using this
    · intro _; simp [result, g.cnt]

theorem insert_core {a : Arr α} {l} (g : Good a l) {cells c' c'' : List (Cell α)} {s : Src α} {i : Nat} (hi : i < a.count)
    (hk : ∃ k, 1 ≤ k ∧ k * a.chunk ≤ cells.length ∧ a.count + s.count ≤ k * a.chunk) (hag : Agree l cells)
    (hlen' : c'.length = cells.length)
    (hm1 : ∀ j, j < i + s.count ∨ i + s.count + (a.count - i) ≤ j → c'[j]? = cells[j]?)
    (hm2 : ∀ j, j < a.count - i → c'[i + s.count + j]? = cells[i + j]?)
    (hlen : c''.length = c'.length)
    (h1 : ∀ j, j < i ∨ i + s.count ≤ j → c''[j]? = c'[j]?)
    (h2 : ∀ (j : Nat) v, s.cells[j]? = some (some v) → c''[i + j]? = some (some v)) :
    Good { a with data := some c'', count := a.count + s.count } (l.take i ++ s.cells ++ l.drop i) := by
  have hcnt := g.cnt
  have hsl := Src.cells_length s
  refine ⟨⟨g.inv.1, ?_⟩, ?_, ?_⟩
  · obtain ⟨k, hk1, hk2, hk3⟩ := hk
    exact ⟨k, hk1, by simpa [hlen, hlen'] using hk2, hk3⟩
  · simp; omega
  · intro cc hcc j v hv
    cases hcc
    have hj := lt_of_get hv
    simp at hj
    rcases Nat.lt_or_ge j i with h | h
    · rw [List.append_assoc, List.getElem?_append_left (by simp; omega), List.getElem?_take, if_pos h] at hv
      rw [h1 j (Or.inl h), hm1 j (Or.inl (by omega))]
      exact hag j v hv
    · rcases Nat.lt_or_ge j (i + s.count) with h' | h'
      · rw [List.getElem?_append_left (by simp; omega), List.getElem?_append_right (by simp; omega)] at hv
        have := h2 _ v hv
        rw [List.length_take, show min i l.length = i by omega, show i + (j - i) = j by omega] at this
        exact this
      · rw [List.getElem?_append_right (by simp; omega), List.getElem?_drop] at hv
        simp only [List.length_append, List.length_take, hsl] at hv
        rw [h1 j (Or.inr h')]
        have := hm2 (j - (i + s.count)) (by omega)
        rw [show i + s.count + (j - (i + s.count)) = j by omega] at this
        rw [this]
        apply hag
        rw [← hv]; congr 1; omega

theorem step_insertN {a : Arr α} {l} (g : Good a l) (i s ok) (hs : s.count ≠ 0) (hi : i < l.length) :
    StepGood a l (.insertN i s ok) := by
  have hcnt := g.cnt
  have hc0 : i < a.count ∧ s.count ≠ 0 := ⟨by omega, hs⟩
  by_cases hf : (needGrowN a s.count && !ok) = true
  · refine ⟨a, .sizeMax, by simp [step, insertN, hf, hc0], rfl, by simpa using g, ?_, by simp⟩
    intro _; simp at hf; simp [refused, hf.2]
  · obtain ⟨cells, hc, hk, hag⟩ := growN g s.count hs
    obtain ⟨k, hk1, hk2, hk3⟩ := hk
    obtain ⟨c', hm, hlen', hm1, hm2⟩ := memmove_ok (cells := cells) (d := i + s.count) (s := i)
      (n := a.count + s.count - (i + s.count)) (by omega) (by omega)
    obtain ⟨c'', hw, hlen, h1, h2, -⟩ := writeSrc_ok (cells := c') (i := i) (s := s) (by omega)
    refine ⟨{ a with data := some c'', count := a.count + s.count }, .index i, ?_, rfl, ?_, by simp, ?_⟩
    · simp only [step, insertN]
      rw [if_pos hc0, if_neg hf, hc, deref_some, ok_bind]; simp only []; rw [hm, ok_bind, hw]; rfl
    · have := insert_core g (s := s) (i := i) hc0.1 ⟨k, hk1, hk2, by omega⟩ hag hlen'
        (by intro j hj; apply hm1; omega) (by intro j hj; apply hm2; omega) hlen h1 h2
      simpa [edit] using this
    · intro _; simp [result]

theorem step_insert {a : Arr α} {l} (g : Good a l) (i e ok) (hi : i < l.length) :
    StepGood a l (.insert i e ok) := by
  have hcnt := g.cnt
  have hc0 : i < a.count := by omega
  by_cases hf : (needGrow1 a && !ok) = true
  · refine ⟨a, .sizeMax, by simp [step, insert, hf, hc0], rfl, by simpa using g, ?_, by simp⟩
    intro _; simp at hf; simp [refused, hf.2]
  · obtain ⟨cells, hc, hk, hag⟩ := grow1 g
    obtain ⟨k, hk1, hk2, hk3⟩ := hk
    obtain ⟨c', hm, hlen', hm1, hm2⟩ := memmove_ok (cells := cells) (d := i + 1) (s := i)
      (n := a.count + 1 - (i + 1)) (by omega) (by omega)
    obtain ⟨c'', hw, hlen, h1, h2, -⟩ := writeSrc_ok (cells := c') (i := i) (s := srcOf e) (by rw [srcOf_count]; omega)
    refine ⟨{ a with data := some c'', count := a.count + 1 }, .index i, ?_, rfl, ?_, by simp, ?_⟩
    · simp only [step, insert]
      rw [if_pos hc0, if_neg hf, hc, deref_some, ok_bind]; simp only []; rw [hm, ok_bind, hw]; rfl
    · have := insert_core g (s := srcOf e) (i := i) hc0 ⟨k, hk1, hk2, by rw [srcOf_count]; omega⟩ hag hlen'
        (by rw [srcOf_count]; intro j hj; apply hm1; omega) (by rw [srcOf_count]; intro j hj; apply hm2; omega) hlen h1 h2
      simpa [edit, srcOf_count, srcOf_cells] using this
    · intro _; simp [result]

theorem Good.cells {a : Arr α} {l} (g : Good a l) (h : 0 < l.length) :
    ∃ cells, a.data = some cells ∧ a.count ≤ cells.length ∧ (∃ k, 1 ≤ k ∧ k * a.chunk ≤ cells.length ∧ a.count ≤ k * a.chunk) := by
  cases hd : a.data with
  | none => have := g.none_nil hd; subst this; simp at h
  | some c =>
    have := g.inv.2; rw [hd] at this
    obtain ⟨k, hk1, hk2, hk3⟩ := this
    exact ⟨c, rfl, by omega, k, hk1, hk2, hk3⟩

theorem deref_eq {a : Arr α} {c} (h : a.data = some c) : deref a = .ok c := by simp [deref, h]

theorem step_replaceN {a : Arr α} {l} (g : Good a l) (i s) (hs : s.count ≠ 0) (hi : i + s.count ≤ l.length) :
    StepGood a l (.replaceN i s) := by
  have hcnt := g.cnt
  obtain ⟨cells, hd, hle, hk⟩ := g.cells (by omega)
  obtain ⟨c', hw, hlen, h1, h2, hnull⟩ := writeSrc_ok (cells := cells) (i := i) (s := s) (by omega)
  refine ⟨{ a with data := some c' }, .unit, ?_, rfl, ?_, by simp, by simp [result]⟩
  · simp only [step, replaceN]
    rw [if_pos ⟨by omega, hs⟩, deref_eq hd, ok_bind]; rw [hw]; rfl
  · refine ⟨⟨g.inv.1, ?_⟩, ?_, ?_⟩
    · obtain ⟨k, hk1, hk2, hk3⟩ := hk; exact ⟨k, hk1, by simpa [hlen] using hk2, hk3⟩
    · cases s <;> simp [edit, hcnt]
      simp [Src.count] at hi; omega
    · intro cc hcc j v hv
      cases hcc
      simp only [reduceCtorEq, if_false] at hv
      cases s with
      | null n => rw [hnull n rfl]; exact g.agree cells hd j v (by simpa [edit] using hv)
      | buf vs =>
        simp only [edit] at hv
        simp only [Src.count] at hi h1
        have hj := lt_of_get hv
        simp at hj
        rcases Nat.lt_or_ge j i with h | h
        · rw [List.append_assoc, List.getElem?_append_left (by simp; omega), List.getElem?_take, if_pos h] at hv
          rw [h1 j (Or.inl h)]; exact g.agree cells hd j v hv
        · rcases Nat.lt_or_ge j (i + vs.length) with h' | h'
          · rw [List.getElem?_append_left (by simp; omega), List.getElem?_append_right (by simp; omega)] at hv
            have := h2 _ v hv
            rw [List.length_take, show min i l.length = i by omega, show i + (j - i) = j by omega] at this
            exact this
          · rw [List.getElem?_append_right (by simp; omega), List.getElem?_drop] at hv
            simp only [List.length_append, List.length_take, List.length_map] at hv
            rw [h1 j (Or.inr h')]
            apply g.agree cells hd
            rw [← hv]; congr 1; omega

theorem step_replace {a : Arr α} {l} (g : Good a l) (i e) (hi : i < l.length) :
    StepGood a l (.replace i e) := by
  have hcnt := g.cnt
  obtain ⟨a', r, h1, h2, h3, h4, h5⟩ := step_replaceN g i (srcOf e) (by simp [srcOf_count]) (by rw [srcOf_count]; omega)
  refine ⟨a', r, ?_, h2, ?_, ?_, ?_⟩
  · rw [← h1]; simp only [step, replace, replaceN]
    rw [if_pos (by omega), if_pos ⟨by omega, by simp [srcOf_count]⟩]
  · have : edit l (.replaceN i (srcOf e)) = edit l (.replace i e) := by
      cases e with
      | none => rfl
      | some v =>
        simp [edit, srcOf]
        rw [List.set_eq_take_append_cons_drop, if_pos hi]
    rw [← this]; exact h3
  · intro h; have := h4 h; simp [refused] at this
  · intro h; have := h5 h; simpa [result] using this

theorem step_copyN {a : Arr α} {l} (g : Good a l) (i j n) (hn : n ≠ 0) (hi : i + n ≤ l.length) (hj : j + n ≤ l.length) :
    StepGood a l (.copyN i j n) := by
  have hcnt := g.cnt
  obtain ⟨cells, hd, hle, hk⟩ := g.cells (by omega)
  obtain ⟨c', hm, hlen, h1, h2⟩ := memmove_ok (cells := cells) (d := j) (s := i) (n := n) (by omega) (by omega)
  refine ⟨{ a with data := some c' }, .unit, ?_, rfl, ?_, by simp, by simp [result]⟩
  · simp only [step, copyN]
    rw [if_pos ⟨by omega, by omega, hn⟩, deref_eq hd, ok_bind]; rw [hm]; rfl
  · refine ⟨⟨g.inv.1, ?_⟩, ?_, ?_⟩
    · obtain ⟨k, hk1, hk2, hk3⟩ := hk; exact ⟨k, hk1, by simpa [hlen] using hk2, hk3⟩
    · simp [edit]; omega
    · intro cc hcc m v hv
      cases hcc
      simp only [reduceCtorEq, if_false, edit] at hv
      have hm' := lt_of_get hv
      simp at hm'
      rcases Nat.lt_or_ge m j with h | h
      · rw [List.append_assoc, List.getElem?_append_left (by simp; omega), List.getElem?_take, if_pos h] at hv
        rw [h1 m (Or.inl h)]; exact g.agree cells hd m v hv
      · rcases Nat.lt_or_ge m (j + n) with h' | h'
        · rw [List.getElem?_append_left (by simp; omega), List.getElem?_append_right (by simp; omega),
            List.length_take, List.getElem?_take, if_pos (by omega), List.getElem?_drop] at hv
          have := h2 (m - j) (by omega)
          rw [show j + (m - j) = m by omega] at this
          rw [this]; apply g.agree cells hd; rw [← hv]; congr 1; omega
        · rw [List.getElem?_append_right (by simp; omega), List.getElem?_drop] at hv
          simp only [List.length_append, List.length_take, List.length_drop] at hv
          rw [h1 m (Or.inr h')]
          apply g.agree cells hd
          rw [← hv]; congr 1; omega

theorem step_copy {a : Arr α} {l} (g : Good a l) (i j) (hi : i < l.length) (hj : j < l.length) :
    StepGood a l (.copy i j) := by
  have hcnt := g.cnt
  obtain ⟨a', r, h1, h2, h3, h4, h5⟩ := step_copyN g i j 1 (by simp) hi hj
  refine ⟨a', r, ?_, h2, h3, ?_, ?_⟩
  · rw [← h1]; simp only [step, copy]; rw [if_pos ⟨by omega, by omega⟩]
  · intro h; have := h4 h; simp [refused] at this
  · intro h; have := h5 h; simpa [result] using this

theorem step_removeN {a : Arr α} {l} (g : Good a l) (i n) (hn : n ≠ 0) (hi : i + n ≤ l.length) :
    StepGood a l (.removeN i n) := by
  have hcnt := g.cnt
  obtain ⟨cells, hd, hle, hk⟩ := g.cells (by omega)
  obtain ⟨c', hm, hlen, h1, h2⟩ := memmove_ok (cells := cells) (d := i) (s := i + n) (n := a.count - (i + n)) (by omega) (by omega)
  refine ⟨{ a with data := some c', count := a.count - n }, .unit, ?_, rfl, ?_, by simp, by simp [result]⟩
  · simp only [step, removeN]
    rw [if_pos ⟨by omega, by omega⟩, deref_eq hd, ok_bind]; rw [hm]; rfl
  · refine ⟨⟨g.inv.1, ?_⟩, ?_, ?_⟩
    · obtain ⟨k, hk1, hk2, hk3⟩ := hk; exact ⟨k, hk1, by simpa [hlen] using hk2, by simp; omega⟩
    · simp [edit]; omega
    · intro cc hcc m v hv
      cases hcc
      simp only [reduceCtorEq, if_false, edit] at hv
      have hm' := lt_of_get hv
      simp at hm'
      rcases Nat.lt_or_ge m i with h | h
      · rw [List.getElem?_append_left (by simp; omega), List.getElem?_take, if_pos h] at hv
        rw [h1 m (Or.inl h)]; exact g.agree cells hd m v hv
      · rw [List.getElem?_append_right (by simp; omega), List.getElem?_drop, List.length_take] at hv
        have := h2 (m - i) (by omega)
        rw [show i + (m - i) = m by omega] at this
        rw [this]; apply g.agree cells hd; rw [← hv]; congr 1; omega

theorem step_remove {a : Arr α} {l} (g : Good a l) (i) (hi : i < l.length) :
    StepGood a l (.remove i) := by
  have hcnt := g.cnt
  obtain ⟨a', r, h1, h2, h3, h4, h5⟩ := step_removeN g i 1 (by simp) hi
  refine ⟨a', r, ?_, h2, h3, ?_, ?_⟩
  · rw [← h1]; simp only [step, remove]; rw [if_pos (by omega)]
  · intro h; have := h4 h; simp [refused] at this
  · intro h; have := h5 h; simpa [result] using this

theorem step_removeAll {a : Arr α} {l} (g : Good a l) : StepGood a l .removeAll := by
  refine ⟨{ a with count := 0 }, .unit, rfl, rfl, ⟨⟨g.inv.1, ?_⟩, rfl, ?_⟩, by simp, by simp [result]⟩
  · have := g.inv.2
    cases hd : a.data with
    | none => simp
    | some c =>
      rw [hd] at this; obtain ⟨k, hk1, hk2, hk3⟩ := this
      exact ⟨k, hk1, hk2, Nat.zero_le _⟩
  · intro cc _ m v hv; simp [edit] at hv

theorem step_good {a : Arr α} {l} (g : Good a l) (op : Op α) (h : valid l.length op) : StepGood a l op := by
  cases op with
  | append e ok => exact step_append g e ok
  | appendN s ok => exact step_appendN g s ok h
  | replace i e => exact step_replace g i e h
  | replaceN i s => exact step_replaceN g i s h.1 h.2
  | copy i j => exact step_copy g i j h.1 h.2
  | copyN i j n => exact step_copyN g i j n h.1 h.2.1 h.2.2
  | insert i e ok => exact step_insert g i e ok h
  | insertN i s ok => exact step_insertN g i s ok h.1 h.2
  | remove i => exact step_remove g i h
  | removeN i n => exact step_removeN g i n h.1 h.2
  | removeAll => exact step_removeAll g

theorem good_shows {a : Arr α} {l} (g : Good a l) : Shows a l := by
  refine ⟨g.cnt, fun i hi => ?_⟩
  obtain ⟨cells, hd, hle, -⟩ := g.cells (by omega)
  have hcnt := g.cnt
  refine ⟨cells[i]'(by omega), ?_, ?_⟩
  · simp [get, show i < a.count by omega, deref_eq hd, ok_bind, List.getElem?_eq_getElem (show i < cells.length by omega)]
  · intro v hv
    have := g.agree cells hd i v (by rw [List.getElem?_eq_getElem hi, hv])
    rw [List.getElem?_eq_getElem (by omega)] at this; simpa using this

theorem history_good {chunk} {a : Arr α} {l} (h : History chunk a l) : Good a l := by
  induction h with
  | create ok a h => exact good_create h
  | call a l op a' r _ hv hs ih =>
    obtain ⟨a'', r', h1, -, h3, -⟩ := step_good ih op hv
    rw [h1] at hs; cases hs; exact h3

theorem write_len {c c' : List (Cell α)} {i vs} (h : write c i vs = .ok c') : c'.length = c.length := by
  unfold write at h
  split at h
  · cases h; simp; omega
  · cases h

theorem writeSrc_len {c c' : List (Cell α)} {i} {s : Src α} (h : writeSrc c i s = .ok c') : c'.length = c.length := by
  cases s with
  | null n => cases h; rfl
  | buf vs => exact write_len h

theorem memmove_len {c c' : List (Cell α)} {i j n} (h : memmove c i j n = .ok c') : c'.length = c.length := by
  unfold memmove at h
  split at h
  · exact write_len h
  · cases h

/-- A growing call that was refused memory and yet did not fail did not change the size of the block. -/
theorem no_room {a a' : Arr α} {op : Op α} {r cells} (h : step a op = .ok (a', r)) (href : refused op = true)
    (hr : r ≠ .sizeMax) (hd : a.data = some cells) : ∃ c', a'.data = some c' ∧ c'.length = cells.length := by
  cases op with
  | append e ok =>
    simp [refused] at href; subst href
    simp only [step, append] at h
    by_cases hg : needGrow1 a = true
    · simp [hg] at h; exact absurd h.2.symm hr
    · simp only [hg, Bool.false_and, deref, hd] at h
      cases hw : writeSrc cells a.count (srcOf e) with
      | error e => simp [hw, hd, bind, Except.bind] at h
      | ok c' => simp [hw, bind, Except.bind, pure, Except.pure, hd] at h; exact ⟨c', by rw [← h.1], writeSrc_len hw⟩
  | appendN s ok =>
    simp [refused] at href; subst href
    simp only [step, appendN] at h
    by_cases hs : s.count = 0
    · simp [hs] at h
    rw [if_neg hs] at h
    by_cases hg : needGrowN a s.count = true
    · simp [hg] at h; exact absurd h.2.symm hr
    · simp only [hg, Bool.false_and, deref, hd] at h
      cases hw : writeSrc cells a.count s with
      | error e => simp [hw, hd, bind, Except.bind] at h
      | ok c' => simp [hw, bind, Except.bind, pure, Except.pure, hd] at h; exact ⟨c', by rw [← h.1], writeSrc_len hw⟩
  | insert i e ok =>
    simp [refused] at href; subst href
    simp only [step, insert] at h
    by_cases hi : i < a.count
    · rw [if_pos hi] at h
      by_cases hg : needGrow1 a = true
      · simp [hg] at h; exact absurd h.2.symm hr
      · simp only [hg, Bool.false_and, deref, hd] at h
        cases hm : memmove cells (i + 1) i (a.count + 1 - (i + 1)) with
        | error e => simp at hm; simp [hm, hd, bind, Except.bind] at h
        | ok c1 =>
          have hl := memmove_len hm
          cases hw : writeSrc c1 i (srcOf e) with
          | error e => simp at hm; simp [hm, hw, hd, bind, Except.bind] at h
          | ok c' =>
            simp at hm
            simp [hm, hw, bind, Except.bind, pure, Except.pure, hd] at h
            exact ⟨c', by rw [← h.1], by rw [writeSrc_len hw, hl]⟩
    · simp [hi] at h
  | insertN i s ok =>
    simp [refused] at href; subst href
    simp only [step, insertN] at h
    by_cases hi : i < a.count ∧ s.count ≠ 0
    · rw [if_pos hi] at h
      by_cases hg : needGrowN a s.count = true
      · simp [hg] at h; exact absurd h.2.symm hr
      · simp only [hg, Bool.false_and, deref, hd] at h
        cases hm : memmove cells (i + s.count) i (a.count + s.count - (i + s.count)) with
        | error e => simp [hm, hd, bind, Except.bind] at h
        | ok c1 =>
          have hl := memmove_len hm
          cases hw : writeSrc c1 i s with
          | error e => simp [hm, hw, hd, bind, Except.bind] at h
          | ok c' =>
            simp [hm, hw, bind, Except.bind, pure, Except.pure, hd] at h
            exact ⟨c', by rw [← h.1], by rw [writeSrc_len hw, hl]⟩
    · rw [if_neg hi] at h; cases h
  | _ => simp [refused] at href

theorem no_room_null {a a' : Arr α} {l} {op : Op α} {r} (g : Good a l) (h : step a op = .ok (a', r))
    (href : refused op = true) (hd : a.data = none) : r = .sizeMax := by
  have hl := g.none_nil hd
  have hc : a.count = 0 := by rw [g.cnt, hl]; rfl
  cases op with
  | append e ok =>
    simp [refused] at href; subst href
    simp [step, append, needGrow1, hc, hd] at h; exact h.2.symm
  | appendN s ok =>
    simp [refused] at href; subst href
    by_cases hs : s.count = 0
    · simp [step, appendN, hs] at h
    · simp [step, appendN, needGrowN, hc, hd, hs] at h; exact h.2.symm
  | insert i e ok => simp [step, insert, hc] at h
  | insertN i s ok => simp [step, insertN, hc] at h
  | _ => simp [refused] at href

theorem passes_good {a : Arr α} {l} (g : Good a l) (op : Op α) (hr : ∀ i s, op = .replaceN i s → i + s.count ≤ a.count) :
    step a op = .error .assertion ∨ ∃ a' r l', step a op = .ok (a', r) ∧ Good a' l' := by
  have hcnt := g.cnt
  by_cases hv : valid l.length op
  · obtain ⟨a', r, h1, -, h3, -⟩ := step_good g op hv
    exact Or.inr ⟨a', r, _, h1, h3⟩
  · cases op with
    | append e ok => exact absurd trivial hv
    | appendN s ok => left; simp only [valid, Classical.not_not] at hv; simp [step, appendN, hv]
    | replace i e => left; simp only [valid] at hv; simp [step, replace]; omega
    | replaceN i s =>
      left; simp only [valid, not_and] at hv
      have := hr i s rfl
      simp only [step, replaceN]; rw [if_neg]; rintro ⟨h1, h2⟩; exact hv h2 (by omega)
    | copy i j =>
      left; simp only [valid] at hv; simp only [step, copy]; rw [if_neg]; omega
    | copyN i j n =>
      left; simp only [valid] at hv; simp only [step, copyN]; rw [if_neg]; omega
    | insert i e ok => left; simp only [valid] at hv; simp only [step, insert]; rw [if_neg]; omega
    | insertN i s ok =>
      left; simp only [valid] at hv; simp only [step, insertN]; rw [if_neg]; omega
    | remove i => left; simp only [valid] at hv; simp only [step, remove]; rw [if_neg]; omega
    | removeN i n =>
      simp only [valid] at hv
      by_cases hp : i + n ≠ 0 ∧ i + n - 1 < a.count
      · right
        obtain rfl : n = 0 := by omega
        obtain ⟨cells, hd, hle, hk⟩ := g.cells (by omega)
        obtain ⟨c', hm, hlen, h1, h2⟩ := memmove_ok (cells := cells) (d := i) (s := i + 0) (n := a.count - (i + 0)) (by omega) (by omega)
        refine ⟨{ a with data := some c', count := a.count - 0 }, .unit, l, ?_, ⟨⟨g.inv.1, ?_⟩, g.cnt, ?_⟩⟩
        · simp only [step, removeN]; rw [if_pos hp, deref_eq hd, ok_bind, hm]; rfl
        · obtain ⟨k, hk1, hk2, hk3⟩ := hk; exact ⟨k, hk1, by simpa [hlen] using hk2, hk3⟩
        · intro cc hcc j v hv
          cases hcc
          rcases Nat.lt_or_ge j i with h | h
          · rw [h1 j (Or.inl h)]; exact g.agree cells hd j v hv
          · rcases Nat.lt_or_ge j (i + (a.count - (i + 0))) with h' | h'
            · have := h2 (j - i) (by omega)
              rw [show i + (j - i) = j by omega, show i + 0 + (j - i) = j by omega] at this
              rw [this]; exact g.agree cells hd j v hv
            · rw [h1 j (Or.inr h')]; exact g.agree cells hd j v hv
      · left; simp only [step, removeN]; rw [if_neg hp]
    | removeAll => exact absurd trivial hv

end Verif.Array
