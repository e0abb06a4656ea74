import Verif.IndexMapSpec
/-!
# C42: the index map is a list
-/
namespace Verif.IndexMap
variable {α : Type}

/-! ## The capacity -/

theorem le_maxCount {c : Nat} (h : 0 < c) (n : Nat) : n ≤ maxCount c n := by
  have h1 : c * (n / c) + n % c = n := Nat.div_add_mod n c
  have h2 := Nat.mod_lt n h
  unfold maxCount
  split <;> rename_i h3
  · have h4 : (n / c + 1) * c = c * (n / c) + c := by rw [Nat.add_mul, Nat.mul_comm]; omega
    omega
  · have h4 : (n / c + 0) * c = c * (n / c) := by rw [Nat.add_zero, Nat.mul_comm]
    omega

theorem maxCount_succ {c : Nat} (h : 0 < c) (n : Nat) : maxCount c (n + 1) = if maxCount c n = n then maxCount c n + c else maxCount c n := by
  have h1 : c * (n / c) + n % c = n := Nat.div_add_mod n c
  have h2 := Nat.mod_lt n h
  have h3 : c * ((n + 1) / c) + (n + 1) % c = n + 1 := Nat.div_add_mod (n + 1) c
  have h4 := Nat.mod_lt (n + 1) h
  have m : ∀ q : Nat, (q + 1) * c = c * q + c := fun q => by rw [Nat.add_mul, Nat.mul_comm]; omega
  have m0 : ∀ q : Nat, (q + 0) * c = c * q := fun q => by rw [Nat.add_zero, Nat.mul_comm]
  unfold maxCount
  rcases Nat.lt_or_ge (n % c + 1) c with h5 | h5
  · have hd : (n + 1) / c = n / c := by
      have : n + 1 = n % c + 1 + c * (n / c) := by omega
      rw [this, Nat.add_mul_div_left _ _ h, Nat.div_eq_of_lt h5]; omega
    rw [hd] at h3 ⊢
    rw [if_pos (c := (n + 1) % c ≠ 0 ∨ n + 1 = 0) (by omega)]
    by_cases h6 : n % c ≠ 0 ∨ n = 0
    · rw [if_pos h6, m, if_neg (by omega)]
    · rw [if_neg h6, m, m0, if_pos (by omega)]
  · have hd : (n + 1) / c = n / c + 1 := by
      have : n + 1 = c * (n / c + 1) := by rw [Nat.mul_add]; omega
      rw [this, Nat.mul_div_cancel_left _ h]
    rw [hd, Nat.mul_add] at h3
    rw [hd, if_neg (c := (n + 1) % c ≠ 0 ∨ n + 1 = 0) (by omega), m0, Nat.mul_add]
    by_cases h6 : n % c ≠ 0 ∨ n = 0
    · rw [if_pos h6, m, if_neg (by omega)]; omega
    · rw [if_neg h6, m0, if_pos (by omega)]; omega

/-! ## The loops -/

theorem write_eq {b : List (Slot α)} {i : Nat} (h : i < b.length) (s : Slot α) : write b i s = some (b.set i s) := if_pos h

theorem initLoop_spec (n : Nat) : ∀ (b : List (Slot α)) (i : Nat), i + n ≤ b.length →
    ∃ b', initLoop b i n = some b' ∧ b'.length = b.length ∧ ∀ j : Nat, b'[j]? = if i ≤ j ∧ j < i + n then some .unset else b[j]? := by
  induction n with
  | zero => intro b i _; exact ⟨b, rfl, rfl, fun j => by rw [if_neg (by omega)]⟩
  | succ n ih =>
    intro b i h
    obtain ⟨b', h1, h2, h3⟩ := ih (b.set i .unset) (i + 1) (by simp; omega)
    refine ⟨b', ?_, by simpa using h2, fun j => ?_⟩
    · rw [initLoop, write_eq (by omega)]; exact h1
    · rw [h3, List.getElem?_set]
      by_cases hj : i = j
      · subst hj; rw [if_neg (by omega), if_pos rfl, if_pos (by omega), if_pos (by omega)]
      · rw [if_neg hj]
        by_cases hc : i + 1 ≤ j ∧ j < i + 1 + n
        · rw [if_pos hc, if_pos (by omega)]
        · rw [if_neg hc, if_neg (by omega)]

theorem shift_inj {k k' : Nat} {e : Option Nat} (h : shift k e = shift k' e) : k = k' := by
  cases e with
  | none => exact h
  | some e => simp only [shift] at h; split at h <;> split at h <;> omega

theorem copyLoop_spec {src : List (Slot α)} {skip extra : Option Nat} {S : Nat → Slot α} (n : Nat) : ∀ (b : List (Slot α)) (loop : Nat),
    (∀ k, loop ≤ k → k < loop + n → load src (shift k skip) = some (S k)) → (∀ k, loop ≤ k → k < loop + n → shift k extra < b.length) →
    ∃ b', copyLoop src b skip extra loop n = some b' ∧ b'.length = b.length ∧
      (∀ k : Nat, loop ≤ k → k < loop + n → b'[shift k extra]? = some (S k)) ∧
      (∀ j : Nat, (∀ k, loop ≤ k → k < loop + n → shift k extra ≠ j) → b'[j]? = b[j]?) := by
  induction n with
  | zero => intro b loop _ _; exact ⟨b, rfl, rfl, fun k _ _ => by omega, fun _ _ => rfl⟩
  | succ n ih =>
    intro b loop hs hb
    have h0 := hb loop (by omega) (by omega)
    obtain ⟨b', h1, h2, h3, h4⟩ := ih (b.set (shift loop extra) (S loop)) (loop + 1) (fun k _ _ => hs k (by omega) (by omega))
      (fun k _ _ => by simpa using hb k (by omega) (by omega))
    refine ⟨b', ?_, by simpa using h2, fun k hk hk' => ?_, fun j hj => ?_⟩
    · rw [copyLoop, hs loop (by omega) (by omega)]
      show (do copyLoop src (← write b (shift loop extra) (S loop)) skip extra (loop + 1) n) = _
      rw [write_eq h0]; exact h1
    · by_cases he : k = loop
      · subst he
        rw [h4 _ fun k' _ _ e => by have := shift_inj e; omega]
        simp [h0]
      · exact h3 k (by omega) (by omega)
    · rw [h4 j fun k _ _ => hj k (by omega) (by omega), List.getElem?_set, if_neg (hj loop (by omega) (by omega))]

/-! ## The state that stands for a list -/

/-- The buffer with the elements of `l`: they are followed by empty slots. -/
def cells (l : List α) (max : Nat) : List (Slot α) := l.map .set ++ List.replicate (max - l.length) .unset

/-- `m` stands for the list `l`. -/
structure Rep (m : Map α) (l : List α) : Prop where
  chunk : 0 < m.chunk
  count : m.count = l.length
  buf : m.buf = cells l (maxCount m.chunk l.length)

theorem cells_get {l : List α} {max : Nat} (h : l.length ≤ max) (j : Nat) :
    (cells l max)[j]? = if h : j < l.length then some (.set l[j]) else if j < max then some .unset else none := by
  unfold cells
  rw [List.getElem?_append]
  by_cases hj : j < l.length
  · simp [hj]
  · rw [dif_neg hj, if_neg (by simpa using hj), List.getElem?_replicate]
    simp only [List.length_map]
    by_cases hm : j < max
    · rw [if_pos (by omega), if_pos hm]
    · rw [if_neg (by omega), if_neg hm]

theorem cells_length {l : List α} {max : Nat} (h : l.length ≤ max) : (cells l max).length = max := by
  simp [cells]; omega

theorem load_cells {l : List α} {max : Nat} (h : l.length ≤ max) {j : Nat} (hj : j < max) :
    load (cells l max) j = some (match l[j]? with | some a => .set a | none => .unset) := by
  unfold load
  rw [cells_get h]
  by_cases hl : j < l.length
  · simp [hl]
  · have : l[j]? = none := by simpa using hl
    rw [dif_neg hl, if_pos hj, this]

theorem load_cells_lt {l : List α} {max : Nat} (h : l.length ≤ max) {j : Nat} (hj : j < l.length) : load (cells l max) j = some (.set l[j]) := by
  rw [load_cells h (by omega)]; simp [hj]

theorem cells_set {l : List α} {max : Nat} (h : l.length ≤ max) {j : Nat} (hj : j < l.length) (x : α) :
    (cells l max).set j (.set x) = cells (l.set j x) max := by
  apply List.ext_getElem?
  intro k
  rw [List.getElem?_set, cells_get h, cells_get (l := l.set j x) (by simpa using h), cells_length h]
  by_cases hk : j = k
  · subst hk; simp [hj]; omega
  · simp [hk, List.getElem_set]

theorem cells_snoc {l : List α} {max : Nat} (h : l.length < max) (x : α) : (cells l max).set l.length (.set x) = cells (l ++ [x]) max := by
  apply List.ext_getElem?
  intro k
  rw [List.getElem?_set, cells_get (l := l) (by omega), cells_get (l := l ++ [x]) (by simp; omega), cells_length (by omega)]
  by_cases hk : l.length = k
  · subst hk; simp [h]
  · rw [if_neg hk]
    by_cases hk' : k < l.length
    · rw [dif_pos hk', dif_pos (by simp; omega), List.getElem_append_left hk']
    · rw [dif_neg hk', dif_neg (by simp; omega)]

theorem resize_grow {l : List α} {max max' : Nat} (h : l.length ≤ max) (h' : l.length ≤ max') :
    resize (cells l max) l.length max' none none = some (cells l max', l.length + 1) := by
  obtain ⟨b, h1, h2, h3, h4⟩ := copyLoop_spec (src := cells l max) (skip := none) (extra := none) (S := fun k => if h : k < l.length then .set l[k] else .raw) l.length
    (List.replicate max' .raw) 0 (fun k _ hk => by rw [dif_pos (by omega)]; exact load_cells_lt h (j := k) (by omega)) (fun k _ hk => by simp [shift]; omega)
  obtain ⟨b', h5, h6, h7⟩ := initLoop_spec (max' - l.length) b l.length (by simp at h2; omega)
  have he : b' = cells l max' := by
    apply List.ext_getElem?
    intro k
    rw [h7, cells_get h']
    by_cases hk : k < l.length
    · rw [dif_pos hk, if_neg (by omega)]
      simpa [shift, hk] using h3 k (by omega) (by omega)
    · rw [dif_neg hk]
      by_cases hm : k < max'
      · rw [if_pos (by omega), if_pos hm]
      · rw [if_neg (by omega), if_neg hm]; simp at h2; simp; omega
  unfold resize
  rw [h1]
  show (do let b ← initLoop b l.length (max' - l.length); return (b, l.length + 1)) = _
  rw [h5, he]; rfl

theorem resize_skip {l : List α} {max max' : Nat} (h : l.length ≤ max) {i : Nat} (hi : i < l.length) (h' : l.length - 1 ≤ max') :
    resize (cells l max) (l.length - 1) max' (some i) none = some (cells (l.eraseIdx i) max', l.length - 1) := by
  have hl : (l.eraseIdx i).length = l.length - 1 := by rw [List.length_eraseIdx, if_pos hi]
  obtain ⟨b, h1, h2, h3, h4⟩ := copyLoop_spec (src := cells l max) (skip := some i) (extra := none)
    (S := fun k => if h : k < (l.eraseIdx i).length then .set (l.eraseIdx i)[k] else .raw) (l.length - 1)
    (List.replicate max' .raw) 0 (fun k _ hk => by
      rw [dif_pos (by omega), List.getElem_eraseIdx]
      simp only [shift]
      split
      · exact load_cells_lt h (by omega)
      · exact load_cells_lt h (by omega)) (fun k _ hk => by simp [shift]; omega)
  obtain ⟨b', h5, h6, h7⟩ := initLoop_spec (max' - (l.length - 1)) b (l.length - 1) (by simp at h2; omega)
  have he : b' = cells (l.eraseIdx i) max' := by
    apply List.ext_getElem?
    intro k
    rw [h7, cells_get (by omega)]
    by_cases hk : k < (l.eraseIdx i).length
    · rw [dif_pos hk, if_neg (by omega)]
      simpa [shift, hk] using h3 k (by omega) (by omega)
    · rw [dif_neg hk]
      by_cases hm : k < max'
      · rw [if_pos (by omega), if_pos hm]
      · rw [if_neg (by omega), if_neg hm]; simp at h2; simp; omega
  unfold resize
  rw [h1]
  show (do let b ← initLoop b (l.length - 1) (max' - (l.length - 1)); return (b, l.length - 1 + 0)) = _
  rw [h5, he]; rfl

/-- The new buffer has room for the new element, where nothing was written. -/
theorem resize_extra {l : List α} {max max' : Nat} (h : l.length ≤ max) {i : Nat} (hi : i < l.length) (h' : l.length + 1 ≤ max') (x : α) :
    ∃ b, resize (cells l max) l.length max' none (some i) = some (b, l.length + 1) ∧
      write b i (.set x) = some (cells (l.take i ++ x :: l.drop i) max') := by
  obtain ⟨b, h1, h2, h3, h4⟩ := copyLoop_spec (src := cells l max) (skip := none) (extra := some i) (S := fun k => if h : k < l.length then .set l[k] else .raw) l.length
    (List.replicate max' .raw) 0 (fun k _ hk => by rw [dif_pos (by omega)]; exact load_cells_lt h (j := k) (by omega))
    (fun k _ hk => by simp [shift]; split <;> omega)
  obtain ⟨b', h5, h6, h7⟩ := initLoop_spec (max' - (l.length + 1)) b (l.length + 1) (by simp at h2; omega)
  simp at h2
  have hlen : (l.take i ++ x :: l.drop i).length = l.length + 1 := by simp; omega
  refine ⟨b', ?_, ?_⟩
  · unfold resize
    rw [h1]
    have : shift l.length (some i) = l.length + 1 := by simp [shift]; omega
    show (do let b ← initLoop b (shift l.length (some i)) (max' - shift l.length (some i)); return (b, l.length + 1)) = _
    rw [this, h5]; rfl
  · rw [write_eq (by omega)]
    congr 1
    apply List.ext_getElem?
    intro k
    rw [List.getElem?_set, h7, cells_get (by omega)]
    by_cases hk : k < (l.take i ++ x :: l.drop i).length
    · rw [dif_pos hk]
      by_cases hki : i = k
      · subst hki
        rw [if_pos rfl, if_pos (by omega)]
        rw [List.getElem_append_right (by simp; omega)]
        simp only [List.length_take, Nat.min_eq_left (Nat.le_of_lt hi), Nat.sub_self, List.getElem_cons_zero]
      · rw [if_neg hki, if_neg (by omega)]
        by_cases hlt : k < i
        · have := h3 k (by omega) (by omega)
          rw [dif_pos (by omega)] at this
          simp only [shift, if_pos hlt] at this
          rw [this]
          rw [List.getElem_append_left (by simp; omega), List.getElem_take]
        · obtain ⟨k', rfl⟩ : ∃ k', k = k' + 1 := ⟨k - 1, by omega⟩
          have := h3 k' (by omega) (by omega)
          rw [dif_pos (by omega)] at this
          simp only [shift, if_neg (show ¬ k' < i by omega)] at this
          rw [this, List.getElem_append_right (by simp; omega)]
          simp only [List.length_take, Nat.min_eq_left (Nat.le_of_lt hi), show k' + 1 - i = (k' - i) + 1 by omega, List.getElem_cons_succ, List.getElem_drop]
          congr 3
          omega
    · rw [dif_neg hk, if_neg (by omega)]
      by_cases hm : k < max'
      · rw [if_pos (by omega), if_pos hm]
      · rw [if_neg (by omega), if_neg hm]; simp; omega

/-! ## The operations -/

/-- Does an append to `n` elements need a new buffer? -/
def full (chunk n : Nat) : Bool := n ≠ 0 && n % chunk = 0

theorem maxCount_eq_iff {c : Nat} (h : 0 < c) (n : Nat) : maxCount c n = n ↔ full c n = true := by
  have h1 : c * (n / c) + n % c = n := Nat.div_add_mod n c
  have h2 := Nat.mod_lt n h
  unfold maxCount full
  simp
  split <;> rename_i h3
  · have h4 : (n / c + 1) * c = c * (n / c) + c := by rw [Nat.add_mul, Nat.mul_comm]; omega
    omega
  · have h4 : (n / c + 0) * c = c * (n / c) := by rw [Nat.add_zero, Nat.mul_comm]
    omega

theorem create_rep {c : Nat} (h : 0 < c) : ∃ m : Map α, create c = some m ∧ m.chunk = c ∧ Rep m [] := by
  obtain ⟨b, h1, h2, h3⟩ := initLoop_spec c (List.replicate c (.raw : Slot α)) 0 (by simp)
  have hm : maxCount c 0 = c := by simp [maxCount]
  have hb : b = cells [] c := by
    apply List.ext_getElem?
    intro k
    rw [h3, cells_get (by simp)]
    by_cases hk : k < c
    · simp [hk]
    · simp [hk]
  refine ⟨⟨c, 0, b⟩, ?_, rfl, h, rfl, ?_⟩
  · rw [create, if_neg (by omega), h1]; rfl
  · simp [hm, hb]

theorem exec_rep [DecidableEq α] {m : Map α} {l : List α} (h : Rep m l) (o : Op α) :
    ∃ m', exec m o = some (m', (Spec.exec (full m.chunk) l o).2) ∧ m'.chunk = m.chunk ∧ Rep m' (Spec.exec (full m.chunk) l o).1 := by
  obtain ⟨c, n, b⟩ := m
  obtain ⟨hc, hn, hb⟩ := h
  simp only at hc hn hb
  subst hn hb
  have hle := le_maxCount hc l.length
  generalize hM : maxCount c l.length = M at *
  have out : ∀ i : Nat, ¬ i < M → l[i]? = none := fun i hi => by simp; omega
  cases o with
  | count => exact ⟨_, rfl, rfl, hc, rfl, by simp [hM, Spec.exec]⟩
  | get i =>
    refine ⟨⟨c, l.length, cells l M⟩, ?_, rfl, hc, rfl, by simp [hM, Spec.exec]⟩
    simp only [exec, get, hM, Spec.exec]
    by_cases hi : i < M
    · rw [if_pos hi, load_cells hle hi]
      cases l[i]? <;> rfl
    · rw [if_neg hi, out i hi]; rfl
  | replace i x =>
    simp only [exec, replace, hM, Spec.exec]
    by_cases hi : i < M
    · rw [if_pos hi, load_cells hle hi]
      by_cases hl : i < l.length
      · refine ⟨⟨c, l.length, cells (l.set i x) M⟩, ?_, rfl, hc, by simp, by simp [hM]⟩
        have : l[i]? = some l[i] := by simp [hl]
        rw [this]
        simp only [Option.bind_eq_bind, Option.bind_some]
        rw [write_eq (by rw [cells_length hle]; exact hi), cells_set hle hl]
        rfl
      · have : l[i]? = none := by simpa using hl
        refine ⟨⟨c, l.length, cells l M⟩, ?_, rfl, hc, by simp, ?_⟩
        · rw [this]; rfl
        · simp [List.set_eq_of_length_le (by omega : l.length ≤ i), hM]
    · rw [if_neg hi, out i hi]
      exact ⟨⟨c, l.length, cells l M⟩, rfl, rfl, hc, by simp, by simp [List.set_eq_of_length_le (by omega : l.length ≤ i), hM]⟩
  | replaceExact i x old =>
    simp only [exec, replaceExact, hM, Spec.exec]
    by_cases hi : i < M
    · rw [if_pos hi, load_cells hle hi]
      by_cases he : l[i]? = some old
      · have hl : i < l.length := by
          rcases Nat.lt_or_ge i l.length with hl | hl
          · exact hl
          · rw [List.getElem?_eq_none hl] at he; cases he
        refine ⟨⟨c, l.length, cells (l.set i x) M⟩, ?_, rfl, hc, by simp [he], by simp [he, hM]⟩
        rw [he]
        simp only [if_true, Option.bind_eq_bind, Option.bind_some]
        rw [write_eq (by rw [cells_length hle]; exact hi), cells_set hle hl]
        rfl
      · refine ⟨⟨c, l.length, cells l M⟩, ?_, rfl, hc, by simp [he], by simp [he, hM]⟩
        rw [if_neg he]
        cases hx : l[i]? with
        | none => simp
        | some a => rw [hx] at he; simp at he; simp [he]
    · rw [if_neg hi, out i hi]
      exact ⟨⟨c, l.length, cells l M⟩, by simp, rfl, hc, by simp, by simp [hM]⟩
  | append ok x =>
    have hs := maxCount_succ hc l.length
    have hf := maxCount_eq_iff hc l.length
    rw [hM] at hs hf
    simp only [exec, append, hM, Spec.exec]
    by_cases hfull : M = l.length
    · have hfull' := hf.1 hfull
      rw [hfull', Nat.sub_eq_zero_of_le (by omega)]
      simp only [appendLoop, Option.bind_eq_bind, Option.bind_some, if_true, Bool.true_and]
      cases ok with
      | false => exact ⟨⟨c, l.length, cells l M⟩, rfl, rfl, hc, rfl, by simp [hM]⟩
      | true =>
        rw [if_pos hfull] at hs
        refine ⟨⟨c, l.length + 1, cells (l ++ [x]) (M + c)⟩, ?_, rfl, hc, by simp, by simp [hs]⟩
        rw [if_pos rfl, resize_grow hle (by omega)]
        simp only [Option.bind_some]
        rw [write_eq (by rw [cells_length (by omega)]; omega), cells_snoc (by omega)]
        rfl
    · have hnf : full c l.length = false := by
        cases hx : full c l.length
        · rfl
        · exact absurd (hf.2 hx) hfull
      rw [if_neg hfull] at hs
      obtain ⟨k, hk⟩ : ∃ k, M - l.length = k + 1 := ⟨M - l.length - 1, by omega⟩
      refine ⟨⟨c, l.length + 1, cells (l ++ [x]) M⟩, ?_, rfl, hc, by simp [hnf], by simp [hnf, hs]⟩
      rw [hk, appendLoop, load_cells hle (by omega), hnf]
      simp only [List.getElem?_eq_none (Nat.le_refl l.length), Option.bind_eq_bind, Option.bind_some]
      rw [write_eq (by rw [cells_length hle]; omega), cells_snoc (by omega)]
      rfl
  | remove i =>
    simp only [exec, remove, Spec.exec]
    by_cases hi : i < l.length
    · rw [if_neg (by omega), resize_skip hle hi (le_maxCount hc _)]
      simp only [Option.bind_eq_bind, Option.bind_some]
      rw [load_cells_lt hle hi]
      have hl : (l.eraseIdx i).length = l.length - 1 := by rw [List.length_eraseIdx, if_pos hi]
      exact ⟨⟨c, l.length - 1, cells (l.eraseIdx i) (maxCount c (l.length - 1))⟩, by simp [hi], rfl, hc, by simp [hl], by simp [hl]⟩
    · rw [if_pos (by omega), List.eraseIdx_of_length_le (by omega)]
      exact ⟨⟨c, l.length, cells l M⟩, by simp; omega, rfl, hc, rfl, by simp [hM]⟩
  | insert i x =>
    simp only [exec, insert, Spec.exec]
    by_cases hi : i < l.length
    · rw [if_neg (by omega), if_pos hi]
      obtain ⟨b, h1, h2⟩ := resize_extra hle hi (le_maxCount hc (l.length + 1)) x
      have hlen : (l.take i ++ x :: l.drop i).length = l.length + 1 := by simp; omega
      rw [h1]
      simp only [Option.bind_eq_bind, Option.bind_some]
      rw [h2]
      exact ⟨⟨c, l.length + 1, cells (l.take i ++ x :: l.drop i) (maxCount c (l.length + 1))⟩, rfl, rfl, hc, hlen.symm, by simp only [hlen]⟩
    · rw [if_pos (by omega), if_neg hi]
      exact ⟨⟨c, l.length, cells l M⟩, rfl, rfl, hc, rfl, by simp [hM]⟩

theorem run_rep [DecidableEq α] (os : List (Op α)) : ∀ {m : Map α} {l : List α}, Rep m l →
    ∃ m', run m os = some (m', (Spec.run (full m.chunk) l os).2) ∧ m'.chunk = m.chunk ∧ Rep m' (Spec.run (full m.chunk) l os).1 := by
  induction os with
  | nil => intro m l h; exact ⟨m, rfl, rfl, h⟩
  | cons o os ih =>
    intro m l h
    obtain ⟨m1, h1, h2, h3⟩ := exec_rep h o
    obtain ⟨m2, h4, h5, h6⟩ := ih h3
    rw [h2] at h4 h5 h6
    exact ⟨m2, by rw [run, h1]; simp only [Option.bind_eq_bind, Option.bind_some]; rw [h4]; rfl, h5, h6⟩

/-- **C42.**  For every chunk size (at least 1) and every sequence of calls on a new index map: no call touches memory outside the buffer or reads a slot that was never initialised (the run does not fault), and every call returns what the same call on a
list returns, an append being refused exactly when a chunk is full and no buffer can be allocated.  At the end the first slots of the buffer hold the elements in order, the others are empty, and there is room for all of them. -/
theorem C42_index_map [DecidableEq α] (chunk : Nat) (h : 1 ≤ chunk) (os : List (Op α)) :
    ∃ m m' : Map α, create chunk = some m ∧
      let s := Spec.run (fun n => n ≠ 0 && n % chunk = 0) [] os
      run m os = some (m', s.2) ∧ m'.count = s.1.length ∧ s.1.length ≤ m'.buf.length ∧ chunk ∣ m'.buf.length ∧
        m'.buf = s.1.map .set ++ List.replicate (m'.buf.length - s.1.length) .unset := by
  obtain ⟨m, h1, h2, h3⟩ := create_rep (α := α) h
  obtain ⟨m', h4, h5, h6⟩ := run_rep os h3
  subst h2
  have hle := le_maxCount h3.chunk (Spec.run (full m.chunk) [] os).1.length
  have hlen : m'.buf.length = maxCount m.chunk (Spec.run (full m.chunk) [] os).1.length := by
    rw [h6.buf, h5, cells_length hle]
  refine ⟨m, m', h1, h4, h6.count, ?_, ?_, ?_⟩
  · show (Spec.run (full m.chunk) [] os).1.length ≤ _
    rw [hlen]; exact hle
  · rw [hlen]; exact ⟨_, Nat.mul_comm _ _⟩
  · rw [hlen]
    show m'.buf = cells (Spec.run (full m.chunk) [] os).1 _
    rw [h6.buf, h5]

/-- A run that grows over two chunk boundaries, inserts, removes, replaces and is refused a buffer. -/
example : ((create 2).bind fun m => run m
    [.append true 10, .append true 11, .append false 12, .append true 12, .insert 1 13, .insert 4 0, .count, .append true 14, .remove 0, .get 0, .get 5,
      .replace 3 15, .replaceExact 0 16 13, .replaceExact 0 17 13, .remove 9]) =
    some (⟨2, 4, [.set 16, .set 11, .set 12, .set 15]⟩,
      [.num (some 0), .num (some 1), .num none, .num (some 2), .bool true, .bool false, .num (some 4), .num (some 4), .elem (some 10), .elem (some 13), .elem none,
        .elem (some 14), .bool true, .bool false, .elem none]) := by decide

#print axioms C42_index_map
end Verif.IndexMap
