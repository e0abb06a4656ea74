import Verif.DataOwner

/-!
C148: a data buffer frees what it owns, once, and nothing else.
-/

namespace Verif.DataOwner

/-- The heap gives out blocks that are not in use. -/
def Fresh (m : Mem) : Prop := ∀ j, m.next ≤ j → m.block j = none

theorem upd_same {α : Type} (f : Nat → α) (i : Nat) (a : α) : upd f i a i = a := if_pos rfl

theorem upd_other {α : Type} (f : Nat → α) {i j : Nat} (a : α) (h : j ≠ i) : upd f i a j = f j := if_neg h

theorem free_ok {m : Mem} {i : Nat} {b : List UInt8} (h : m.block i = some ⟨b, true⟩) : free m i = .ok ⟨upd m.block i none, m.next⟩ := by
  rw [free, h]

/-- What holds while there are the data `d`: apart from its three blocks memory is as in `base`, where they are not there; those it frees come from the heap. -/
structure Own (base : Nat → Option Block) (m : Mem) (d : Data) : Prop where
  ne1 : d.info ≠ d.internal
  ne2 : d.info ≠ d.buffer
  ne3 : d.internal ≠ d.buffer
  base1 : base d.info = none
  base2 : base d.internal = none
  base3 : base d.buffer = none
  info : ∃ b, m.block d.info = some ⟨b, true⟩
  internal : ∃ b, m.block d.internal = some ⟨b, true⟩
  buffer : ∃ b, m.block d.buffer = some ⟨b, true⟩ ∧ b.length = d.size
  rest : ∀ j, j ≠ d.info → j ≠ d.internal → j ≠ d.buffer → m.block j = base j
  fresh : Fresh m
  hint : d.hint.freeBit = true

theorem lt_next {m : Mem} (f : Fresh m) {j : Nat} {b : Block} (h : m.block j = some b) : j < m.next := by
  refine Nat.not_le.mp fun k => ?_
  rw [f j k] at h
  cases h

theorem own_step {base : Nat → Option Block} {m : Mem} {d : Data} (h : Own base m d) (o : Op) : step m d o = .error .asserted ∨ ∃ m' d', step m d o = .ok (m', d') ∧ Own base m' d' := by
  obtain ⟨n1, n2, n3, b1, b2, b3, ⟨i1, i2⟩, ⟨j1, j2⟩, ⟨c, k1, k2⟩, r, f, hh⟩ := h
  cases o with
  | write off bytes =>
    rw [step]
    split
    · rename_i g
      right
      rw [k1]
      dsimp only
      rw [if_neg (by omega)]
      refine ⟨_, _, rfl, ⟨n1, n2, n3, b1, b2, b3, ⟨i1, ?_⟩, ⟨j1, ?_⟩, ⟨_, upd_same _ _ _, ?_⟩, fun j h1 h2 h3 => ?_, fun j hj => ?_, hh⟩⟩
      · rw [← i2]; exact upd_other _ _ n2
      · rw [← j2]; exact upd_other _ _ n3
      · simp only [List.length_append, List.length_take, List.length_drop]; omega
      · rw [← r j h1 h2 h3]; exact upd_other _ _ h3
      · have := lt_next f k1
        dsimp only at hj
        refine (upd_other _ _ ?_).trans (f j hj)
        omega
    · exact .inl rfl
  | resize size ok =>
    right
    cases ok with
    | false => exact ⟨m, d, rfl, ⟨n1, n2, n3, b1, b2, b3, ⟨i1, i2⟩, ⟨j1, j2⟩, ⟨c, k1, k2⟩, r, f, hh⟩⟩
    | true =>
      have l1 := lt_next f i2
      have l2 := lt_next f j2
      have l3 := lt_next f k1
      have e : base m.next = none := by rw [← r m.next (by omega) (by omega) (by omega)]; exact f _ (Nat.le_refl _)
      have q : step m d (.resize size true) = .ok (⟨upd (upd m.block d.buffer none) m.next (some ⟨c.take size ++ List.replicate (size - c.length) 0, true⟩), m.next + 1⟩, { d with buffer := m.next, size := size }) := by
        simp only [step, if_true, realloc, k1]; rfl
      refine ⟨_, _, q, ⟨n1, ?_, ?_, b1, b2, e, ⟨i1, ?_⟩, ⟨j1, ?_⟩, ⟨_, upd_same _ _ _, ?_⟩, fun j h1 h2 h3 => ?_, fun j hj => ?_, hh⟩⟩
      · show d.info ≠ m.next; omega
      · show d.internal ≠ m.next; omega
      · rw [← i2]; exact (upd_other _ _ (by dsimp only; omega)).trans (upd_other _ _ n2)
      · rw [← j2]; exact (upd_other _ _ (by dsimp only; omega)).trans (upd_other _ _ n3)
      · simp only [List.length_append, List.length_take, List.length_replicate]; omega
      · dsimp only at h1 h2 h3 ⊢
        rw [upd_other _ _ h3]
        by_cases hj : j = d.buffer
        · rw [hj, upd_same, b3]
        · rw [upd_other _ _ hj, r j h1 h2 hj]
      · dsimp only at hj ⊢
        rw [upd_other _ _ (by omega), upd_other _ _ (by omega)]
        exact f j (by omega)

theorem own_run {base : Nat → Option Block} (os : List Op) : ∀ {m : Mem} {d : Data}, Own base m d → run m d os = .error .asserted ∨ ∃ m' d', run m d os = .ok (m', d') ∧ Own base m' d' := by
  induction os with
  | nil => exact fun h => .inr ⟨_, _, rfl, h⟩
  | cons o os ih =>
    intro m d h
    rw [run]
    rcases own_step h o with e | ⟨m', d', e, h'⟩
    · rw [e]; exact .inl rfl
    · rw [e]; exact ih h'

theorem own_destroy {base : Nat → Option Block} {m : Mem} {d : Data} (h : Own base m d) : ∃ m', destroy m d = .ok m' ∧ m'.block = base := by
  obtain ⟨n1, n2, n3, b1, b2, b3, ⟨i1, i2⟩, ⟨j1, j2⟩, ⟨c, k1, k2⟩, r, f, hh⟩ := h
  have f1 := free_ok k1
  have f2 : free ⟨upd m.block d.buffer none, m.next⟩ d.internal = _ := free_ok (b := j1) (by rw [← j2]; exact upd_other _ _ n3)
  have f3 : free ⟨upd (upd m.block d.buffer none) d.internal none, m.next⟩ d.info = _ := free_ok (b := i1) (by rw [← i2]; exact (upd_other _ _ n1).trans (upd_other _ _ n2))
  refine ⟨⟨upd (upd (upd m.block d.buffer none) d.internal none) d.info none, m.next⟩, ?_, ?_⟩
  · rw [destroy, if_pos hh, f1]
    show (free ⟨upd m.block d.buffer none, m.next⟩ d.internal >>= fun m => free m d.info) = _
    rw [f2]
    exact f3
  · funext j
    dsimp only
    by_cases h1 : j = d.info
    · rw [h1, upd_same, b1]
    · rw [upd_other _ _ h1]
      by_cases h2 : j = d.internal
      · rw [h2, upd_same, b2]
      · rw [upd_other _ _ h2]
        by_cases h3 : j = d.buffer
        · rw [h3, upd_same, b3]
        · rw [upd_other _ _ h3, r j h1 h2 h3]

/-- C148: data created with a copy have the bytes of the buffer given.  Nothing undefined happens whatever is done with them; the buffer given stays as it is; once the data are destroyed memory is what it was before. -/
theorem C148_copy (m : Mem) (hm : Fresh m) (input size : Nat) (b : Block) (hb : m.block input = some b) (hs : size ≤ b.bytes.length) (ops : List Op) :
    ∃ m1 d, create m ⟨true, true⟩ size input true true true = .ok (m1, some d) ∧ d.size = size ∧ m1.block d.buffer = some ⟨b.bytes.take size, true⟩ ∧
      (run m1 d ops = .error .asserted ∨ ∃ m2 d2, run m1 d ops = .ok (m2, d2) ∧ m2.block input = some b ∧ ∃ m3, destroy m2 d2 = .ok m3 ∧ m3.block = m.block) := by
  have li := lt_next hm hb
  have e : (alloc (alloc m []) []).block input = some b := by
    rw [← hb]; exact (upd_other _ _ (by show input ≠ m.next + 1; omega)).trans (upd_other _ _ (by omega))
  refine ⟨alloc (alloc (alloc m []) []) (b.bytes.take size), ⟨m.next, m.next + 1, m.next + 2, size, ⟨true, true⟩⟩, ?_, rfl, upd_same _ _ _, ?_⟩
  · simp only [create, e, if_true, Bool.and_self]
    rw [if_neg (by omega)]
    rfl
  · have o : Own m.block (alloc (alloc (alloc m []) []) (b.bytes.take size)) ⟨m.next, m.next + 1, m.next + 2, size, ⟨true, true⟩⟩ := by
      refine ⟨by dsimp only; omega, by dsimp only; omega, by dsimp only; omega, hm _ (by dsimp only; omega), hm _ (by dsimp only; omega), hm _ (by dsimp only; omega), ⟨[], ?_⟩, ⟨[], ?_⟩, ⟨_, upd_same _ _ _, ?_⟩, fun j h1 h2 h3 => ?_, fun j hj => ?_, rfl⟩
      · simp only [alloc]
        rw [upd_other _ _ (by omega), upd_other _ _ (by omega), upd_same]
      · simp only [alloc]
        rw [upd_other _ _ (by omega), upd_same]
      · rw [List.length_take]; dsimp only; omega
      · dsimp only at h1 h2 h3
        simp [alloc, upd, h1, h2, h3]
      · simp only [alloc] at hj ⊢
        rw [upd_other _ _ (by omega), upd_other _ _ (by omega), upd_other _ _ (by omega)]
        exact hm j (by omega)
    rcases own_run ops o with h | ⟨m2, d2, h, o2⟩
    · exact .inl h
    · refine .inr ⟨m2, d2, h, ?_, own_destroy o2⟩
      have n1 : input ≠ d2.info := fun k => by rw [k] at hb; rw [o2.base1] at hb; cases hb
      have n2 : input ≠ d2.internal := fun k => by rw [k] at hb; rw [o2.base2] at hb; cases hb
      have n3 : input ≠ d2.buffer := fun k => by rw [k] at hb; rw [o2.base3] at hb; cases hb
      rw [o2.rest _ n1 n2 n3, hb]

theorem create_plain (m : Mem) (h : Hint) (hc : (h.freeBit && h.copyBit) = false) (size input : Nat) (ok3 : Bool) :
    create m h size input true true ok3 = .ok (alloc (alloc m []) [], some ⟨m.next, m.next + 1, input, size, h⟩) := by
  simp only [create, if_true, hc]
  rfl

/-- C148: data that are given a buffer of the heap to free.  Nothing undefined happens whatever is done with them; once they are destroyed memory is what it was before, without the buffer. -/
theorem C148_free (m : Mem) (hm : Fresh m) (input : Nat) (bytes : List UInt8) (hb : m.block input = some ⟨bytes, true⟩) (ok3 : Bool) (ops : List Op) :
    ∃ m1 d, create m ⟨true, false⟩ bytes.length input true true ok3 = .ok (m1, some d) ∧
      (run m1 d ops = .error .asserted ∨ ∃ m2 d2, run m1 d ops = .ok (m2, d2) ∧ ∃ m3, destroy m2 d2 = .ok m3 ∧ m3.block input = none ∧ ∀ j, j ≠ input → m3.block j = m.block j) := by
  have li := lt_next hm hb
  refine ⟨_, _, create_plain m _ rfl _ input ok3, ?_⟩
  have o : Own (upd m.block input none) (alloc (alloc m []) []) ⟨m.next, m.next + 1, input, bytes.length, ⟨true, false⟩⟩ := by
    refine ⟨by dsimp only; omega, by dsimp only; omega, by dsimp only; omega, ?_, ?_, upd_same _ _ _, ⟨[], ?_⟩, ⟨[], ?_⟩, ⟨bytes, ?_, rfl⟩, fun j h1 h2 h3 => ?_, fun j hj => ?_, rfl⟩
    · exact (upd_other _ _ (by dsimp only; omega)).trans (hm _ (by dsimp only; omega))
    · exact (upd_other _ _ (by dsimp only; omega)).trans (hm _ (by dsimp only; omega))
    · simp [alloc, upd]
    · simp [alloc, upd]
    · simp only [alloc]
      rw [upd_other _ _ (by omega), upd_other _ _ (by omega), hb]
    · dsimp only at h1 h2 h3
      simp [alloc, upd, h1, h2, h3]
    · simp only [alloc] at hj ⊢
      rw [upd_other _ _ (by omega), upd_other _ _ (by omega)]
      exact hm j (by omega)
  rcases own_run ops o with h | ⟨m2, d2, h, o2⟩
  · exact .inl h
  · obtain ⟨m3, e, q⟩ := own_destroy o2
    exact .inr ⟨m2, d2, h, m3, e, by rw [q, upd_same], fun j hj => by rw [q, upd_other _ _ hj]⟩

/-- C148: data that could not be created leave memory as it was, the buffer with the caller whatever the hint. -/
theorem C148_failure (m : Mem) (hm : Fresh m) (hint : Hint) (size input : Nat) (ok1 ok2 ok3 : Bool) (h : (ok1 && ok2 && (!(hint.freeBit && hint.copyBit) || ok3)) = false) :
    ∃ m', create m hint size input ok1 ok2 ok3 = .ok (m', none) ∧ m'.block = m.block := by
  have back : ∀ j, upd (upd m.block m.next (some ⟨[], true⟩)) m.next none j = m.block j := fun j => by
    by_cases h1 : j = m.next
    · rw [h1, upd_same, hm _ (Nat.le_refl _)]
    · rw [upd_other _ _ h1, upd_other _ _ h1]
  cases ok1 with
  | false => exact ⟨m, rfl, rfl⟩
  | true =>
    cases ok2 with
    | false =>
      refine ⟨⟨upd (upd m.block m.next (some ⟨[], true⟩)) m.next none, m.next + 1⟩, ?_, funext back⟩
      simp only [create, if_true]
      rw [show free (alloc m []) m.next = _ from free_ok (b := []) (upd_same _ _ _)]
      rfl
    | true =>
      obtain ⟨f, c⟩ := hint
      cases f <;> cases c <;> cases ok3 <;> simp at h
      refine ⟨⟨upd (upd (upd (upd m.block m.next (some ⟨[], true⟩)) (m.next + 1) (some ⟨[], true⟩)) (m.next + 1) none) m.next none, m.next + 2⟩, ?_, funext fun j => ?_⟩
      · simp only [create, if_true, Bool.and_self]
        rw [show free (alloc (alloc m []) []) (alloc m []).next = _ from free_ok (b := []) (upd_same _ _ _)]
        show (free ⟨upd (upd (upd m.block m.next (some ⟨[], true⟩)) (m.next + 1) (some ⟨[], true⟩)) (m.next + 1) none, m.next + 2⟩ m.next >>= fun m => Except.ok (m, none)) = _
        rw [free_ok (b := []) (by dsimp only; rw [upd_other _ _ (by omega), upd_other _ _ (by omega), upd_same])]
        rfl
      · dsimp only
        by_cases h1 : j = m.next
        · rw [h1, upd_same, hm _ (Nat.le_refl _)]
        · rw [upd_other _ _ h1]
          by_cases h2 : j = m.next + 1
          · rw [h2, upd_same, hm _ (by omega)]
          · rw [upd_other _ _ h2, upd_other _ _ h2, upd_other _ _ h1]

/-- C148 for a buffer that is only lent, wherever it is, as long as its size is not set: once the data are destroyed memory is as before, but for what was written to the buffer. -/
theorem C148_lent_partial (m : Mem) (hm : Fresh m) (copyBit : Bool) (input : Nat) (b : Block) (hb : m.block input = some b) (ok3 : Bool) (ops : List (Nat × List UInt8)) :
    ∃ m1 d, create m ⟨false, copyBit⟩ b.bytes.length input true true ok3 = .ok (m1, some d) ∧
      (run m1 d (ops.map fun x => .write x.1 x.2) = .error .asserted ∨ ∃ m2 d2, run m1 d (ops.map fun x => .write x.1 x.2) = .ok (m2, d2) ∧ ∃ m3, destroy m2 d2 = .ok m3 ∧
        (∃ bytes, m3.block input = some ⟨bytes, b.heap⟩ ∧ bytes.length = b.bytes.length) ∧ ∀ j, j ≠ input → m3.block j = m.block j) := by
  have li := lt_next hm hb
  refine ⟨_, _, create_plain m _ rfl _ input ok3, ?_⟩
  have key : ∀ (ops : List (Nat × List UInt8)) (m1 : Mem) (b1 : List UInt8), m1.block input = some ⟨b1, b.heap⟩ → b1.length = b.bytes.length → m1.block m.next = some ⟨[], true⟩ → m1.block (m.next + 1) = some ⟨[], true⟩ →
      (∀ j, j ≠ input → j ≠ m.next → j ≠ m.next + 1 → m1.block j = m.block j) →
      (run m1 ⟨m.next, m.next + 1, input, b.bytes.length, ⟨false, copyBit⟩⟩ (ops.map fun x => .write x.1 x.2) = .error .asserted ∨
        ∃ m2 d2, run m1 ⟨m.next, m.next + 1, input, b.bytes.length, ⟨false, copyBit⟩⟩ (ops.map fun x => .write x.1 x.2) = .ok (m2, d2) ∧ ∃ m3, destroy m2 d2 = .ok m3 ∧
        (∃ bytes, m3.block input = some ⟨bytes, b.heap⟩ ∧ bytes.length = b.bytes.length) ∧ ∀ j, j ≠ input → m3.block j = m.block j) := by
    intro ops
    induction ops with
    | nil =>
      intro m1 b1 h1 h2 h3 h4 h5
      refine .inr ⟨_, _, rfl, ⟨upd (upd m1.block (m.next + 1) none) m.next none, m1.next⟩, ?_, ⟨b1, ?_, h2⟩, fun j hj => ?_⟩
      · show (free m1 (m.next + 1) >>= fun m' => free m' m.next) = _
        rw [free_ok h4]
        show free ⟨upd m1.block (m.next + 1) none, m1.next⟩ m.next = _
        rw [free_ok (b := []) (by rw [← h3]; exact upd_other _ _ (by omega))]
      · dsimp only
        rw [upd_other _ _ (by omega), upd_other _ _ (by omega), h1]
      · dsimp only
        by_cases k1 : j = m.next
        · rw [k1, upd_same, hm _ (Nat.le_refl _)]
        · rw [upd_other _ _ k1]
          by_cases k2 : j = m.next + 1
          · rw [k2, upd_same, hm _ (by omega)]
          · rw [upd_other _ _ k2, h5 j hj k1 k2]
    | cons o os ih =>
      intro m1 b1 h1 h2 h3 h4 h5
      simp only [List.map_cons, run, step]
      by_cases g : o.1 + o.2.length ≤ b.bytes.length
      · simp only [if_pos g, h1]
        rw [if_neg (by omega)]
        refine ih ⟨upd m1.block input (some ⟨b1.take o.1 ++ o.2 ++ b1.drop (o.1 + o.2.length), b.heap⟩), m1.next⟩ _ (upd_same _ _ _) ?_ ?_ ?_ fun j k1 k2 k3 => ?_
        · simp only [List.length_append, List.length_take, List.length_drop]; omega
        · rw [← h3]; exact upd_other _ _ (by omega)
        · rw [← h4]; exact upd_other _ _ (by omega)
        · rw [← h5 j k1 k2 k3]; exact upd_other _ _ k1
      · rw [if_neg g]; exact .inl rfl
  refine key ops _ b.bytes ?_ rfl ?_ ?_ fun j k1 k2 k3 => ?_
  · simp only [alloc]
    rw [upd_other _ _ (by omega), upd_other _ _ (by omega), hb]
  · simp [alloc, upd]
  · simp [alloc, upd]
  · simp [alloc, upd, k2, k3]

/-- C148, refuted for a buffer that is only lent: setting the size frees it, though it is the caller's, and leaves behind a block that nobody frees; if it did not come from the heap that is undefined.  `CCDataSetSize` does not ask whether the data may be resized. -/
theorem C148_lent_refuted (m : Mem) (hm : Fresh m) (input n : Nat) (b : Block) (hb : m.block input = some b) :
    ∃ m1 d, create m ⟨false, false⟩ b.bytes.length input true true true = .ok (m1, some d) ∧
      if b.heap then ∃ m2 d2 m3, run m1 d [.resize n true] = .ok (m2, d2) ∧ destroy m2 d2 = .ok m3 ∧ m3.block input = none ∧ ∃ j, m.block j = none ∧ m3.block j ≠ none
      else run m1 d [.resize n true] = .error .undefined := by
  have li := lt_next hm hb
  refine ⟨_, _, create_plain m _ rfl _ input true, ?_⟩
  have e : (alloc (alloc m []) []).block input = some b := by
    simp only [alloc]
    rw [upd_other _ _ (by omega), upd_other _ _ (by omega), hb]
  obtain ⟨bytes, heap⟩ := b
  cases heap with
  | false => simp [run, step, realloc, e]; rfl
  | true =>
    simp only [if_true]
    refine ⟨_, _, ⟨upd (upd (upd (upd (alloc (alloc m []) []).block input none) (m.next + 2) (some ⟨bytes.take n ++ List.replicate (n - bytes.length) 0, true⟩)) (m.next + 1) none) m.next none, m.next + 3⟩,
      by simp only [run, step, if_true, realloc, e]; rfl, ?_, ?_, m.next + 2, hm _ (by omega), ?_⟩
    · show (free ⟨upd (upd (alloc (alloc m []) []).block input none) (m.next + 2) (some ⟨bytes.take n ++ List.replicate (n - bytes.length) 0, true⟩), m.next + 3⟩ (m.next + 1) >>= fun m' => free m' m.next) = _
      rw [free_ok (b := []) (by dsimp only; rw [upd_other _ _ (by omega), upd_other _ _ (by omega)]; simp [alloc, upd])]
      show free ⟨upd (upd (upd (alloc (alloc m []) []).block input none) (m.next + 2) (some ⟨bytes.take n ++ List.replicate (n - bytes.length) 0, true⟩)) (m.next + 1) none, m.next + 3⟩ m.next = _
      rw [free_ok (b := []) (by dsimp only; rw [upd_other _ _ (by omega), upd_other _ _ (by omega), upd_other _ _ (by omega)]; simp [alloc, upd])]
    · dsimp only
      rw [upd_other _ _ (by omega), upd_other _ _ (by omega), upd_other _ _ (by omega), upd_same]
    · dsimp only
      rw [upd_other _ _ (by omega), upd_other _ _ (by omega), upd_same]
      exact fun h => by cases h

/-- C148: the state of the random numbers got is the one set again, and destroying it leaves memory as it was. -/
theorem C148_state (m : Mem) (hm : Fresh m) (state : List UInt8) : ∃ m1 d, getState m state true true true = .ok (m1, some d) ∧ setState m1 d state.length = .ok state ∧ ∃ m2, destroy m1 d = .ok m2 ∧ m2.block = m.block := by
  have hm' : Fresh (alloc m state) := fun j hj => by
    simp only [alloc] at hj ⊢
    rw [upd_other _ _ (by omega)]; exact hm j (by omega)
  have hb : (alloc m state).block m.next = some ⟨state, true⟩ := upd_same _ _ _
  have c := create_plain (alloc m state) ⟨true, false⟩ rfl state.length m.next false
  obtain ⟨m1, d, e, h⟩ := C148_free (alloc m state) hm' m.next state hb false []
  rw [c] at e
  cases e
  refine ⟨_, _, c, ?_, ?_⟩
  · have : (alloc (alloc (alloc m state) []) []).block m.next = some ⟨state, true⟩ := by
      simp only [alloc]
      rw [upd_other _ _ (by omega), upd_other _ _ (by omega), upd_same]
    simp [setState, this]
  · rcases h with h | ⟨m2, d2, h, m3, q, r1, r2⟩
    · cases h
    · cases h
      refine ⟨m3, q, funext fun j => ?_⟩
      by_cases hj : j = m.next
      · rw [hj, r1, hm _ (Nat.le_refl _)]
      · rw [r2 j hj]; exact upd_other _ _ hj

/-- C148, refuted for `CCRandomGetState` when there is memory for the state but not for the data: the buffer is not freed. -/
theorem C148_state_refuted (m : Mem) (hm : Fresh m) (state : List UInt8) (ok1 ok2 : Bool) (h : (ok1 && ok2) = false) :
    ∃ m1, getState m state true ok1 ok2 = .ok (m1, none) ∧ m.block m.next = none ∧ m1.block m.next = some ⟨state, true⟩ := by
  have hm' : Fresh (alloc m state) := fun j hj => by
    simp only [alloc] at hj ⊢
    rw [upd_other _ _ (by omega)]; exact hm j (by omega)
  obtain ⟨m1, e, q⟩ := C148_failure (alloc m state) hm' ⟨true, false⟩ state.length m.next ok1 ok2 false (by simpa using h)
  exact ⟨m1, e, hm _ (Nat.le_refl _), by rw [q]; exact upd_same _ _ _⟩

/-- A memory with one block of the heap, from which data can be created. -/
example : Fresh ⟨upd (fun _ => none) 0 (some ⟨[1, 2, 3], true⟩), 1⟩ := fun j hj => if_neg (by dsimp only at hj; omega)

/-- Writing to a copy, enlarging it and destroying it: the buffer it was made from is as before. -/
example : (do
    let (m, d) ← create ⟨upd (fun _ => none) 0 (some ⟨[1, 2, 3], true⟩), 1⟩ ⟨true, true⟩ 3 0 true true true
    match d with
    | none => .error .undefined
    | some d => do
      let (m, d) ← run m d [.write 1 [9], .resize 5 true, .write 4 [7]]
      let x := m.block d.buffer
      let m ← destroy m d
      pure (x, (List.range 6).map m.block) : Except Stop (Option Block × List (Option Block))).toOption = some (some ⟨[1, 9, 3, 0, 7], true⟩, [some ⟨[1, 2, 3], true⟩, none, none, none, none, none]) := by rfl

#print axioms C148_copy
#print axioms C148_free
#print axioms C148_failure
#print axioms C148_lent_partial
#print axioms C148_lent_refuted
#print axioms C148_state
#print axioms C148_state_refuted

end Verif.DataOwner
