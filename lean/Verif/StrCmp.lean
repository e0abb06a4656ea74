import Verif.StrObs
/-!
# Comparing strings
-/
namespace Verif.Str
open Utf8.Spec (Scalar encode encodeAll)

/-! ## Two enumerators that move together -/

/-- The loop of `sameNext` and `samePrev` for any steps. -/
def same2 (N1 N2 : Cursor → Option (Nat × Cursor)) (e f : Cursor) : Nat → Option (Cursor × Cursor)
  | 0 => none
  | n + 1 => do
    let (c, e) ← N1 e
    let (d, f) ← N2 f
    if c = d ∧ c ≠ 0 then same2 N1 N2 e f n else return (e, f)

theorem sameNext_eq (M : Maps) (s t : Str) : ∀ (n : Nat) (e f : Cursor), sameNext M s t e f n = same2 (enNext M s) (enNext M t) e f n := by
  intro n
  induction n with
  | zero => intro e f; rfl
  | succ n ih => intro e f; simp only [sameNext, same2, ih]

theorem samePrev_eq (M : Maps) (s t : Str) : ∀ (n : Nat) (e f : Cursor), samePrev M s t e f n = same2 (enPrev M s) (enPrev M t) e f n := by
  intro n
  induction n with
  | zero => intro e f; rfl
  | succ n ih => intro e f; simp only [samePrev, same2, ih]

/-- Steps that give the elements of a list one by one, then `g`, and stop then (or `g` is 0). -/
structure Stream (N : Cursor → Option (Nat × Cursor)) (g : Nat) (R : List Nat → Cursor → Prop) : Prop where
  cons : ∀ {c r e}, R (c :: r) e → ∃ e', N e = some (c, e') ∧ R r e'
  nil : ∀ {e}, R [] e → ∃ e', N e = some (g, e') ∧ e'.index = sizeMax ∧ (g ≠ 0 → N e' = some (0, e'))
  on : ∀ {r e}, R r e → e.index ≠ sizeMax

theorem Stream.step {N : Cursor → Option (Nat × Cursor)} {g : Nat} {R : List Nat → Cursor → Prop} (S : Stream N g R) {r : List Nat} {e : Cursor} (h : R r e) : ∃ x, N e = some x := by
  cases r with
  | nil => obtain ⟨e', h1, -⟩ := S.nil h; exact ⟨_, h1⟩
  | cons c r => obtain ⟨e', h1, -⟩ := S.cons h; exact ⟨_, h1⟩

theorem same2_stop {N1 N2 : Cursor → Option (Nat × Cursor)} {e f e' f' : Cursor} {c d n : Nat} (h1 : N1 e = some (c, e')) (h2 : N2 f = some (d, f')) (h : ¬ (c = d ∧ c ≠ 0)) :
    same2 N1 N2 e f (n + 1) = some (e', f') := by
  rw [same2, h1]
  simp only [Option.bind_eq_bind, Option.bind_some]
  rw [h2]
  simp only [Option.bind_some]
  rw [if_neg h]; rfl

theorem same2_go {N1 N2 : Cursor → Option (Nat × Cursor)} {e f e' f' : Cursor} {c d n : Nat} (h1 : N1 e = some (c, e')) (h2 : N2 f = some (d, f')) (h : c = d ∧ c ≠ 0) :
    same2 N1 N2 e f (n + 1) = same2 N1 N2 e' f' n := by
  rw [same2, h1]
  simp only [Option.bind_eq_bind, Option.bind_some]
  rw [h2]
  simp only [Option.bind_some]
  rw [if_pos h]

theorem same2_spec {N1 N2 : Cursor → Option (Nat × Cursor)} {g d : Nat} {R1 R2 : List Nat → Cursor → Prop} (S1 : Stream N1 g R1) (S2 : Stream N2 d R2) :
    ∀ (n : Nat) (r q : List Nat) (e f : Cursor), R1 r e → R2 q f → (∀ c ∈ r, c ≠ 0) → (∀ c ∈ q, c ≠ 0) → r.length + 2 ≤ n →
      ∃ e' f', same2 N1 N2 e f n = some (e', f') ∧ (e'.index = sizeMax ↔ r <+: q ∨ r = q ++ [d]) ∧ (f'.index = sizeMax ↔ q <+: r ∨ q = r ++ [g]) := by
  intro n
  induction n with
  | zero => intro r q e f _ _ _ _ h; omega
  | succ n ih =>
    intro r q e f h1 h2 hr hq hn
    obtain ⟨n, rfl⟩ : ∃ m, n = m + 1 := ⟨n - 1, by omega⟩
    cases r with
    | nil =>
      obtain ⟨e', a1, a2, a3⟩ := S1.nil h1
      cases q with
      | nil =>
        obtain ⟨f', b1, b2, b3⟩ := S2.nil h2
        by_cases hc : g = d ∧ g ≠ 0
        · rw [same2_go a1 b1 hc, same2_stop (a3 hc.2) (b3 (by omega)) (by simp)]
          exact ⟨e', f', rfl, by simp [a2], by simp [b2]⟩
        · rw [same2_stop a1 b1 hc]
          exact ⟨e', f', rfl, by simp [a2], by simp [b2]⟩
      | cons c q =>
        obtain ⟨f', b1, b2⟩ := S2.cons h2
        by_cases hc : g = c ∧ g ≠ 0
        · rw [same2_go a1 b1 hc]
          cases q with
          | nil =>
            obtain ⟨f'', c1, c2, c3⟩ := S2.nil b2
            rw [same2_stop (a3 hc.2) c1 (by simp)]
            exact ⟨e', f'', rfl, by simp [a2], by simp [c2, hc.1]⟩
          | cons c' q =>
            obtain ⟨f'', c1, c2⟩ := S2.cons b2
            rw [same2_stop (a3 hc.2) c1 (by simp)]
            exact ⟨e', f'', rfl, by simp [a2], by simp [S2.on c2]⟩
        · rw [same2_stop a1 b1 hc]
          have : c ≠ g := fun e => hc ⟨e.symm, by rw [← e]; exact hq c (by simp)⟩
          exact ⟨e', f', rfl, by simp [a2], by simp [S2.on b2, this]⟩
    | cons c r =>
      obtain ⟨e', a1, a2⟩ := S1.cons h1
      have hc0 := hr c (by simp)
      cases q with
      | nil =>
        obtain ⟨f', b1, b2, b3⟩ := S2.nil h2
        by_cases hc : c = d ∧ c ≠ 0
        · rw [same2_go a1 b1 hc]
          cases r with
          | nil =>
            obtain ⟨e'', c1, c2, c3⟩ := S1.nil a2
            rw [same2_stop c1 (b3 (by omega)) (by omega)]
            exact ⟨e'', f', rfl, by simp [c2, hc.1], by simp [b2]⟩
          | cons c' r =>
            obtain ⟨e'', c1, c2⟩ := S1.cons a2
            rw [same2_stop c1 (b3 (by omega)) (by omega)]
            exact ⟨e'', f', rfl, by simp [S1.on c2], by simp [b2]⟩
        · rw [same2_stop a1 b1 hc]
          have : c ≠ d := fun e => hc ⟨e, hc0⟩
          exact ⟨e', f', rfl, by simp [S1.on a2, this], by simp [b2]⟩
      | cons c' q =>
        obtain ⟨f', b1, b2⟩ := S2.cons h2
        by_cases hc : c = c' ∧ c ≠ 0
        · rw [same2_go a1 b1 hc]
          obtain ⟨e'', f'', d1, d2, d3⟩ := ih r q e' f' a2 b2 (fun c h => hr c (by simp [h])) (fun c h => hq c (by simp [h])) (by simp only [List.length_cons] at hn; omega)
          refine ⟨e'', f'', d1, ?_, ?_⟩
          · rw [d2, ← hc.1]; simp [List.cons_prefix_cons]
          · rw [d3, ← hc.1]; simp [List.cons_prefix_cons]
        · rw [same2_stop a1 b1 hc]
          have : c ≠ c' := fun e => hc ⟨e, hc0⟩
          have h' : c' ≠ c := fun e => this e.symm
          exact ⟨e', f', rfl, by simp [S1.on a2, List.cons_prefix_cons, this], by simp [S2.on b2, List.cons_prefix_cons, h']⟩

section
variable {M : Maps}

theorem ghost_batch {s : Str} {g : Nat} (h : ghost s = some g) (h0 : g ≠ 0) : isBatch s = true := by
  cases hb : isBatch s with
  | true => rfl
  | false => rw [ghost_internal hb] at h; simp only [Option.some.injEq] at h; omega

theorem stream_next (hM : GoodMaps M) {s : Str} {l : List Nat} (h : Val M s l) {g : Nat} (hg : ghost s = some g) :
    Stream (enNext M s) g fun r e => ∃ k, At s l e k ∧ k < l.length ∧ r = l.drop (k + 1) where
  cons := by
    rintro c r e ⟨k, h1, h2, h3⟩
    have hk : k + 1 < l.length := by
      have := congrArg List.length h3
      simp only [List.length_cons, List.length_drop] at this; omega
    rw [List.drop_eq_getElem_cons hk] at h3
    cases h3
    obtain ⟨e', a1, a2⟩ := next_in hM h h1 hk
    exact ⟨e', by rw [a1, getD_of_lt hk], k + 1, a2, hk, rfl⟩
  nil := by
    rintro e ⟨k, h1, h2, h3⟩
    have := congrArg List.length h3
    simp only [List.length_nil, List.length_drop] at this
    obtain ⟨e', a1, a2⟩ := next_out hM h h1 (by omega) hg
    exact ⟨e', a1, a2.1, fun h0 => next_off_batch (ghost_batch hg h0) a2⟩
  on := by
    rintro r e ⟨k, h1, h2, h3⟩
    rw [h1.index]
    have := h.lt.1
    omega

theorem stream_prev (hM : GoodMaps M) {s : Str} {l : List Nat} (h : Val M s l) {g : Nat} (hg : ghost s = some g) :
    Stream (enPrev M s) g fun r e => ∃ k, At s l e k ∧ k < l.length ∧ r = (l.take k).reverse where
  cons := by
    rintro c r e ⟨k, h1, h2, h3⟩
    have := congrArg List.length h3
    simp only [List.length_cons, List.length_reverse, List.length_take] at this
    obtain ⟨k, rfl⟩ : ∃ j, k = j + 1 := ⟨k - 1, by omega⟩
    obtain ⟨e', a1, a2⟩ := prev_in hM h h1 (by omega)
    rw [List.take_succ_eq_append_getElem (by omega : k < l.length), List.reverse_append, List.reverse_singleton, List.singleton_append] at h3
    cases h3
    exact ⟨e', by rw [a1, getD_of_lt], k, a2, by omega, rfl⟩
  nil := by
    rintro e ⟨k, h1, h2, h3⟩
    have := congrArg List.length h3
    simp only [List.length_nil, List.length_reverse, List.length_take] at this
    have : k = 0 := by omega
    subst this
    obtain ⟨e', a1, a2⟩ := prev_out hM h h1 (by intro e; rw [e] at h2; simp at h2) hg
    exact ⟨e', a1, a2.1, fun h0 => prev_off_batch (ghost_batch hg h0) a2⟩
  on := by
    rintro r e ⟨k, h1, h2, h3⟩
    rw [h1.index]
    have := h.lt.1
    omega

/-! ## Equality -/

/-- Two tagged strings of the same set. -/
def sameSet (s t : Str) : Bool := match s, t with
  | .tagged w, .tagged v => setOf w = setOf v
  | _, _ => false

/-- `CCStringIsTagged` -/
def isTagged : Str → Bool
  | .tagged _ => true
  | .info _ => false

theorem strncmp_eq : ∀ {x y r r' : List Nat}, (∀ b ∈ x, b ≠ 0) → (∀ b ∈ y, b ≠ 0) → x.length = y.length → strncmp (x ++ r) (y ++ r') x.length = some (decide (x = y)) := by
  intro x
  induction x with
  | nil => intro y r r' _ _ h; cases y with | nil => simp [strncmp] | cons => simp at h
  | cons a x ih =>
    intro y r r' hx hy h
    cases y with
    | nil => simp at h
    | cons b y =>
      rw [List.cons_append, List.cons_append, List.length_cons, strncmp]
      by_cases hab : a = b
      · rw [if_pos hab, if_neg (hx a (by simp)), ih (fun b h => hx b (by simp [h])) (fun b h => hy b (by simp [h])) (by simpa using h)]
        simp [hab]
      · rw [if_neg hab]; simp [hab]

theorem Val.bytes {i : Info} {l : List Nat} (h : Val M (.info i) l) : ∃ r, i.bytes = encodeAll l ++ r := by
  cases he : i.enc
  · have h := val_ascii he h
    obtain ⟨x, r, hb, -⟩ := h.bytes
    exact ⟨_, by rw [h.enc]; exact hb⟩
  · have h := val_utf8 he h
    obtain ⟨r, hb⟩ := h.bytes
    exact ⟨_, hb⟩

/-- The enumerators of two strings, from their heads. -/
theorem sameNext_head (hM : GoodMaps M) {s t : Str} {l m : List Nat} (hs : Val M s l) (ht : Val M t m) (hl : l ≠ []) (hm : m ≠ []) {g d : Nat} (hg : ghost s = some g) (hd : ghost t = some d)
    {e f : Cursor} (he : At s l e 0) (hf : At t m f 0) (hh : l.getD 0 0 = m.getD 0 0) :
    ∃ e' f', sameNext M s t e f (l.length + 2) = some (e', f') ∧ (e'.index = sizeMax ↔ l <+: m ∨ l = m ++ [d]) ∧ (f'.index = sizeMax ↔ m <+: l ∨ m = l ++ [g]) := by
  have sl := hs.scalar hM
  have sm := ht.scalar hM
  cases l with
  | nil => exact absurd rfl hl
  | cons a l =>
    cases m with
    | nil => exact absurd rfl hm
    | cons b m =>
      have hab : a = b := hh
      subst hab
      obtain ⟨e', f', h1, h2, h3⟩ := same2_spec (stream_next hM hs hg) (stream_next hM ht hd) ((a :: l).length + 2) l m e f ⟨0, he, by simp, rfl⟩ ⟨0, hf, by simp, rfl⟩
        (fun c hc => by have := (sl c (by simp [hc])).1; omega) (fun c hc => by have := (sm c (by simp [hc])).1; omega) (by simp)
      refine ⟨e', f', by rw [sameNext_eq]; exact h1, ?_, ?_⟩
      · rw [h2]; simp [List.cons_prefix_cons]
      · rw [h3]; simp [List.cons_prefix_cons]

/-- The enumerators of two empty strings. -/
theorem sameNext_nil (hM : GoodMaps M) {s t : Str} (hs : Val M s []) (ht : Val M t []) {e f : Cursor} (he : At s [] e 0) (hf : At t [] f 0) (n : Nat) :
    ∃ e' f', sameNext M s t e f (n + 1) = some (e', f') ∧ (e'.index = sizeMax ↔ isBatch s = false) ∧ (f'.index = sizeMax ↔ isBatch t = false) := by
  obtain ⟨e', h1, h2⟩ := next_empty hM hs he
  obtain ⟨f', h3, h4⟩ := next_empty hM ht hf
  refine ⟨e', f', by rw [sameNext_eq]; exact same2_stop h1 h3 (by simp), ?_, ?_⟩
  · cases hb : isBatch s <;> rw [hb] at h2 <;> simp only [if_true, Bool.false_eq_true, if_false] at h2
    · simp [h2.1]
    · rw [h2, he.index]; simp [sizeMax]
  · cases hb : isBatch t <;> rw [hb] at h4 <;> simp only [if_true, Bool.false_eq_true, if_false] at h4
    · simp [h4.1]
    · rw [h4, hf.index]; simp [sizeMax]

/-- The enumerators can be moved to the end. -/
def Readable (s : Str) (l : List Nat) : Prop := (ghost s).isSome ∨ l = []

theorem Readable.some {s : Str} {l : List Nat} (h : Readable s l) (hl : l ≠ []) : ∃ g, ghost s = some g := Option.isSome_iff_exists.1 (h.resolve_right hl)

/-- The case `CCStringEqual` gets wrong: both empty, the first an ASCII string that is not tagged, the second tagged. -/
def Odd (s t : Str) (l : List Nat) : Prop := l = [] ∧ isBatch s = true ∧ isTagged t = true

instance (s t : Str) (l : List Nat) : Decidable (Odd s t l) := inferInstanceAs (Decidable (_ ∧ _ ∧ _))

theorem batch_tagged {s : Str} (h : isBatch s = true) : isTagged s = false := by
  cases s with
  | tagged w => simp [isBatch] at h
  | info i => rfl

theorem enumEqual_eq (hM : GoodMaps M) {s t : Str} {l m : List Nat} (hs : Val M s l) (ht : Val M t m) (rs : Readable s l) (rt : Readable t m) (hlen : l.length = m.length) (hT : isTagged s = true ∨ isTagged t = true) :
    (do
      let e := (← enHead M s).2
      let f := (← enHead M t).2
      if (← enCurrent s e) = (← enCurrent t f) then
        let r ← sameNext M s t e f ((← getLength M s) + 2)
        return r.1.index = sizeMax
      else return false : Option Bool) = some (decide (l = m ∧ ¬ Odd s t l)) := by
  obtain ⟨e, h1, h2⟩ := head_at hM hs
  obtain ⟨f, h3, h4⟩ := head_at hM ht
  rw [h1, h3, hs.length hM]
  simp only [Option.bind_eq_bind, Option.bind_some]
  by_cases hl : l = []
  · have hm : m = [] := List.length_eq_zero_iff.1 (by rw [← hlen, hl]; rfl)
    subst hl hm
    rw [current_at hM hs h2 (.inr rfl), current_at hM ht h4 (.inr rfl)]
    simp only [Option.bind_some, if_true]
    obtain ⟨e', f', h5, h6, -⟩ := sameNext_nil hM hs ht h2 h4 (([] : List Nat).length + 1)
    rw [h5]
    simp only [Option.bind_some, pure, Option.some.injEq, decide_eq_decide, h6, Odd, true_and]
    cases hb : isBatch s
    · simp
    · have := batch_tagged hb
      rw [this] at hT
      simpa using hT
  · have hm : m ≠ [] := fun e => hl (List.length_eq_zero_iff.1 (by rw [hlen, e]; rfl))
    have hlp : 0 < l.length := List.length_pos_iff.2 hl
    obtain ⟨g, hg⟩ := rs.some hl
    obtain ⟨d, hd⟩ := rt.some hm
    rw [current_at hM hs h2 (.inl hlp), current_at hM ht h4 (.inl (by omega))]
    simp only [Option.bind_some]
    by_cases hh : l.getD 0 0 = m.getD 0 0
    · rw [if_pos hh]
      obtain ⟨e', f', h5, h6, -⟩ := sameNext_head hM hs ht hl hm hg hd h2 h4 hh
      rw [h5]
      simp only [Option.bind_some, pure, Option.some.injEq, decide_eq_decide, h6, Odd, hl, false_and, not_false_eq_true, and_true]
      constructor
      · rintro (h | h)
        · exact List.IsPrefix.eq_of_length h hlen
        · rw [h] at hlen; simp at hlen
      · rintro rfl; exact .inl (List.prefix_refl _)
    · rw [if_neg hh]
      have : l ≠ m := fun e => hh (by rw [e])
      simp [this]

theorem equalChars_eq (hM : GoodMaps M) {s t : Str} {l m : List Nat} (hs : Val M s l) (ht : Val M t m) (rs : Readable s l) (rt : Readable t m) (hlen : l.length = m.length)
    (hsize : (encodeAll l).length = (encodeAll m).length) : equalChars M s t (encodeAll l).length = some (decide (l = m ∧ ¬ Odd s t l)) := by
  cases s with
  | tagged w => exact enumEqual_eq hM hs ht rs rt hlen (.inl rfl)
  | info i =>
    cases t with
    | tagged v => exact enumEqual_eq hM hs ht rs rt hlen (.inr rfl)
    | info j =>
      obtain ⟨r, hr⟩ := hs.bytes
      obtain ⟨r', hr'⟩ := ht.bytes
      simp only [equalChars]
      rw [hr, hr', strncmp_eq (encodeAll_nz (hs.scalar hM)) (encodeAll_nz (ht.scalar hM)) hsize]
      simp only [Odd, isTagged, Bool.false_eq_true, and_false, not_false_eq_true, and_true, Option.some.injEq, decide_eq_decide]
      exact ⟨encodeAll_inj' (hs.scalar hM) (ht.scalar hM), fun e => by rw [e]⟩

theorem equalSlow_eq (hM : GoodMaps M) {s t : Str} {l m : List Nat} (hs : Val M s l) (ht : Val M t m) (rs : Readable s l) (rt : Readable t m) :
    equalSlow M s t = some (decide (l = m ∧ ¬ Odd s t l)) := by
  unfold equalSlow
  rw [hs.size hM, ht.size hM, hs.length hM, ht.length hM, getHash_eq hM hs rs, getHash_eq hM ht rt]
  simp only [Option.bind_eq_bind, Option.bind_some]
  by_cases h1 : (encodeAll l).length = (encodeAll m).length
  · rw [if_pos h1]
    by_cases h2 : l.length = m.length
    · rw [if_pos h2]
      by_cases h3 : Spec.oneAtATime (encodeAll l) = Spec.oneAtATime (encodeAll m)
      · rw [if_pos h3]; exact equalChars_eq hM hs ht rs rt h2 h1
      · rw [if_neg h3]
        have : l ≠ m := fun e => h3 (by rw [e])
        simp [this]
    · rw [if_neg h2]
      have : l ≠ m := fun e => h2 (by rw [e])
      simp [this]
  · rw [if_neg h1]
    have : l ≠ m := fun e => h1 (by rw [e])
    simp [this]

theorem equal_eq (hM : GoodMaps M) {s t : Str} {l m : List Nat} (hs : Val M s l) (ht : Val M t m) (rs : Readable s l) (rt : Readable t m) {same : Bool} (hsame : same = true → s = t ∧ l = m) :
    equal M same s t = some (decide (l = m ∧ ¬ Odd s t l)) := by
  have key : ∀ s t : Str, (isTagged s = false ∨ isTagged t = false) → Val M s l → Val M t m → Readable s l → Readable t m → (same = true → s = t ∧ l = m) →
      (if same then some true else equalSlow M s t) = some (decide (l = m ∧ ¬ Odd s t l)) := by
    intro s t hT hs ht rs rt hsame
    cases same with
    | false => exact equalSlow_eq hM hs ht rs rt
    | true =>
      obtain ⟨rfl, h⟩ := hsame rfl
      simp only [if_true, Option.some.injEq]
      refine (decide_eq_true ⟨h, fun ho => ?_⟩).symm
      have := ho.2.2
      simp_all
  cases s with
  | tagged w =>
    cases t with
    | tagged v =>
      simp only [equal]
      have no : ¬ Odd (.tagged w) (.tagged v) l := by simp [Odd, isBatch]
      by_cases hwv : w = v
      · rw [if_pos hwv]
        have hlm : l = m := by
          subst hwv
          obtain ⟨set, ds, h1, h2, h3⟩ := hs
          obtain ⟨set', ds', h1', h2', h3'⟩ := ht
          have : set = set' := by rw [← h1.setOf, ← h1'.setOf, ← h2, ← h2']
          subst this
          rw [h3, h3', h1.word_inj h1' (by rw [← h2, ← h2'])]
        simp [hlm]; rw [← hlm]; exact no
      · rw [if_neg hwv]
        by_cases hset : setOf w = setOf v
        · rw [if_pos hset]
          have hlm : l ≠ m := by
            rintro rfl
            obtain ⟨set, ds, h1, h2, h3⟩ := hs
            obtain ⟨set', ds', h1', h2', h3'⟩ := ht
            have : set = set' := by rw [← h1.setOf, ← h1'.setOf, ← h2, ← h2', hset]
            subst this
            exact hwv (by rw [h2, h2', hM.chars_inj h1 h1' (by rw [← h3, ← h3'])])
          simp [hlm]
        · rw [if_neg hset]; exact equalSlow_eq hM hs ht rs rt
    | info j => exact key _ _ (.inr rfl) hs ht rs rt hsame
  | info i => exact key _ _ (.inl rfl) hs ht rs rt hsame

end
end Verif.Str
