import Verif.Rle
/-!
# C74: run length encoded streams
-/
namespace Verif.Rle

/-! ## Numbers as bytes -/

theorem le_length (n x : Nat) : (le n x).length = n := by
  induction n generalizing x with
  | zero => rfl
  | succ n ih => simp [le, ih]

theorem ofLe_le (n x : Nat) : ofLe (le n x) = x % 256 ^ n := by
  induction n generalizing x with
  | zero => simp [le, ofLe, Nat.mod_one]
  | succ n ih =>
    rw [le, ofLe, ih, Nat.pow_succ, Nat.mul_comm (256 ^ n) 256, Nat.mod_mul]
    simp

theorem le_inj {n x y : Nat} (hx : x < 256 ^ n) (hy : y < 256 ^ n) (h : le n x = le n y) : x = y := by
  have := congrArg ofLe h
  rwa [ofLe_le, ofLe_le, Nat.mod_eq_of_lt hx, Nat.mod_eq_of_lt hy] at this

/-! ## Byte by byte

A token is a byte with the kind of the call it belongs to. -/

abbrev Tok := Bool × UInt8

/-- What is written below from the state `v`, `k` on, with the flush at the end. -/
def tail (c : Config) (v : UInt8) (k : Nat) : List Tok → List UInt8
  | [] => if k = 0 then [] else le c.size (k - 1)
  | (t, b) :: ts =>
    let start := b :: if t = false ∧ c.mask b = true then tail c b 1 ts else tail c v 0 ts
    if k = 0 then start
    else if b = v then if k + 1 = 256 ^ c.size then le c.size (256 ^ c.size - 1) ++ tail c v 0 ts else tail c v (k + 1) ts
    else le c.size (k - 1) ++ start

/-- Reading byte by byte. -/
def readT (c : Config) : List Bool → Reader → Option (List UInt8 × Reader)
  | [], r => some ([], r)
  | t :: ts, r =>
    if r.count ≠ 0 then (readT c ts { r with count := r.count - 1 }).map fun (d, s) => (r.value :: d, s)
    else match r.inp with
      | [] => none
      | b :: inp =>
        if t = false ∧ c.mask b = true then (take c.size inp).bind fun (k, inp) =>
            (readT c ts ⟨b, ofLe k, inp⟩).map fun (d, s) => (b :: d, s)
        else (readT c ts { r with inp }).map fun (d, s) => (b :: d, s)

theorem take_append (a b : List UInt8) : take a.length (a ++ b) = some (a, b) := by
  unfold take; simp

/-- A run that has begun is written as its final length. -/
theorem tail_run (c : Config) (ts : List Tok) : ∀ (v : UInt8) (k : Nat), 0 < k → k < 256 ^ c.size →
    ∃ t y, k ≤ t ∧ t ≤ 256 ^ c.size ∧ tail c v k ts = le c.size (t - 1) ++ y := by
  induction ts with
  | nil => intro v k h0 hk; exact ⟨k, [], Nat.le_refl _, by omega, by simp [tail, show ¬ k = 0 by omega]⟩
  | cons x ts ih =>
    obtain ⟨t, b⟩ := x
    intro v k h0 hk
    unfold tail
    dsimp only
    rw [if_neg (show ¬ k = 0 by omega)]
    by_cases hb : b = v
    · rw [if_pos hb]
      by_cases hN : k + 1 = 256 ^ c.size
      · rw [if_pos hN]; exact ⟨256 ^ c.size, _, by omega, Nat.le_refl _, rfl⟩
      · rw [if_neg hN]
        obtain ⟨t', y, h1, h2, h3⟩ := ih v (k + 1) (by omega) (by omega)
        exact ⟨t', y, by omega, h2, h3⟩
    · rw [if_neg hb]; exact ⟨k, _, Nat.le_refl _, by omega, rfl⟩

/-- The reader is where the writer was before the tokens. -/
def Rel (c : Config) (rest : List UInt8) (v : UInt8) (k : Nat) (ts : List Tok) (r : Reader) : Prop :=
  if k = 0 then r.count = 0 ∧ r.inp = tail c v 0 ts ++ rest
  else k < 256 ^ c.size ∧ ∃ t, k ≤ t ∧ t ≤ 256 ^ c.size ∧ r.value = v ∧ r.count = t - k ∧
    tail c v k ts ++ rest = le c.size (t - 1) ++ r.inp

theorem le_append_inj {n x y : Nat} {a b : List UInt8} (hx : 0 < x) (hx' : x ≤ 256 ^ n) (hy : 0 < y) (hy' : y ≤ 256 ^ n)
    (h : le n (x - 1) ++ a = le n (y - 1) ++ b) : x = y ∧ a = b := by
  obtain ⟨h1, h2⟩ := List.append_inj h (by rw [le_length, le_length])
  have := le_inj (by omega) (by omega) h1
  exact ⟨by omega, h2⟩

theorem readT_spec (c : Config) (hs : 1 ≤ c.size) (rest : List UInt8) (ts : List Tok) : ∀ (v : UInt8) (k : Nat) (r : Reader),
    Rel c rest v k ts r → ∃ w, readT c (ts.map (·.1)) r = some (ts.map (·.2), ⟨w, 0, rest⟩) := by
  have hN : 256 ≤ 256 ^ c.size := by
    calc 256 = 256 ^ 1 := rfl
      _ ≤ 256 ^ c.size := Nat.pow_le_pow_right (by omega) hs
  induction ts with
  | nil =>
    intro v k r h
    unfold Rel at h
    split at h
    · obtain ⟨h1, h2⟩ := h
      obtain ⟨rv, rc, ri⟩ := r
      dsimp only at h1 h2
      subst h1; subst h2
      exact ⟨rv, rfl⟩
    · rename_i hk
      obtain ⟨hlt, t, h1, h2, h3, h4, h5⟩ := h
      unfold tail at h5
      rw [if_neg hk] at h5
      obtain ⟨e1, e2⟩ := le_append_inj (by omega) (by omega) (by omega) h2 h5
      obtain ⟨rv, rc, ri⟩ := r
      dsimp only at h3 h4 e2
      subst e1; subst e2
      exact ⟨rv, by rw [show rc = 0 by omega]; rfl⟩
  | cons x ts ih =>
    obtain ⟨t, b⟩ := x
    -- a byte that is read from below
    have start : ∀ (v : UInt8) (r : Reader), r.count = 0 →
        r.inp = (b :: if t = false ∧ c.mask b = true then tail c b 1 ts else tail c v 0 ts) ++ rest →
        ∃ w, readT c (((t, b) :: ts).map (·.1)) r = some (((t, b) :: ts).map (·.2), ⟨w, 0, rest⟩) := by
      intro v r h1 h2
      simp only [List.map_cons]
      rw [readT, if_neg (by omega), h2]
      simp only [List.cons_append]
      by_cases hm : t = false ∧ c.mask b = true
      · rw [if_pos hm, if_pos hm]
        obtain ⟨t', y, e1, e2, e3⟩ := tail_run c ts b 1 (by omega) (by omega)
        have htk : take c.size (tail c b 1 ts ++ rest) = some (le c.size (t' - 1), y ++ rest) := by
          rw [e3, List.append_assoc]
          have := take_append (le c.size (t' - 1)) (y ++ rest)
          rwa [le_length] at this
        rw [htk]
        simp only [Option.bind_some]
        obtain ⟨w, hw⟩ := ih b 1 ⟨b, ofLe (le c.size (t' - 1)), y ++ rest⟩ (by
          unfold Rel
          rw [if_neg (by omega)]
          exact ⟨by omega, t', e1, e2, rfl, by rw [ofLe_le, Nat.mod_eq_of_lt (by omega)], by rw [e3, List.append_assoc]⟩)
        exact ⟨w, by rw [hw]; rfl⟩
      · rw [if_neg hm, if_neg hm]
        obtain ⟨w, hw⟩ := ih v 0 { r with inp := tail c v 0 ts ++ rest } (by unfold Rel; rw [if_pos rfl]; exact ⟨h1, rfl⟩)
        exact ⟨w, by rw [hw]; rfl⟩
    intro v k r h
    unfold Rel at h
    split at h
    · rename_i hk
      obtain ⟨h1, h2⟩ := h
      unfold tail at h2
      rw [if_pos rfl] at h2
      exact start v r h1 h2
    · rename_i hk
      obtain ⟨hlt, t', h1, h2, h3, h4, h5⟩ := h
      unfold tail at h5
      dsimp only at h5
      rw [if_neg hk] at h5
      by_cases hb : b = v
      · rw [if_pos hb] at h5
        have hgo : ∀ k', 0 < r.count → Rel c rest v k' ts { r with count := r.count - 1 } →
            ∃ w, readT c (((t, b) :: ts).map (·.1)) r = some (((t, b) :: ts).map (·.2), ⟨w, 0, rest⟩) := by
          intro k' hc hr
          simp only [List.map_cons]
          rw [readT, if_pos (by omega)]
          obtain ⟨w, hw⟩ := ih v k' _ hr
          exact ⟨w, by rw [hw, h3, hb]; rfl⟩
        by_cases hmax : k + 1 = 256 ^ c.size
        · rw [if_pos hmax, List.append_assoc] at h5
          obtain ⟨e1, e2⟩ := le_append_inj (by omega) (Nat.le_refl _) (by omega) h2 h5
          exact hgo 0 (by omega) (by unfold Rel; rw [if_pos rfl]; exact ⟨by dsimp only; omega, e2.symm⟩)
        · rw [if_neg hmax] at h5
          obtain ⟨t2, y, f1, f2, f3⟩ := tail_run c ts v (k + 1) (by omega) (by omega)
          have h5' := h5
          rw [f3, List.append_assoc] at h5'
          obtain ⟨e1, e2⟩ := le_append_inj (by omega) f2 (by omega) h2 h5'
          exact hgo (k + 1) (by omega) (by
            unfold Rel; rw [if_neg (by omega)]
            exact ⟨by omega, t', by omega, h2, h3, by dsimp only; omega, h5⟩)
      · rw [if_neg hb, List.append_assoc] at h5
        obtain ⟨e1, e2⟩ := le_append_inj (by omega) (by omega) (by omega) h2 h5
        exact start v r (by omega) e2.symm

/-! ## The calls byte by byte -/

def toks (calls : List Call) : List Tok := calls.flatMap fun x => x.2.map fun b => (x.1, b)

theorem readT_length (c : Config) (ts : List Bool) : ∀ (r : Reader) d s, readT c ts r = some (d, s) → d.length = ts.length := by
  induction ts with
  | nil => intro r d s h; simp only [readT, Option.some.injEq, Prod.mk.injEq] at h; rw [← h.1]; rfl
  | cons t ts ih =>
    intro r d s h
    rw [readT] at h
    split at h
    · simp only [Option.map_eq_some_iff] at h
      obtain ⟨⟨d', s'⟩, h1, h2⟩ := h
      cases h2
      simp [ih _ _ _ h1]
    · split at h
      · cases h
      · split at h
        · simp only [Option.bind_eq_some_iff, Option.map_eq_some_iff] at h
          obtain ⟨⟨k, i⟩, -, ⟨d', s'⟩, h1, h2⟩ := h
          cases h2
          simp [ih _ _ _ h1]
        · simp only [Option.map_eq_some_iff] at h
          obtain ⟨⟨d', s'⟩, h1, h2⟩ := h
          cases h2
          simp [ih _ _ _ h1]

theorem readT_append (c : Config) (a b : List Bool) : ∀ r, readT c (a ++ b) r = (readT c a r).bind fun (d, s) =>
    (readT c b s).map fun (e, u) => (d ++ e, u) := by
  induction a with
  | nil => intro r; simp [readT]
  | cons t a ih =>
    intro r
    rw [List.cons_append, readT, readT]
    split
    · rw [ih]
      cases readT c a { r with count := r.count - 1 } with
      | none => rfl
      | some x =>
        obtain ⟨d, s⟩ := x
        simp only [Option.bind_some, Option.map_some]
        cases readT c b s <;> rfl
    · split
      · rfl
      · rename_i y inp hin
        split
        · cases take c.size inp with
          | none => rfl
          | some z =>
            obtain ⟨k, i⟩ := z
            simp only [Option.bind_some]
            rw [ih]
            cases readT c a ⟨y, ofLe k, i⟩ with
            | none => rfl
            | some x =>
              obtain ⟨d, s⟩ := x
              simp only [Option.bind_some, Option.map_some]
              cases readT c b s <;> rfl
        · rw [ih]
          cases readT c a { r with inp } with
          | none => rfl
          | some x =>
            obtain ⟨d, s⟩ := x
            simp only [Option.bind_some, Option.map_some]
            cases readT c b s <;> rfl

theorem read_eq (c : Config) (h8 : c.size ≤ 8) (n : Nat) : ∀ r, read c n r = readT c (List.replicate n false) r := by
  induction n with
  | zero => intro r; rfl
  | succ n ih =>
    intro r
    rw [List.replicate_succ, read, readT]
    simp only [ih, h8, if_true, true_and]
    split
    · rfl
    · cases r.inp <;> rfl

/-- Reading what lies below as it is. -/
theorem raw_eq (c : Config) (n : Nat) : ∀ r : Reader, r.count = 0 →
    readT c (List.replicate n true) r = (take n r.inp).map fun (d, inp) => (d, { r with inp }) := by
  induction n with
  | zero => intro r _; simp [readT, take]
  | succ n ih =>
    intro r hr
    rw [List.replicate_succ, readT, if_neg (by omega)]
    cases hi : r.inp with
    | nil => simp [take]
    | cons b inp =>
      dsimp only
      rw [if_neg (by simp), ih { r with inp } hr]
      unfold take
      by_cases hn : n ≤ inp.length
      · simp [hn]
      · simp [hn]

theorem continueLoop_eq (c : Config) (n : Nat) : ∀ r, readContinueLoop n r = readT c (List.replicate n true) r := by
  induction n with
  | zero => intro r; rfl
  | succ n ih =>
    intro r
    rw [readContinueLoop]
    by_cases h : r.count ≠ 0
    · rw [if_pos h, List.replicate_succ, readT, if_pos h, ih]
    · rw [if_neg h, raw_eq c (n + 1) r (by omega)]

theorem readContinue_eq (c : Config) (n : Nat) (r : Reader) : readContinue n r = readT c (List.replicate n true) r := by
  unfold readContinue
  by_cases h : r.count ≠ 0
  · rw [if_pos h, continueLoop_eq c]
  · rw [if_neg h, raw_eq c n r (by omega)]

theorem readAll_spec (c : Config) (h8 : c.size ≤ 8) (calls : List Call) : ∀ r s,
    readT c ((toks calls).map (·.1)) r = some ((toks calls).map (·.2), s) →
    readAll c (calls.map fun x => (x.1, x.2.length)) r = some (calls.map (·.2), s) := by
  induction calls with
  | nil => intro r s h; simp only [toks, List.flatMap_nil, List.map_nil, readT, Option.some.injEq, Prod.mk.injEq] at h; rw [h.2]; rfl
  | cons x calls ih =>
    obtain ⟨k, d⟩ := x
    intro r s h
    have e1 : (toks ((k, d) :: calls)).map (·.1) = List.replicate d.length k ++ (toks calls).map (·.1) := by
      simp [toks, Function.comp_def, List.map_const']
    have e2 : (toks ((k, d) :: calls)).map (·.2) = d ++ (toks calls).map (·.2) := by
      simp [toks, Function.comp_def]
    rw [e1, e2, readT_append] at h
    have hh : readT c (List.replicate d.length k) r =
        if k then readContinue d.length r else read c d.length r := by
      cases k
      · rw [if_neg (by simp), read_eq c h8]
      · rw [if_pos rfl, readContinue_eq c]
    simp only [List.map_cons, readAll]
    rw [← hh]
    cases hr : readT c (List.replicate d.length k) r with
    | none => rw [hr] at h; cases h
    | some y =>
      obtain ⟨d', s'⟩ := y
      rw [hr] at h
      simp only [Option.bind_some, Option.map_eq_some_iff] at h ⊢
      obtain ⟨⟨e, u⟩, g1, g2⟩ := h
      have hl := readT_length c _ _ _ _ hr
      simp only [Prod.mk.injEq] at g2
      obtain ⟨g2, rfl⟩ := g2
      obtain ⟨rfl, rfl⟩ := List.append_inj g2 (by rw [hl]; simp)
      exact ⟨(calls.map (·.2), u), ih s' u g1, rfl⟩

/-! ## The writer byte by byte -/

/-- The last bytes written are the pending run. -/
def Pending (h : List UInt8) (w : Writer) : Prop := ∃ p, h = p ++ List.replicate w.count w.value

theorem flush_spec (c : Config) (h8 : c.size ≤ 8) (w : Writer) :
    flush c w = some { w with count := 0, out := w.out ++ if w.count = 0 then [] else le c.size (w.count - 1) } := by
  unfold flush
  by_cases h : w.count = 0
  · obtain ⟨v, k, o⟩ := w
    dsimp only at h
    subst h
    simp
  · rw [if_neg h, if_pos h8, if_neg h]

/-- What a call leaves: `full` is written, and the tokens to come are written as from the state before. -/
def After (c : Config) (h d : List UInt8) (t : Bool) (w w' : Writer) : Prop :=
  w'.count < 256 ^ c.size ∧ Pending (h ++ d) w' ∧
  ∀ ts, w.out ++ tail c w.value w.count (d.map (fun b => (t, b)) ++ ts) = w'.out ++ tail c w'.value w'.count ts

theorem after_cons {c : Config} {h d : List UInt8} {t : Bool} {b : UInt8} {w w1 w' : Writer}
    (h1 : ∀ ts, w.out ++ tail c w.value w.count ((t, b) :: ts) = w1.out ++ tail c w1.value w1.count ts)
    (h2 : After c (h ++ [b]) d t w1 w') : After c h (b :: d) t w w' := by
  obtain ⟨a1, a2, a3⟩ := h2
  refine ⟨a1, by simpa using a2, fun ts => ?_⟩
  rw [List.map_cons, List.cons_append, h1, a3]

theorem after_nil {c : Config} {h : List UInt8} {t : Bool} {w : Writer} (hk : w.count < 256 ^ c.size) (hp : Pending h w) :
    After c h [] t w w := ⟨hk, by simpa using hp, fun ts => by simp⟩

theorem pending_snoc {h : List UInt8} {w : Writer} (hp : Pending h w) (o : List UInt8) :
    Pending (h ++ [w.value]) ⟨w.value, w.count + 1, o⟩ := by
  obtain ⟨p, rfl⟩ := hp
  exact ⟨p, by rw [List.append_assoc, ← List.replicate_succ']⟩

theorem pending_zero (h : List UInt8) (v : UInt8) (o : List UInt8) : Pending h ⟨v, 0, o⟩ := ⟨h, by simp⟩

/-- One byte of `CCReflectStreamRLEWrite`. -/
def byteStep (c : Config) (w : Writer) (b : UInt8) : Writer :=
  if w.count = 0 then writeByte c w b
  else if b = w.value then
    if w.count + 1 = 256 ^ c.size then { w with count := 0, out := w.out ++ le c.size (256 ^ c.size - 1) }
    else { w with count := w.count + 1 }
  else writeByte c { w with count := 0, out := w.out ++ le c.size (w.count - 1) } b

theorem tail_cons (c : Config) (v : UInt8) (k : Nat) (t : Bool) (b : UInt8) (ts : List Tok) : tail c v k ((t, b) :: ts) =
    if k = 0 then b :: (if t = false ∧ c.mask b = true then tail c b 1 ts else tail c v 0 ts)
    else if b = v then if k + 1 = 256 ^ c.size then le c.size (256 ^ c.size - 1) ++ tail c v 0 ts else tail c v (k + 1) ts
    else le c.size (k - 1) ++ b :: (if t = false ∧ c.mask b = true then tail c b 1 ts else tail c v 0 ts) := rfl

theorem byteStep_tail (c : Config) (w : Writer) (b : UInt8) (ts : List Tok) :
    w.out ++ tail c w.value w.count ((false, b) :: ts) = (byteStep c w b).out ++ tail c (byteStep c w b).value (byteStep c w b).count ts := by
  obtain ⟨v, k, o⟩ := w
  dsimp only
  rw [tail_cons]
  unfold byteStep writeByte
  dsimp only
  by_cases hk : k = 0
  · subst hk
    cases c.mask b <;> simp
  · rw [if_neg hk, if_neg hk]
    by_cases hb : b = v
    · rw [if_pos hb, if_pos hb]
      by_cases hm : k + 1 = 256 ^ c.size
      · rw [if_pos hm, if_pos hm]; simp
      · rw [if_neg hm, if_neg hm]
    · rw [if_neg hb, if_neg hb]
      cases c.mask b <;> simp

theorem byteStep_inv (c : Config) (hs : 1 ≤ c.size) (h : List UInt8) (w : Writer) (b : UInt8) (hk : w.count < 256 ^ c.size)
    (hp : Pending h w) : (byteStep c w b).count < 256 ^ c.size ∧ Pending (h ++ [b]) (byteStep c w b) := by
  have hN : 256 ≤ 256 ^ c.size := by
    calc 256 = 256 ^ 1 := rfl
      _ ≤ 256 ^ c.size := Nat.pow_le_pow_right (by omega) hs
  have one : ∀ w : Writer, w.count = 0 → (writeByte c w b).count < 256 ^ c.size ∧ Pending (h ++ [b]) (writeByte c w b) := by
    intro w hw
    unfold writeByte
    split
    · exact ⟨by dsimp only; omega, h, by dsimp only; rw [hw]; rfl⟩
    · exact ⟨by dsimp only; omega, h ++ [b], by dsimp only; rw [hw]; simp⟩
  unfold byteStep
  by_cases h0 : w.count = 0
  · rw [if_pos h0]; exact one w h0
  · rw [if_neg h0]
    by_cases hb : b = w.value
    · rw [if_pos hb]
      split
      · exact ⟨by dsimp only; omega, pending_zero _ _ _⟩
      · exact ⟨by dsimp only; omega, by rw [hb]; exact pending_snoc hp _⟩
    · rw [if_neg hb]; exact one _ rfl

theorem writeLoop_spec (c : Config) (hs : 1 ≤ c.size) (h7 : c.size ≤ 7) (d : List UInt8) : ∀ (h : List UInt8) (w : Writer),
    w.count < 256 ^ c.size → Pending h w → ∃ w', writeLoop c (256 ^ c.size) d w = some w' ∧ After c h d false w w' := by
  induction d with
  | nil => intro h w hk hp; exact ⟨w, rfl, after_nil hk hp⟩
  | cons b d ih =>
    intro h w hk hp
    have e : writeLoop c (256 ^ c.size) (b :: d) w = writeLoop c (256 ^ c.size) d (byteStep c w b) := by
      rw [writeLoop]
      unfold byteStep
      by_cases h0 : w.count = 0
      · rw [if_neg (by simpa using h0), if_pos h0]
      · rw [if_pos h0, if_neg h0]
        by_cases hb : b = w.value
        · rw [if_neg (by simpa using hb), if_pos hb]
          by_cases hm : w.count + 1 = 256 ^ c.size
          · rw [if_pos hm, if_pos hm, flush_spec c (by omega)]
            simp only [Option.bind_some]
            rw [if_neg (by omega), hm]
          · rw [if_neg hm, if_neg hm]
        · rw [if_pos hb, if_neg hb, flush_spec c (by omega)]
          simp only [Option.bind_some]
          rw [if_neg h0]
    obtain ⟨i1, i2⟩ := byteStep_inv c hs h w b hk hp
    obtain ⟨w', h1, h2⟩ := ih (h ++ [b]) _ i1 i2
    exact ⟨w', by rw [e, h1], after_cons (byteStep_tail c w b) h2⟩

theorem raw_tail (c : Config) (v : UInt8) (d : List UInt8) (ts : List Tok) :
    tail c v 0 (d.map (fun b => (true, b)) ++ ts) = d ++ tail c v 0 ts := by
  induction d with
  | nil => rfl
  | cons b d ih => rw [List.map_cons, List.cons_append, tail]; simp [ih]

theorem after_raw (c : Config) (h d : List UInt8) (w : Writer) (hw : w.count = 0) :
    After c h d true w { w with out := w.out ++ d } := by
  obtain ⟨v, k, o⟩ := w
  dsimp only at hw ⊢
  subst hw
  exact ⟨Nat.pos_of_ne_zero (by simp), pending_zero _ _ _, fun ts => by dsimp only; rw [raw_tail]; simp⟩

/-- No run is longer than its count can say. -/
def NoLongRun (c : Config) (full : List UInt8) : Prop := ∀ v, ¬ List.replicate (256 ^ c.size + 1) v <:+: full

theorem writeContinue_loop (c : Config) (hs : 1 ≤ c.size) (h7 : c.size ≤ 7) (full : List UInt8) (hrun : NoLongRun c full) (d : List UInt8) :
    ∀ (h : List UInt8) (w : Writer), h ++ d <+: full → 0 < w.count → w.count < 256 ^ c.size → Pending h w →
    ∃ w', continueLoop c (256 ^ c.size) d w = some w' ∧ After c h d true w w' := by
  induction d with
  | nil => intro h w _ _ hk hp; exact ⟨w, rfl, after_nil hk hp⟩
  | cons b d ih =>
    intro h w hf h0 hk hp
    rw [continueLoop]
    by_cases hb : b = w.value
    · rw [if_neg (by simpa using hb)]
      by_cases hm : w.count + 1 = 256 ^ c.size
      · -- the run is as long as it can be
        rw [if_pos hm, flush_spec c (by omega)]
        simp only [Option.bind_some]
        rw [if_neg (by omega)]
        have hrest : ∃ w', continueLoop c (256 ^ c.size) d ⟨w.value, 0, w.out ++ le c.size (w.count + 1 - 1)⟩ = some w' ∧
            After c (h ++ [b]) d true ⟨w.value, 0, w.out ++ le c.size (w.count + 1 - 1)⟩ w' := by
          cases d with
          | nil => exact ⟨_, rfl, after_nil (by dsimp only; omega) (pending_zero _ _ _)⟩
          | cons b' d =>
            by_cases hb' : b' = w.value
            · exfalso
              obtain ⟨p, hp⟩ := hp
              refine hrun w.value (List.IsInfix.trans ?_ hf.isInfix)
              refine ⟨p, d, ?_⟩
              rw [hp, hb, hb', ← hm, List.replicate_succ', List.replicate_succ']
              simp
            · refine ⟨_, ?_, after_raw c (h ++ [b]) (b' :: d) ⟨w.value, 0, w.out ++ le c.size (w.count + 1 - 1)⟩ rfl⟩
              rw [continueLoop, if_pos hb', flush_spec c (by omega)]
              simp
        obtain ⟨w', h1, h2⟩ := hrest
        refine ⟨w', h1, after_cons (fun ts => ?_) h2⟩
        rw [tail]
        dsimp only
        rw [if_neg (by omega), if_pos hb, if_pos hm, ← hm]
        simp
      · rw [if_neg hm]
        obtain ⟨w', h1, h2⟩ := ih (h ++ [b]) ⟨w.value, w.count + 1, w.out⟩ (by simpa using hf) (by dsimp only; omega)
          (by dsimp only; omega) (by rw [hb]; exact pending_snoc hp _)
        refine ⟨w', h1, after_cons (fun ts => ?_) h2⟩
        rw [tail]
        dsimp only
        rw [if_neg (by omega), if_pos hb, if_neg hm]
    · rw [if_pos hb, flush_spec c (by omega)]
      simp only [Option.bind_some]
      rw [if_neg (by omega)]
      refine ⟨_, rfl, ?_⟩
      refine ⟨by dsimp only; omega, pending_zero _ _ _, fun ts => ?_⟩
      dsimp only
      rw [List.map_cons, List.cons_append, tail]
      rw [if_neg (by omega), if_neg hb, if_neg (by simp), raw_tail]
      simp

theorem max_eq (c : Config) (h7 : c.size ≤ 7) : maxCount c = some (256 ^ c.size) := by
  unfold maxCount
  rw [if_pos (by omega), Nat.pow_mul]

theorem call_spec (c : Config) (hs : 1 ≤ c.size) (h7 : c.size ≤ 7) (full : List UInt8) (t : Bool) (hrun : t = true → NoLongRun c full)
    (h d : List UInt8) (w : Writer) (hf : h ++ d <+: full) (hk : w.count < 256 ^ c.size) (hp : Pending h w) :
    ∃ w', (if t then writeContinue c d w else write c d w) = some w' ∧ After c h d t w w' := by
  cases t with
  | false =>
    rw [if_neg (by simp)]
    unfold write
    rw [max_eq c h7]
    exact writeLoop_spec c hs h7 d h w hk hp
  | true =>
    rw [if_pos rfl]
    unfold writeContinue
    by_cases h0 : w.count = 0
    · rw [if_neg (by simpa using h0)]
      exact ⟨_, rfl, after_raw c h d w h0⟩
    · rw [if_pos h0, max_eq c h7]
      exact writeContinue_loop c hs h7 full (hrun rfl) d h w hf (by omega) hk hp

theorem writeAll_spec (c : Config) (hs : 1 ≤ c.size) (h7 : c.size ≤ 7) (full : List UInt8) (calls : List Call)
    (hrun : ∀ x ∈ calls, x.1 = true → NoLongRun c full) : ∀ (h : List UInt8) (w : Writer),
    h ++ calls.flatMap (·.2) <+: full → w.count < 256 ^ c.size → Pending h w →
    ∃ w' f, writeAll c calls w = some w' ∧ flush c w' = some f ∧ f.count = 0 ∧
      f.out = w.out ++ tail c w.value w.count (toks calls) := by
  induction calls with
  | nil =>
    intro h w _ hk hp
    refine ⟨w, _, rfl, flush_spec c (by omega) w, rfl, ?_⟩
    simp [toks, tail]
  | cons x calls ih =>
    obtain ⟨t, d⟩ := x
    intro h w hf hk hp
    rw [List.flatMap_cons, ← List.append_assoc] at hf
    obtain ⟨w1, h1, a1, a2, a3⟩ := call_spec c hs h7 full t (hrun (t, d) (by simp)) h d w
      (List.IsPrefix.trans (List.prefix_append _ _) hf) hk hp
    obtain ⟨w', f, g1, g2, g3, g4⟩ := ih (fun x hx => hrun x (by simp [hx])) (h ++ d) w1 hf a1 a2
    refine ⟨w', f, ?_, g2, g3, ?_⟩
    · rw [writeAll, h1]; exact g1
    · rw [g4, ← a3]
      simp [toks]

/-! ## Theorems -/

/-- **C74.**  What any sequence of writing and continuing calls has written, followed by a flush, is read back by the same
sequence of reading and continuing calls: each gets the data its counterpart wrote, what follows in the stream is left, and no
run is pending.  Continuing calls need that no byte is repeated more than `256 ^ size` times in a row. -/
theorem C74_roundtrip_partial (c : Config) (hs : 1 ≤ c.size) (h7 : c.size ≤ 7) (calls : List Call)
    (hrun : ∀ x ∈ calls, x.1 = true → ∀ v, ¬ List.replicate (256 ^ c.size + 1) v <:+: calls.flatMap (·.2)) (rest : List UInt8) :
    ∃ w f, writeAll c calls fresh = some w ∧ flush c w = some f ∧
      ∃ v, readAll c (calls.map fun x => (x.1, x.2.length)) (opened (f.out ++ rest)) = some (calls.map (·.2), ⟨v, 0, rest⟩) := by
  obtain ⟨w, f, h1, h2, -, h4⟩ := writeAll_spec c hs h7 (calls.flatMap fun x : Call => x.2) calls hrun [] fresh (by simp) (Nat.pos_of_ne_zero (by simp [fresh]))
    (pending_zero _ _ _)
  refine ⟨w, f, h1, h2, ?_⟩
  obtain ⟨v, hv⟩ := readT_spec c hs rest (toks calls) 0 0 (opened (f.out ++ rest)) (by
    unfold Rel; rw [if_pos rfl]; exact ⟨rfl, by rw [h4]; rfl⟩)
  exact ⟨v, readAll_spec c (by omega) calls _ _ hv⟩

/-- **C74, without continuing calls** nothing is asked of the data. -/
theorem C74_write_read (c : Config) (hs : 1 ≤ c.size) (h7 : c.size ≤ 7) (data : List (List UInt8)) (rest : List UInt8) :
    ∃ w f, writeAll c (data.map (false, ·)) fresh = some w ∧ flush c w = some f ∧
      ∃ v, readAll c (data.map fun d => (false, d.length)) (opened (f.out ++ rest)) = some (data, ⟨v, 0, rest⟩) := by
  obtain ⟨w, f, h1, h2, v, h3⟩ := C74_roundtrip_partial c hs h7 (data.map (false, ·)) (by simp) rest
  exact ⟨w, f, h1, h2, v, by simpa [Function.comp_def] using h3⟩

/-- The mask of the macros: zeros are repeated. -/
def zeros (n : Nat) : Config := ⟨fun b => b == 0, n⟩

/-- **C74 is false for a continuing call that repeats a byte more often**: the repetitions beyond the longest run are lost. -/
theorem C74_continue_refuted : (writeAll (zeros 1) [(false, [0]), (true, List.replicate 257 0)] fresh).bind (flush (zeros 1)) =
      some ⟨0, 0, [0, 255, 1]⟩ ∧
    readAll (zeros 1) [(false, 1), (true, 257)] (opened [0, 255, 1]) = none := by
  decide +kernel

/-- **C74 is false for counts of 64 bits** (`CC_REFLECT_STREAM_WRITE_RLE_ZERO_64`): every write shifts by the width of the type. -/
theorem C74_64_refuted (m : UInt8 → Bool) (d : List UInt8) (w : Writer) : write ⟨m, 8⟩ d w = none := rfl

/-- **C74 is false when the size of the counts changes after a continuing call**, which the header allows: a pending run is
written with the new size. -/
theorem C74_reconfigure_refuted : (writeAll (zeros 1) [(false, [0]), (true, [0])] fresh).bind (fun w => (writeAll (zeros 2) [(false, [5])] w).bind (flush (zeros 2))) =
      some ⟨0, 0, [0, 1, 0, 5]⟩ ∧
    ((readAll (zeros 1) [(false, 1), (true, 1)] (opened [0, 1, 0, 5])).bind fun (_, r) => (readAll (zeros 2) [(false, 1)] r).map (·.1)) =
      none := by
  decide +kernel

/-- **C74, runs are shortened**: a run of up to `256 ^ size` of a masked byte takes `1 + size` bytes. -/
theorem C74_run_length (c : Config) (hs : 1 ≤ c.size) (h7 : c.size ≤ 7) (b : UInt8) (hb : c.mask b = true) (n : Nat) (h0 : 0 < n)
    (hn : n ≤ 256 ^ c.size) :
    ∃ w f, writeAll c [(false, List.replicate n b)] fresh = some w ∧ flush c w = some f ∧ f.out = b :: le c.size (n - 1) := by
  have hN : 256 ≤ 256 ^ c.size := by
    calc 256 = 256 ^ 1 := rfl
      _ ≤ 256 ^ c.size := Nat.pow_le_pow_right (by omega) hs
  obtain ⟨w, f, h1, h2, -, h4⟩ := writeAll_spec c hs h7 (List.replicate n b) [(false, List.replicate n b)] (by simp) [] fresh (by simp)
    (by simp only [fresh]; omega) (pending_zero _ _ _)
  refine ⟨w, f, h1, h2, ?_⟩
  rw [h4]
  have key : ∀ m k, 0 < k → k < 256 ^ c.size → k + m ≤ 256 ^ c.size →
      tail c b k ((List.replicate m b).map fun x => (false, x)) = le c.size (k + m - 1) := by
    intro m
    induction m with
    | zero => intro k hk _ _; simp [tail, show ¬ k = 0 by omega]
    | succ m ih =>
      intro k hk hk' hm
      rw [List.replicate_succ, List.map_cons, tail]
      rw [if_neg (by omega), if_pos rfl]
      split
      · rename_i he
        have : m = 0 := by omega
        subst this
        simp [tail, he]
      · rw [ih (k + 1) (by omega) (by omega) (by omega)]
        congr 1; omega
  obtain ⟨m, rfl⟩ : ∃ m, n = m + 1 := ⟨n - 1, by omega⟩
  have := key m 1 (by omega) (by omega) (by omega)
  simp only [fresh, toks, List.flatMap_cons, List.flatMap_nil, List.append_nil, List.nil_append]
  rw [List.replicate_succ, List.map_cons, tail]
  simp only [if_true, hb, and_self]
  rw [this]
  congr 2; omega

/-- Runs across calls, a run of the greatest length, and bytes that are not repeated. -/
example : (writeAll (zeros 1) [(false, [1, 0, 0]), (true, [0, 0, 7, 0]), (false, List.replicate 300 0)] fresh).bind (flush (zeros 1)) =
    some ⟨0, 0, [1, 0, 3, 7, 0, 0, 255, 0, 43]⟩ := by
  decide +kernel

example : ∃ w f, writeAll (zeros 1) [(false, [1, 0, 0]), (true, [0, 0, 7, 0]), (false, [0, 0])] fresh = some w ∧ flush (zeros 1) w = some f ∧
    ∃ v, readAll (zeros 1) [(false, 3), (true, 4), (false, 2)] (opened (f.out ++ [9])) =
      some ([[1, 0, 0], [0, 0, 7, 0], [0, 0]], ⟨v, 0, [9]⟩) :=
  C74_roundtrip_partial (zeros 1) (by decide) (by decide) [(false, [1, 0, 0]), (true, [0, 0, 7, 0]), (false, [0, 0])]
    (fun _ _ _ v h => by have := h.length_le; rw [List.length_replicate] at this; revert this; decide) [9]

#print axioms C74_roundtrip_partial
#print axioms C74_write_read
#print axioms C74_run_length

end Verif.Rle
