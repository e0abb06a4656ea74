import Verif.CircBuffer
import Verif.SwapBuffer
import Verif.ConcBuffer
import Verif.IDGenProps
/-!
# C128: calls finish in a bounded number of steps, whatever the other threads do

The models are those of C12, C13, C15 and C16: every access to shared memory is a step of a thread.  `place` gives where the thread in question is; a step is one of that thread if it changes this.
-/
namespace Verif.WaitFree

/-- An execution from `y` to `z` all through which the thread is in its call, with `k` steps of it and any number of steps of others. -/
inductive During {S P : Type} (Step : S → S → Prop) (place : S → P) (out : P → Prop) (y : S) : Nat → S → Prop
  | start : ¬ out (place y) → During Step place out y 0 y
  | other {k : Nat} {z z' : S} : During Step place out y k z → Step z z' → place z' = place z → During Step place out y k z'
  | own {k : Nat} {z z' : S} : During Step place out y k z → Step z z' → place z' ≠ place z → ¬ out (place z') → During Step place out y (k + 1) z'

/-- The thread, in a call at `y`, is never held up by others, and its call is over with its `n`-th step from here at the latest. -/
def Within {S P : Type} (Step : S → S → Prop) (place : S → P) (out : P → Prop) (n : Nat) (y : S) : Prop :=
  ∀ k z, During Step place out y k z → k < n ∧ ∃ z', Step z z' ∧ place z' ≠ place z

/-- A number that goes down with each step of the thread bounds them. -/
theorem within_of {S P : Type} {Step : S → S → Prop} {place : S → P} {out : P → Prop} (left : P → Nat) (good : S → Prop)
    (keep : ∀ y y', good y → Step y y' → good y')
    (pos : ∀ y, good y → ¬ out (place y) → 0 < left (place y))
    (move : ∀ y, good y → ¬ out (place y) → ∃ y', Step y y' ∧ place y' ≠ place y)
    (down : ∀ y y', good y → ¬ out (place y) → Step y y' → place y' = place y ∨ out (place y') ∨ left (place y') < left (place y))
    {n : Nat} {y : S} (g : good y) (h : left (place y) ≤ n) : Within Step place out n y := by
  have key : ∀ k z, During Step place out y k z → good z ∧ ¬ out (place z) ∧ left (place z) + k ≤ n := by
    intro k z d
    induction d with
    | start o => exact ⟨g, o, h⟩
    | other d s e ih => exact ⟨keep _ _ ih.1 s, by rw [e]; exact ih.2.1, by rw [e]; exact ih.2.2⟩
    | own d s e o ih =>
      refine ⟨keep _ _ ih.1 s, o, ?_⟩
      rcases down _ _ ih.1 ih.2.1 s with q | q | q
      · exact absurd q e
      · exact absurd q o
      · have := ih.2.2; omega
  intro k z d
  obtain ⟨a, b, c⟩ := key k z d
  exact ⟨by have := pos _ a b; omega, move z a b⟩

/-! ## The circular buffer -/
section Circ
open CircBuffer

/-- What is left of the producer's call. -/
def circLeft : P → Nat
  | .idle => 0
  | .one _ _ _ => 4
  | .many vs _ _ => 2 * vs.length + 2
  | .loop b k _ => 2 * (b.length - k) + 1
  | .torn b k _ => 2 * (b.length - k)

/-- In the loop no more than the items are written. -/
def circGood (y : CircBuffer.Sys) : Prop := match y.p with
  | .loop b k _ => k ≤ b.length
  | .torn b k _ => k < b.length
  | _ => True

theorem circGood_step {m : Nat} {y y' : CircBuffer.Sys} (g : circGood y) (s : CircBuffer.Step m y y') : circGood y' := by
  cases s <;> simp_all [circGood] <;> omega

/-- **C128, the circular buffer.**  From the start of `AddItem` the producer is done with its 4th step, from that of `AddItems` of `n` items with its `2 n + 2`-nd (two for each item it writes), however the
consumer goes on; `GetEnumerable` is done with the consumer's next step. -/
theorem C128_circular (m : Nat) (y : CircBuffer.Sys) :
    (∀ v h u, y.p = .one v h u → Within (CircBuffer.Step m) (·.p) (· = .idle) 4 y) ∧
    (∀ vs h u, y.p = .many vs h u → Within (CircBuffer.Step m) (·.p) (· = .idle) (2 * vs.length + 2) y) ∧
    (∀ h, y.c = .gotHead h → Within (CircBuffer.Step m) (·.c) (fun c => ∀ h, c ≠ .gotHead h) 1 y) := by
  have prod : ∀ n, circGood y → circLeft y.p ≤ n → Within (CircBuffer.Step m) (·.p) (· = .idle) n y := by
    intro n g h
    refine within_of (P := P) (place := fun y : CircBuffer.Sys => y.p) (out := (· = .idle)) circLeft circGood (fun _ _ => circGood_step) ?_ ?_ ?_ g h
    · intro y g o
      revert g o
      unfold circGood
      cases y.p <;> simp [circLeft] <;> omega
    · intro y g o
      match e : y.p with
      | .idle => exact absurd e o
      | .one v h u =>
        by_cases c : (y.tail + 1) % m = h
        · exact ⟨_, .fullOne e c, by simp⟩
        · exact ⟨_, .roomOne e c, by simp⟩
      | .many vs h u =>
        by_cases c : min (m - used m h y.tail - 1) vs.length = 0
        · exact ⟨_, .fullMany e rfl c, by simp⟩
        · exact ⟨_, .roomMany e rfl c, by simp⟩
      | .loop b k t =>
        simp only [circGood, e] at g
        by_cases c : k = b.length
        · exact ⟨_, .publish e c, by simp⟩
        · exact ⟨_, .write e (by omega), by simp⟩
      | .torn b k t => exact ⟨_, .written e, by simp⟩
    · intro y y' g o s
      cases s <;> simp_all [circGood, circLeft] <;> omega
  refine ⟨fun v h u e => prod 4 (by simp [circGood, e]) (by simp [circLeft, e]), fun vs h u e => prod _ (by simp [circGood, e]) (by simp [circLeft, e]), fun h e => ?_⟩
  refine within_of (P := C) (place := fun y : CircBuffer.Sys => y.c) (fun _ => 1) (fun _ => True) (fun _ _ _ _ => trivial) (fun _ _ _ => Nat.one_pos) ?_ ?_ trivial (Nat.le_refl 1)
  · intro y _ o
    match e : y.c with
    | .gotHead h => exact ⟨_, .getTail e, by simp⟩
    | .idle => exact absurd (fun h => by simp [e]) o
    | .opened a b => exact absurd (fun h => by simp [e]) o
  · intro y y' _ o s
    cases s <;> simp_all

/-- A full buffer, and one with room: the hypotheses are met in reachable states. -/
example : ∃ y, CircBuffer.Reach 2 y ∧ y.p = .many [5, 6, 7] 0 0 ∧ y.c = .gotHead 0 :=
  ⟨_, .step (.step .init (.addMany [5, 6, 7] rfl)) (.getHead rfl), rfl, rfl⟩

end Circ

/-! ## The swap buffer -/
section Swap
open SwapBuffer

/-- **C128, the swap buffer.**  After its load, `Apply` is done with the writer's next step, and `Read` with the reader's. -/
theorem C128_swap (y : SwapBuffer.Sys) :
    (∀ n, y.w = .loaded n → Within SwapBuffer.Step (·.w) (fun w => ∀ n, w ≠ .loaded n) 1 y) ∧ (y.r = .loaded → Within SwapBuffer.Step (·.r) (· = .idle) 1 y) := by
  refine ⟨fun n e => ?_, fun e => ?_⟩
  · refine within_of (P := WPC) (place := fun y : SwapBuffer.Sys => y.w) (fun _ => 1) (fun _ => True) (fun _ _ _ _ => trivial) (fun _ _ _ => Nat.one_pos) ?_ ?_ trivial (Nat.le_refl 1)
    · intro y _ o
      match e : y.w with
      | .loaded n =>
        by_cases c : n &&& flag = 0
        · exact ⟨_, .store e c, by simp⟩
        · exact ⟨_, .swap e c, by simp⟩
      | .idle => exact absurd (fun h => by simp [e]) o
      | .filling => exact absurd (fun h => by simp [e]) o
    · intro y y' _ o s
      cases s <;> simp_all
  · refine within_of (P := RPC) (place := fun y : SwapBuffer.Sys => y.r) (fun _ => 1) (fun _ => True) (fun _ _ _ _ => trivial) (fun _ _ _ => Nat.one_pos) ?_ ?_ trivial (Nat.le_refl 1)
    · intro y _ o
      match e : y.r with
      | .loaded => exact ⟨_, .readSwap e, by simp⟩
      | .idle => exact absurd e o
    · intro y y' _ o s
      cases s <;> simp_all

/-- The writer and the reader both inside, in a reachable state. -/
example : ∃ y, SwapBuffer.Reach 0 y ∧ (∃ n, y.w = .loaded n) ∧ y.r = .loaded :=
  ⟨_, .step (.step (.step (.step .init (.load rfl)) (.store rfl (by decide))) (.load rfl)) (.readLoad rfl (by decide)), ⟨_, rfl⟩, rfl⟩

end Swap

/-! ## The concurrent buffer -/
section Conc
open ConcBuffer

theorem conc_alive {dtor : Bool} {n : Nat} {y : ConcBuffer.Sys} (h : ConcBuffer.Reach dtor n y) : y.alive = true ∨ ∀ t ∈ y.thrs, t = .idle := by
  induction h with
  | init => exact .inl rfl
  | step _ s ih =>
    cases s with
    | write d a t => exact .inl a
    | finish a t => exact .inl a
    | swap d a t => exact .inl a
    | destroy a t => exact .inr t

/-- **C128, the concurrent buffer.**  After its exchange, `CCConcurrentBufferWriteData` is done with the next step of its thread (the other calls are one step). -/
theorem C128_buffer (dtor : Bool) (n : Nat) (y : ConcBuffer.Sys) (r : ConcBuffer.Reach dtor n y) (i : Nat) (old : Option Nat) (h : y.thrs[i]? = some (.replaced old)) :
    Within (ConcBuffer.Step dtor) (·.thrs[i]?) (fun p => ∀ o, p ≠ some (.replaced o)) 1 y := by
  refine within_of (P := Option PC) (place := fun y : ConcBuffer.Sys => y.thrs[i]?) (fun _ => 1) (ConcBuffer.Reach dtor n) (fun _ _ r s => r.step s) (fun _ _ _ => Nat.one_pos) ?_ ?_ r (Nat.le_refl 1)
  · intro y r o
    match e : y.thrs[i]? with
    | some (.replaced old) =>
      have a : y.alive = true := by
        rcases conc_alive r with a | a
        · exact a
        · have := a _ (List.mem_of_getElem? e); cases this
      refine ⟨_, .finish a e, ?_⟩
      have : i < y.thrs.length := (List.getElem?_eq_some_iff.1 e).1
      simp [List.getElem?_set_self this]
    | some .idle => exact absurd (fun o => by simp [e]) o
    | none => exact absurd (fun o => by simp [e]) o
  · intro y y' r o s
    cases s with
    | @write j d a t =>
      by_cases c : j = i
      · subst c; exact absurd (fun o => by simp [t]) o
      · exact .inl (by simp [List.getElem?_set_ne c])
    | @finish j old a t =>
      by_cases c : j = i
      · subst c
        have : j < y.thrs.length := (List.getElem?_eq_some_iff.1 t).1
        exact .inr (.inl fun o => by simp [List.getElem?_set_self this])
      · exact .inl (by simp [List.getElem?_set_ne c])
    | swap d a t => exact .inl rfl
    | destroy a t => exact .inl rfl

/-- Two writers at once, in a reachable state. -/
example : ∃ y, ConcBuffer.Reach true 2 y ∧ y.thrs[0]? = some (.replaced none) ∧ y.thrs[1]? = some (.replaced (some 7)) :=
  ⟨_, .step (.step .init (.write (i := 0) (some 7) rfl rfl)) (.write (i := 1) (some 8) rfl rfl), rfl, rfl⟩

end Conc

/-! ## The ID generator -/
section IDs
open IDGen

/-- What is left of a thread's call. -/
def idLeft (c : Cfg) : Option PC → Nat
  | some (.sample k) => 3 * (c.size + c.w - k) + 1
  | some (.try k stop) => 3 * (c.size + c.w - stop) + 2 + (stop - k)
  | some (.check _) => 2
  | some (.store _) => 1
  | _ => 0

/-- Where a thread is. -/
def idPlace (i : Nat) (y : IDGen.Sys) : Option PC := (y.thrs[i]?).map (·.pc)

theorem idPlace_set {y : IDGen.Sys} {i j : Nat} {t t' : Thr} (h : y.thrs[j]? = some t) : ((y.thrs.set j t')[i]?).map (·.pc) = if j = i then some t'.pc else idPlace i y := by
  have : j < y.thrs.length := (List.getElem?_eq_some_iff.1 h).1
  by_cases c : j = i
  · subst c; rw [List.getElem?_set_self this, if_pos rfl]; rfl
  · rw [List.getElem?_set_ne c, if_neg c]; rfl

/-- **C128, the ID generator.**  `TryAssign` is done with the thread's step number `3 (size + w) + 1` from its start at the latest (`w` bytes to a sample), `Recycle` with its second, however many threads take and give back IDs
meanwhile. -/
theorem C128_ids (c : Cfg) (v : Valid c) (n : Nat) (y : IDGen.Sys) (r : IDGen.Reach c n y) (i : Nat) :
    (idPlace i y = some (if c.strict then .try 0 c.size else .sample 0) → Within (IDGen.Step c) (idPlace i) (fun p => p = none ∨ p = some .idle) (3 * (c.size + c.w) + 1) y) ∧
    (∀ id, idPlace i y = some (.check id) → Within (IDGen.Step c) (idPlace i) (fun p => p = none ∨ p = some .idle) 2 y) := by
  have main : ∀ m, idLeft c (idPlace i y) ≤ m → Within (IDGen.Step c) (idPlace i) (fun p => p = none ∨ p = some .idle) m y := by
    intro m hm
    refine within_of (P := Option PC) (place := idPlace i) (idLeft c) (IDGen.Reach c n) (fun _ _ r s => r.step s) ?_ ?_ ?_ r hm
    · intro y r o
      match e : y.thrs[i]? with
      | none => exact absurd (.inl (by simp [idPlace, e])) o
      | some ⟨p, h⟩ =>
        have na := (C12_ids_unique c v n y r).2.2.2.1 _ (List.mem_of_getElem? e)
        cases p <;> simp_all [idPlace, idLeft] <;> omega
    · intro y r o
      match e : y.thrs[i]? with
      | none => exact absurd (.inl (by simp [idPlace, e])) o
      | some ⟨p, h⟩ =>
        obtain ⟨_, _, _, na, _, ht, hc⟩ := C12_ids_unique c v n y r
        have mem := List.mem_of_getElem? e
        have pl : idPlace i y = some p := by simp [idPlace, e]
        match p with
        | .idle => exact absurd (.inr pl) o
        | .abort => exact absurd rfl (na _ mem)
        | .sample k =>
          by_cases c1 : k < c.size
          · cases c2 : sampleFull c y.pool k
            · exact ⟨_, .some e c1 c2, by rw [pl]; simp only [idPlace]; rw [idPlace_set e]; simp⟩
            · exact ⟨_, .full e c1 c2, by rw [pl]; simp only [idPlace]; rw [idPlace_set e]; have := v.2; simp; omega⟩
          · exact ⟨_, .fail e c1, by rw [pl]; simp only [idPlace]; rw [idPlace_set e]; simp⟩
        | .try k stop =>
          by_cases c1 : k < stop
          · have lt := ht _ mem k stop rfl c1
            by_cases c2 : y.pool[k] = 0
            · exact ⟨_, .assign e c1 (by rw [List.getElem?_eq_getElem lt, c2]), by rw [pl]; simp only [idPlace]; rw [idPlace_set e]; simp⟩
            · exact ⟨_, .taken e c1 (List.getElem?_eq_getElem lt) c2, by rw [pl]; simp only [idPlace]; rw [idPlace_set e]; simp⟩
          · exact ⟨_, .next e c1, by rw [pl]; simp only [idPlace]; rw [idPlace_set e]; simp⟩
        | .check id =>
          have lt := hc _ mem id (.inl rfl)
          refine ⟨_, .check e (List.getElem?_eq_getElem lt), ?_⟩
          rw [pl]; simp only [idPlace]; rw [idPlace_set e, if_pos rfl]
          split <;> simp
        | .store id => exact ⟨_, .store e, by rw [pl]; simp only [idPlace]; rw [idPlace_set e]; simp⟩
    · intro y y' r o s
      have w0 : 0 < c.w := v.2
      have idle : ∀ {j h}, y.thrs[j]? = some ⟨.idle, h⟩ → j ≠ i := by
        rintro j h t rfl
        exact o (.inr (by simp [idPlace, t]))
      have put : ∀ {j p h q h'}, y.thrs[j]? = some ⟨p, h⟩ → (q = .idle ∨ idLeft c (some q) < idLeft c (some p)) →
          (((y.thrs.set j ⟨q, h'⟩)[i]?).map (·.pc) = idPlace i y ∨ (((y.thrs.set j ⟨q, h'⟩)[i]?).map (·.pc) = none ∨ ((y.thrs.set j ⟨q, h'⟩)[i]?).map (·.pc) = some .idle) ∨
            idLeft c (((y.thrs.set j ⟨q, h'⟩)[i]?).map (·.pc)) < idLeft c (idPlace i y)) := by
        intro j p h q h' t l
        rw [idPlace_set t]
        by_cases e : j = i
        · subst e
          rw [if_pos rfl]
          have : idPlace j y = some p := by simp [idPlace, t]
          rw [this]
          rcases l with l | l
          · exact .inr (.inl (.inr (by rw [l])))
          · exact .inr (.inr l)
        · rw [if_neg e]; exact .inl rfl
      cases s with
      | call t => exact .inl (by simp only [idPlace]; rw [idPlace_set t, if_neg (idle t)]; rfl)
      | full t h1 h2 => exact put t (.inr (by simp only [idLeft]; omega))
      | some t h1 h2 => exact put t (.inr (by simp only [idLeft]; omega))
      | fail t h1 => exact put t (.inl rfl)
      | taken t h1 h2 h3 => exact put t (.inr (by simp only [idLeft]; omega))
      | assign t h1 h2 => exact put t (.inl rfl)
      | next t h1 => exact put t (.inr (by simp only [idLeft]; omega))
      | @pass j l id h h' p t hi t' =>
        refine .inl ?_
        have a := idPlace_set (i := i) (t' := ⟨.idle, h.erase id⟩) t
        rw [if_neg (idle t)] at a
        have b := idPlace_set (i := i) (y := { y with thrs := y.thrs.set j ⟨.idle, h.erase id⟩ }) (t' := ⟨p, id :: h'⟩) t'
        simp only [idPlace] at b ⊢
        rw [b]
        split
        · next e => subst e; rw [← idPlace, ← a, t']; rfl
        · exact a
      | recycle t hi => exact .inl (by simp only [idPlace]; rw [idPlace_set t, if_neg (idle t)]; rfl)
      | @check j id b h t hb =>
        refine put t ?_
        split
        · exact .inr (by simp [idLeft])
        · exact .inr (by simp [idLeft])
      | store t => exact put t (.inl rfl)
  refine ⟨fun e => main _ ?_, fun id e => main _ ?_⟩
  · rw [e]
    have := v.1
    have := v.2
    split <;> simp only [idLeft] <;> omega
  · rw [e]; exact Nat.le_refl 2

/-- Two threads in `TryAssign`, in a reachable state; such a generator is `Valid`. -/
example : Valid ⟨3, 8, false⟩ ∧ ∃ y, IDGen.Reach ⟨3, 8, false⟩ 2 y ∧ idPlace 0 y = some (.sample 0) ∧ idPlace 1 y = some (.sample 0) :=
  ⟨⟨by decide, by decide⟩, _, .step (.step .init (.call (i := 0) (h := []) rfl)) (.call (i := 1) (h := []) rfl), rfl, rfl⟩

end IDs

#print axioms C128_circular
#print axioms C128_swap
#print axioms C128_buffer
#print axioms C128_ids

end Verif.WaitFree
