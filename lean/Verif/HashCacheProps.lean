import Verif.HashCache
/-!
# C92: the cache of the hashes of tagged strings
-/
namespace Verif.HashCache
open Verif.Conc

namespace Spec

/-- The thread is looking up a value. -/
def Reading : Pc → Prop
  | .find _ => True
  | _ => False

/-- The thread is creating the dictionary or setting a value. -/
def Writing : Pc → Prop
  | .create _ => True
  | .set _ => True
  | _ => False

/-- The thread is in the middle of a call. -/
def Busy : Pc → Prop
  | .idle | .done _ _ | .aborted | .fault => False
  | _ => True

end Spec
open Spec

/-- Holds the lock for reading, or has counted itself and not yet gone back. -/
def rd : Pc → Nat
  | .find _ | .leave _ _ | .back _ => 1
  | _ => 0

def inside : Pc → Nat
  | .find _ | .leave _ _ => 1
  | _ => 0

def wr : Pc → Nat
  | .create _ | .set _ | .unlock _ | .aborted => 1
  | _ => 0

/-- What holds of one thread. -/
def Fine (H : Key → Hash) (c : Option Cache) : Pc → Prop
  | .look _ | .enter _ | .find _ | .back _ | .set _ | .unlock _ | .leave _ none => c.isSome
  | .leave k (some p) => ∃ d, c = some d ∧ d.place = p ∧ (d.get k).isSome
  | .deref k p => ∃ d, c = some d ∧ p ≤ d.place ∧ (d.get k).isSome
  | .done k r => r = H k
  | _ => True

structure Inv (H : Key → Hash) (n : Nat) (s : Sys) : Prop where
  len : s.threads.length = n
  lock : s.sh.lock = sumBy rd s.threads - 2 ^ 31 * sumBy wr s.threads
  one : sumBy wr s.threads ≤ 1
  excl : sumBy wr s.threads = 1 → sumBy inside s.threads = 0
  vals : ∀ c, s.sh.cache = some c → ∀ e ∈ c.vals, e.2 = H e.1
  fine : ∀ (i : Nat) p, s.threads[i]? = some p → Fine H s.sh.cache p

theorem sumBy_le_length (f : Pc → Nat) (hf : ∀ p, f p ≤ 1) (l : List Pc) : sumBy f l ≤ l.length := by
  induction l with
  | nil => simp
  | cons a l ih => have := hf a; simp; omega

theorem rd_le (p : Pc) : rd p ≤ 1 := by cases p <;> simp [rd]

/-- A thread that waits to give back the lock is no reader. -/
theorem rd_wr (p : Pc) : rd p + wr p ≤ 1 := by cases p <;> simp [rd, wr]

theorem inside_le (p : Pc) : inside p ≤ rd p := by cases p <;> simp [rd, inside]

theorem sumBy_mono {f g : Pc → Nat} (h : ∀ p, f p ≤ g p) (l : List Pc) : sumBy f l ≤ sumBy g l := by
  induction l with
  | nil => simp
  | cons a l ih => have := h a; simp; omega

theorem wrap_id {x : Int} (h1 : -2 ^ 31 ≤ x) (h2 : x < 2 ^ 31) : wrap x = x := by
  unfold wrap
  rw [Int.bmod_eq_of_le_mul_two] <;> omega

theorem start_inv (H : Key → Hash) (n : Nat) : Inv H n (start n) := by
  have h0 : ∀ f : Pc → Nat, f .idle = 0 → sumBy f (start n).threads = 0 := by
    intro f hf
    simp [start, sumBy_replicate, hf]
  refine ⟨by simp [start], ?_, ?_, ?_, ?_, ?_⟩
  · rw [h0 rd rfl, h0 wr rfl]; rfl
  · rw [h0 wr rfl]; omega
  · intro _; exact h0 inside rfl
  · intro c hc; simp [start] at hc
  · intro i p hp
    simp only [start, List.getElem?_replicate] at hp
    split at hp
    · have := Option.some.inj hp
      subst this
      trivial
    · simp at hp

theorem get_cons (c : Cache) (k k' : Key) (h : Hash) (hs : (c.get k').isSome) (p : Nat) :
    (Cache.get ⟨p, (k, h) :: c.vals⟩ k').isSome := by
  unfold Cache.get at *
  rw [List.find?_cons]
  split <;> simp_all

/-- Threads stay fine when the cache is created or a value is set while nobody holds the lock for reading. -/
theorem Fine.grow {H : Key → Hash} {c : Option Cache} {d : Cache} {p : Pc} (h : Fine H c p)
    (hd : ∀ e, c = some e → e.place ≤ d.place ∧ (∀ k, (e.get k).isSome → (d.get k).isSome)) (hp : inside p = 0) : Fine H (some d) p := by
  cases p with
  | leave k p => simp [inside] at hp
  | deref k p =>
    obtain ⟨e, he, h1, h2⟩ := h
    exact ⟨d, rfl, Nat.le_trans h1 (hd e he).1, (hd e he).2 k h2⟩
  | done k r => exact h
  | _ => first | trivial | exact rfl

/-- Everything about one step in which the cache does not change. -/
theorem Inv.keep {H : Key → Hash} {n : Nat} {s : Sys} (hi : Inv H n s) {i : Nat} {p q : Pc} (hp : s.threads[i]? = some p) {l : Int}
    (hl : l = s.sh.lock + (rd q : Int) - rd p - 2 ^ 31 * (wr q : Int) + 2 ^ 31 * wr p)
    (ho : sumBy wr s.threads + wr q ≤ 1 + wr p)
    (hx : sumBy wr s.threads + wr q = 1 + wr p → sumBy inside s.threads + inside q = inside p)
    (hf : Fine H s.sh.cache q) : Inv H n ⟨⟨s.sh.cache, l⟩, s.threads.set i q⟩ := by
  have h1 := sumBy_set rd hp q
  have h2 := sumBy_set wr hp q
  have h3 := sumBy_set inside hp q
  have hlk := hi.lock
  refine ⟨by simpa using hi.len, ?_, ?_, ?_, hi.vals, ?_⟩
  · dsimp only
    omega
  · dsimp only
    omega
  · dsimp only
    intro h
    have := hx (by omega)
    omega
  · intro j r hj
    dsimp only at hj
    rw [List.getElem?_set] at hj
    split at hj
    · split at hj
      · have := Option.some.inj hj
        subst this
        exact hf
      · simp at hj
    · exact hi.fine j r hj

theorem Inv.change {H : Key → Hash} {n : Nat} {s : Sys} (hi : Inv H n s) {i : Nat} {p q : Pc} (hp : s.threads[i]? = some p) {d : Cache}
    (hr : rd p = rd q) (hw : wr p = 1) (hw' : wr q = 1) (hin : inside q = 0)
    (hd : ∀ e, s.sh.cache = some e → e.place ≤ d.place ∧ (∀ k, (e.get k).isSome → (d.get k).isSome))
    (hv : ∀ e ∈ d.vals, e.2 = H e.1) (hf : Fine H (some d) q) : Inv H n ⟨⟨some d, s.sh.lock⟩, s.threads.set i q⟩ := by
  have h1 := sumBy_set rd hp q
  have h2 := sumBy_set wr hp q
  have h3 := sumBy_set inside hp q
  have hlk := hi.lock
  have hone := hi.one
  have hle := le_sumBy wr hp
  have hx := hi.excl (by omega)
  refine ⟨by simpa using hi.len, ?_, ?_, ?_, ?_, ?_⟩
  · dsimp only
    omega
  · dsimp only
    omega
  · dsimp only
    intro h
    omega
  · intro c hc
    have := Option.some.inj hc
    subst this
    exact hv
  · intro j r hj
    dsimp only at hj
    rw [List.getElem?_set] at hj
    split at hj
    · split at hj
      · have := Option.some.inj hj
        subst this
        exact hf
      · simp at hj
    · exact (hi.fine j r hj).grow hd (sumBy_zero inside hx r (List.mem_of_getElem? hj))

theorem Inv.step {H : Key → Hash} {n : Nat} (hn : n < 2 ^ 31) {s t : Sys} {i : Nat} (hi : Inv H n s) (h : Step H s i t) : Inv H n t := by
  obtain ⟨p, q, sh, hp, ha⟩ := h
  have hfine := hi.fine i p hp
  have hlk := hi.lock
  have hone := hi.one
  have hlen : sumBy rd s.threads ≤ n := hi.len ▸ sumBy_le_length rd rd_le _
  have hwle := le_sumBy wr hp
  have hrle := le_sumBy rd hp
  have hile := le_sumBy inside hp
  have hex := hi.excl
  cases ha with
  | call k => exact hi.keep hp (by simp [rd, wr]) (by simp [wr]; omega) (by simpa [wr, inside] using hex) trivial
  | again k r => exact hi.keep hp (by simp [rd, wr]) (by simp [wr]; omega) (by simpa [wr, inside] using hex) trivial
  | testNull k hc => exact hi.keep hp (by simp [rd, wr]) (by simp [wr]; omega) (by simpa [wr, inside] using hex) trivial
  | test k hc => exact hi.keep hp (by simp [rd, wr]) (by simp [wr]; omega) (by simpa [wr, inside] using hex) hc
  | lookTaken k hl => exact hi.keep hp (by simp [rd, wr]) (by simp [wr]; omega) (by simpa [wr, inside] using hex) trivial
  | look k hl => exact hi.keep hp (by simp [rd, wr]) (by simp [wr]; omega) (by simpa [wr, inside] using hex) hfine
  | enterTaken k hl =>
    have hrd : sumBy rd s.threads < n := by
      have h1 := sumBy_set rd hp (.find k)
      have h2 := sumBy_le_length rd rd_le (s.threads.set i (.find k))
      have h3 := hi.len
      simp [rd] at h1 h2
      omega
    exact hi.keep hp (by rw [wrap_id (by omega) (by omega)]; simp [rd, wr]) (by simp [wr]; omega) (by simpa [wr, inside] using hex) hfine
  | enter k hl =>
    have hrd : sumBy rd s.threads < n := by
      have h1 := sumBy_set rd hp (.find k)
      have h2 := sumBy_le_length rd rd_le (s.threads.set i (.find k))
      have h3 := hi.len
      simp [rd] at h1 h2
      omega
    have hw0 : sumBy wr s.threads = 0 := by omega
    exact hi.keep hp (by rw [wrap_id (by omega) (by omega)]; simp [rd, wr]) (by simp [wr]; omega) (by simp [wr]; omega) hfine
  | find k c hc =>
    refine hi.keep hp (by simp [rd, wr]) (by simp [wr]; omega) (by simp only [wr, inside] at hwle ⊢; intro h; have := hex (by omega); simp [inside] at hile; omega) ?_
    split
    · next h => exact ⟨c, hc, rfl, h⟩
    · show s.sh.cache.isSome
      rw [hc]; rfl
  | leaveFound k p =>
    simp only [rd, inside, wr] at *
    have hw0 : sumBy wr s.threads = 0 := by
      by_cases h : sumBy wr s.threads = 1
      · have := hex h; omega
      · omega
    refine hi.keep hp (by rw [wrap_id (by omega) (by omega)]; simp [rd, wr]) (by simp [wr]; omega) (by simp [wr]; omega) ?_
    obtain ⟨d, h1, h2, h3⟩ := hfine
    exact ⟨d, h1, by omega, h3⟩
  | leave k =>
    simp only [rd, inside, wr] at *
    have hw0 : sumBy wr s.threads = 0 := by
      by_cases h : sumBy wr s.threads = 1
      · have := hex h; omega
      · omega
    exact hi.keep hp (by rw [wrap_id (by omega) (by omega)]; simp [rd, wr]) (by simp [wr]; omega) (by simp [wr]; omega) trivial
  | deref k p c h hc hpl hg =>
    refine hi.keep hp (by simp [rd, wr]) (by simp [wr]; omega) (by simpa [wr, inside] using hex) ?_
    show h = H k
    unfold Cache.get at hg
    rw [Option.map_eq_some_iff] at hg
    obtain ⟨e, he, rfl⟩ := hg
    have := List.find?_some he
    rw [hi.vals c hc e (List.mem_of_find?_eq_some he)]
    simp at this
    rw [this]
  | derefMoved k p c hc hpl => exact hi.keep hp (by simp [rd, wr]) (by simp [wr]; omega) (by simpa [wr, inside] using hex) trivial
  | back k =>
    simp only [rd] at hrle
    exact hi.keep hp (by rw [wrap_id (by omega) (by omega)]; simp [rd, wr]) (by simp [wr]; omega) (by simpa [wr, inside] using hex) trivial
  | compute k => exact hi.keep hp (by simp [rd, wr]) (by simp [wr]; omega) (by simpa [wr, inside] using hex) trivial
  | computeOnly k => exact hi.keep hp (by simp [rd, wr]) (by simp [wr]; omega) (by simpa [wr, inside] using hex) rfl
  | lock k hl =>
    have hw0 : sumBy wr s.threads = 0 := by omega
    have hr0 : sumBy rd s.threads = 0 := by omega
    have hi0 : sumBy inside s.threads = 0 := by
      have := sumBy_mono inside_le s.threads
      omega
    exact hi.keep hp (by rw [hl]; simp [rd, wr, min32]) (by simp [wr]; omega) (by simp [wr, inside]; omega) trivial
  | lockFails k => exact hi.keep hp (by simp [rd, wr]) (by simp [wr]; omega) (by simpa [wr, inside] using hex) rfl
  | created k hc => exact hi.keep hp (by simp [rd, wr]) (by simp [wr]; omega) (by simp only [wr, inside] at hwle ⊢; intro h; have := hex (by omega); omega) hc
  | createFails k hc => exact hi.keep hp (by simp [rd, wr]) (by simp [wr]; omega) (by simp only [wr, inside] at hwle ⊢; intro h; have := hex (by omega); omega) trivial
  | create k hc => exact hi.change hp rfl rfl rfl rfl (by rw [hc]; simp) (by simp) rfl
  | set k c hc =>
    refine hi.change hp rfl rfl rfl rfl ?_ ?_ rfl
    · intro e he
      rw [hc] at he
      have := Option.some.inj he
      subst this
      exact ⟨Nat.le_refl _, fun k' h => get_cons _ _ _ _ h _⟩
    · intro e he
      simp only [List.mem_cons] at he
      rcases he with rfl | he
      · rfl
      · exact hi.vals c hc e he
  | setMoves k c hc =>
    refine hi.change hp rfl rfl rfl rfl ?_ ?_ rfl
    · intro e he
      rw [hc] at he
      have := Option.some.inj he
      subst this
      exact ⟨Nat.le_succ _, fun k' h => get_cons _ _ _ _ h _⟩
    · intro e he
      simp only [List.mem_cons] at he
      rcases he with rfl | he
      · rfl
      · exact hi.vals c hc e he
  | unlock k hl =>
    simp only [wr] at hwle
    unfold min32 at hl
    exact hi.keep hp (by rw [hl]; simp [rd, wr]) (by simp [wr]; omega) (by simp [wr]; omega) rfl
  | unlockFails k => exact hi.keep hp (by simp) (by simp [wr]; omega) (by simpa [wr, inside] using hex) hfine

theorem Reach.inv {H : Key → Hash} {n : Nat} (hn : n < 2 ^ 31) {s : Sys} (h : Reach H n s) : Inv H n s := by
  induction h with
  | start => exact start_inv H n
  | step s i t _ hs ih => exact ih.step hn hs

/-- **C92, exclusion**: at most one thread at a time creates the dictionary or sets a value, and meanwhile no other one looks up a value. -/
theorem C92_exclusion (H : Key → Hash) {n : Nat} (hn : n < 2 ^ 31) {s : Sys} (h : Reach H n s) {i j : Nat} {p q : Pc}
    (hi : s.threads[i]? = some p) (hj : s.threads[j]? = some q) (hij : i ≠ j) (hw : Writing p) : ¬ Writing q ∧ ¬ Reading q := by
  have inv := h.inv hn
  have hone := inv.one
  have hp : wr p = 1 := by cases p <;> simp_all [Writing, wr]
  have h1 := add_le_sumBy wr hi hj hij
  constructor
  · intro hq
    have hq : wr q = 1 := by cases q <;> simp_all [Writing, wr]
    omega
  · intro hq
    have hq : inside q = 1 := by cases q <;> simp_all [Reading, inside]
    have := inv.excl (by omega)
    have := le_sumBy inside hj
    omega

/-- **C92, results**: a call that returns gives the hash of its string, whatever other threads do. -/
theorem C92_result (H : Key → Hash) {n : Nat} (hn : n < 2 ^ 31) {s : Sys} (h : Reach H n s) {i : Nat} {k : Key} {r : Hash}
    (hi : s.threads[i]? = some (.done k r)) : r = H k :=
  (h.inv hn).fine i _ hi

/-- **C92, the cache**: every value in the dictionary is the hash of its key. -/
theorem C92_cache (H : Key → Hash) {n : Nat} (hn : n < 2 ^ 31) {s : Sys} (h : Reach H n s) {c : Cache} (hc : s.sh.cache = some c)
    {k : Key} {r : Hash} (hg : c.get k = some r) : r = H k := by
  unfold Cache.get at hg
  rw [Option.map_eq_some_iff] at hg
  obtain ⟨e, he, rfl⟩ := hg
  have := List.find?_some he
  rw [(h.inv hn).vals c hc e (List.mem_of_find?_eq_some he)]
  simp at this
  rw [this]

/-- **C92, at rest** the lock is free: it is zero when no thread is in a call and the program was not ended. -/
theorem C92_rest (H : Key → Hash) {n : Nat} (hn : n < 2 ^ 31) {s : Sys} (h : Reach H n s)
    (hr : ∀ p ∈ s.threads, ¬ Busy p ∧ p ≠ .aborted) : s.sh.lock = 0 := by
  have inv := h.inv hn
  rw [inv.lock, sumBy_eq_zero rd, sumBy_eq_zero wr]
  · rfl
  · intro p hp
    have := hr p hp
    cases p <;> simp_all [Busy, wr]
  · intro p hp
    have := hr p hp
    cases p <;> simp_all [Busy, rd]

/-- **C92, progress**: a thread in the middle of a call can go on, unless it waits to give back the lock while another one that found the lock taken has not yet taken back its count; that one can go on. -/
theorem C92_progress (H : Key → Hash) {n : Nat} (hn : n < 2 ^ 31) {s : Sys} (h : Reach H n s) {i : Nat} {p : Pc}
    (hi : s.threads[i]? = some p) (hb : Busy p) :
    (∃ sh q, Act H s.sh p sh q ∧ q ≠ p) ∨ (∃ k, p = .unlock k) ∧ ∃ (j : Nat) (k : Key), j ≠ i ∧ s.threads[j]? = some (.back k) := by
  have inv := h.inv hn
  have hfine := inv.fine i p hi
  cases p with
  | idle | done | aborted | fault => exact absurd hb (by simp [Busy])
  | test k =>
    left
    cases hc : s.sh.cache with
    | none => exact ⟨_, _, .testNull _ k hc, by simp⟩
    | some c => exact ⟨_, _, .test _ k (by rw [hc]; rfl), by simp⟩
  | look k =>
    left
    by_cases hl : s.sh.lock < 0
    · exact ⟨_, _, .lookTaken _ k hl, by simp⟩
    · exact ⟨_, _, .look _ k (by omega), by simp⟩
  | enter k =>
    left
    by_cases hl : s.sh.lock < 0
    · exact ⟨_, _, .enterTaken _ k hl, by simp⟩
    · exact ⟨_, _, .enter _ k (by omega), by simp⟩
  | find k =>
    left
    obtain ⟨c, hc⟩ := Option.isSome_iff_exists.1 hfine
    exact ⟨_, _, .find _ k c hc, by simp⟩
  | leave k o =>
    left
    cases o with
    | none => exact ⟨_, _, .leave _ k, by simp⟩
    | some p => exact ⟨_, _, .leaveFound _ k p, by simp⟩
  | deref k p =>
    left
    obtain ⟨c, hc, h1, h2⟩ := hfine
    obtain ⟨r, hr⟩ := Option.isSome_iff_exists.1 h2
    by_cases hp : c.place = p
    · exact ⟨_, _, .deref _ k p c r hc hp hr, by simp⟩
    · exact ⟨_, _, .derefMoved _ k p c hc hp, by simp⟩
  | back k => exact .inl ⟨_, _, .back _ k, by simp⟩
  | compute k b =>
    left
    cases b with
    | false => exact ⟨_, _, .computeOnly _ k, by simp⟩
    | true => exact ⟨_, _, .compute _ k, by simp⟩
  | lock k => exact .inl ⟨_, _, .lockFails _ k, by simp⟩
  | create k =>
    left
    cases hc : s.sh.cache with
    | none => exact ⟨_, _, .create _ k hc, by simp⟩
    | some c => exact ⟨_, _, .created _ k (by rw [hc]; rfl), by simp⟩
  | set k =>
    left
    obtain ⟨c, hc⟩ := Option.isSome_iff_exists.1 hfine
    exact ⟨_, _, .set _ k c hc, by simp⟩
  | unlock k =>
    by_cases hl : s.sh.lock = min32
    · exact .inl ⟨_, _, .unlock _ k hl, by simp⟩
    · right
      refine ⟨⟨k, rfl⟩, ?_⟩
      have hw := le_sumBy wr hi
      have hone := inv.one
      simp only [wr] at hw
      have hlk := inv.lock
      have hw1 : sumBy wr s.threads = 1 := by omega
      have hin := inv.excl hw1
      rw [hw1] at hlk
      have hpos : 0 < sumBy rd s.threads := by
        unfold min32 at hl
        omega
      obtain ⟨q, hq, hq1⟩ := sumBy_pos rd hpos
      have hq0 := sumBy_zero inside hin q hq
      obtain ⟨j, hj⟩ := List.getElem?_of_mem hq
      cases q <;> simp [rd, inside] at hq1 hq0
      refine ⟨j, _, ?_, hj⟩
      rintro rfl
      rw [hi] at hj
      simp at hj

/-- **C92, the value found**: a call that found a value reads it right, unless a value has been set since that moved the others: this alone makes it read memory that may be freed.
Missing: that it never does (`C92_moved_refuted`). -/
theorem C92_deref_partial (H : Key → Hash) {n : Nat} (hn : n < 2 ^ 31) {s t : Sys} (h : Reach H n s) {i : Nat} {k : Key} {p : Nat}
    (hi : s.threads[i]? = some (.deref k p)) (hs : Step H s i t) :
    ∃ c, s.sh.cache = some c ∧ p ≤ c.place ∧
      (c.place = p → t.threads[i]? = some (.done k (H k))) ∧ (c.place ≠ p → t.threads[i]? = some .fault) := by
  have inv := h.inv hn
  obtain ⟨c, hc, hp, -⟩ := inv.fine i _ hi
  have ht := (Reach.step s i t h hs).inv hn
  obtain ⟨p', q, sh, hp', ha⟩ := hs
  rw [hi] at hp'
  have hp' := Option.some.inj hp'
  subst hp'
  have hlt : i < s.threads.length := (List.getElem?_eq_some_iff.1 hi).1
  refine ⟨c, hc, hp, ?_, ?_⟩
  · intro he
    cases ha with
    | deref _ _ d r hd _ hg =>
      have : (s.threads.set i (Pc.done k r))[i]? = some (.done k r) := by rw [List.getElem?_set_self hlt]
      have h2 := ht.fine i _ this
      show (s.threads.set i (Pc.done k r))[i]? = _
      rw [this, show r = H k from h2]
    | derefMoved _ _ d hd hne =>
      rw [hc] at hd
      have := Option.some.inj hd
      subst this
      exact absurd he hne
  · intro he
    cases ha with
    | deref _ _ d r hd hne hg =>
      rw [hc] at hd
      have := Option.some.inj hd
      subst this
      exact absurd hne he
    | derefMoved _ _ d hd hne =>
      show (s.threads.set i Pc.fault)[i]? = _
      rw [List.getElem?_set_self hlt]

/-- No other thing goes wrong: a thread is at a fault only by that read. -/
theorem C92_fault_only (H : Key → Hash) {s t : Sys} {i j : Nat} (hs : Step H s i t) (hj : t.threads[j]? = some .fault) (hj' : s.threads[j]? ≠ some .fault) :
    j = i ∧ ∃ k p c, s.threads[i]? = some (.deref k p) ∧ s.sh.cache = some c ∧ c.place ≠ p := by
  obtain ⟨p, q, sh, hp, ha⟩ := hs
  dsimp only at hj
  rw [List.getElem?_set] at hj
  split at hj
  · next he =>
    subst he
    refine ⟨rfl, ?_⟩
    split at hj
    · have := Option.some.inj hj
      subst this
      cases ha with
      | derefMoved k p c hc hne => exact ⟨k, p, c, hp, hc, hne⟩
    · simp at hj
  · exact absurd hj hj'

theorem Reach.act {H : Key → Hash} {n : Nat} {s : Sys} (h : Reach H n s) (i : Nat) {p q : Pc} {sh : Shared} (hp : s.threads[i]? = some p)
    (ha : Act H s.sh p sh q) : Reach H n ⟨sh, s.threads.set i q⟩ := .step _ i _ h (.mk _ _ _ _ _ hp ha)

/-- Normalise the state. -/
local macro "nf" h:ident : tactic => `(tactic| simp [start, wrap, min32, Cache.get, List.replicate] at $h:ident)

/-- **C92 refuted**: thread 0 sets the hash of a string and then asks for it again; it finds it and gives back the lock; thread 1 sets another one, which moves the values; thread 0 then reads where the value was. -/
theorem C92_moved_refuted (H : Key → Hash) : ∃ s, Reach H 2 s ∧ s.threads[0]? = some .fault := by
  have h := Reach.start (H := H) (n := 2)
  nf h
  have h := h.act 0 rfl (.call _ 5)
  nf h
  have h := h.act 0 rfl (.testNull _ 5 rfl)
  nf h
  have h := h.act 0 rfl (.compute _ 5)
  nf h
  have h := h.act 0 rfl (.lock _ 5 rfl)
  nf h
  have h := h.act 0 rfl (.create _ 5 rfl)
  nf h
  have h := h.act 0 rfl (.set _ 5 _ rfl)
  nf h
  have h := h.act 0 rfl (.unlock _ 5 rfl)
  nf h
  have h := h.act 0 rfl (.again _ 5 _)
  nf h
  have h := h.act 0 rfl (.call _ 5)
  nf h
  have h := h.act 0 rfl (.test _ 5 rfl)
  nf h
  have h := h.act 0 rfl (.look _ 5 (by simp))
  nf h
  have h := h.act 0 rfl (.enter _ 5 (by simp))
  nf h
  have h := h.act 0 rfl (.find _ 5 _ rfl)
  nf h
  have h := h.act 1 rfl (.call _ 9)
  nf h
  have h := h.act 1 rfl (.test _ 9 rfl)
  nf h
  have h := h.act 1 rfl (.look _ 9 (by simp))
  nf h
  have h := h.act 1 rfl (.enter _ 9 (by simp))
  nf h
  have h := h.act 1 rfl (.find _ 9 _ rfl)
  nf h
  have h := h.act 1 rfl (.leave _ 9)
  nf h
  have h := h.act 1 rfl (.compute _ 9)
  nf h
  have h := h.act 0 rfl (.leaveFound _ 5 0)
  nf h
  have h := h.act 1 rfl (.lock _ 9 (by simp))
  nf h
  have h := h.act 1 rfl (.created _ 9 rfl)
  nf h
  have h := h.act 1 rfl (.setMoves _ 9 _ rfl)
  nf h
  have h := h.act 0 rfl (.derefMoved _ 5 0 _ rfl (by simp))
  nf h
  exact ⟨_, h, rfl⟩

/-- Non-vacuity: a call that returns what another thread has stored, while a third one is busy. -/
example (H : Key → Hash) : ∃ s, Reach H 3 s ∧ s.threads[1]? = some (.done 5 (H 5)) ∧ s.threads[2]? = some (.find 7) := by
  have h := Reach.start (H := H) (n := 3)
  nf h
  have h := h.act 0 rfl (.call _ 5)
  nf h
  have h := h.act 0 rfl (.testNull _ 5 rfl)
  nf h
  have h := h.act 0 rfl (.compute _ 5)
  nf h
  have h := h.act 0 rfl (.lock _ 5 rfl)
  nf h
  have h := h.act 0 rfl (.create _ 5 rfl)
  nf h
  have h := h.act 0 rfl (.set _ 5 _ rfl)
  nf h
  have h := h.act 0 rfl (.unlock _ 5 rfl)
  nf h
  have h := h.act 1 rfl (.call _ 5)
  nf h
  have h := h.act 1 rfl (.test _ 5 rfl)
  nf h
  have h := h.act 1 rfl (.look _ 5 (by simp))
  nf h
  have h := h.act 1 rfl (.enter _ 5 (by simp))
  nf h
  have h := h.act 2 rfl (.call _ 7)
  nf h
  have h := h.act 2 rfl (.test _ 7 rfl)
  nf h
  have h := h.act 2 rfl (.look _ 7 (by simp))
  nf h
  have h := h.act 2 rfl (.enter _ 7 (by simp))
  nf h
  have h := h.act 1 rfl (.find _ 5 _ rfl)
  nf h
  have h := h.act 1 rfl (.leaveFound _ 5 0)
  nf h
  have h := h.act 1 rfl (.deref _ 5 0 _ (H 5) rfl rfl rfl)
  nf h
  exact ⟨_, h, rfl, rfl⟩

/-- Non-vacuity of the second case of `C92_progress`: the holder of the lock waits for a thread that has counted itself. -/
example (H : Key → Hash) : ∃ s, Reach H 2 s ∧ s.threads[0]? = some (.unlock 6) ∧ s.threads[1]? = some (.back 7) := by
  have h := Reach.start (H := H) (n := 2)
  nf h
  have h := h.act 0 rfl (.call _ 5)
  nf h
  have h := h.act 0 rfl (.testNull _ 5 rfl)
  nf h
  have h := h.act 0 rfl (.compute _ 5)
  nf h
  have h := h.act 0 rfl (.lock _ 5 rfl)
  nf h
  have h := h.act 0 rfl (.create _ 5 rfl)
  nf h
  have h := h.act 0 rfl (.set _ 5 _ rfl)
  nf h
  have h := h.act 0 rfl (.unlock _ 5 rfl)
  nf h
  have h := h.act 1 rfl (.call _ 7)
  nf h
  have h := h.act 1 rfl (.test _ 7 rfl)
  nf h
  have h := h.act 1 rfl (.look _ 7 (by simp))
  nf h
  have h := h.act 0 rfl (.again _ 5 _)
  nf h
  have h := h.act 0 rfl (.call _ 6)
  nf h
  have h := h.act 0 rfl (.test _ 6 rfl)
  nf h
  have h := h.act 0 rfl (.look _ 6 (by simp))
  nf h
  have h := h.act 0 rfl (.enter _ 6 (by simp))
  nf h
  have h := h.act 0 rfl (.find _ 6 _ rfl)
  nf h
  have h := h.act 0 rfl (.leave _ 6)
  nf h
  have h := h.act 0 rfl (.compute _ 6)
  nf h
  have h := h.act 0 rfl (.lock _ 6 (by simp))
  nf h
  have h := h.act 0 rfl (.created _ 6 rfl)
  nf h
  have h := h.act 1 rfl (.enterTaken _ 7 (by simp))
  nf h
  have h := h.act 0 rfl (.setMoves _ 6 _ rfl)
  nf h
  exact ⟨_, h, rfl, rfl⟩

#print axioms C92_exclusion
#print axioms C92_result
#print axioms C92_cache
#print axioms C92_rest
#print axioms C92_progress
#print axioms C92_deref_partial
#print axioms C92_fault_only
#print axioms C92_moved_refuted

end Verif.HashCache
