import Verif.SharedResProps
import Verif.WaitFreeProps
/-!
# C130: which calls on the shared resource finish

The model is that of C43.  The documentation (ConcurrentSharedResourceTemplate.h 27-37, 56-57, 67) says: `Get` is wait-free unless `Tunlimited`; `Set` is wait-free if `Tmax` is at least the number of threads, and lock-free otherwise.
-/
namespace Verif.SharedProgress
open SharedRes Conc WaitFree

/-- The thread is not in a call.  That it is not at a fault is shown by C43. -/
def Out : Option PC → Prop
  | none | some .idle | some .fault => True
  | _ => False

/-- Where thread `i` is. -/
abbrev place (i : Nat) (y : Sys) : Option PC := y.thrs[i]?

/-- An execution of other threads than `i`. -/
inductive Without (u : Bool) (N i : Nat) (y : Sys) : Sys → Prop
  | refl : Without u N i y y
  | step {z z' : Sys} : Without u N i y z → Step u N z z' → place i z' = place i z → Without u N i y z'

/-- A step of thread `i`. -/
def Alone (u : Bool) (N i : Nat) (y y' : Sys) : Prop := Step u N y y' ∧ place i y' ≠ place i y

/-! ## `Get` -/

/-- The node a thread has exists. -/
def Known (N : Nat) : PC → Prop
  | .g2 k | .s1 k _ | .s2 k _ => k < N
  | _ => True

structure Sized (N : Nat) (y : Sys) : Prop where
  refs : y.refs.length = N
  data : y.data.length = N
  thr : ∀ (i : Nat) (p : PC), y.thrs[i]? = some p → Known N p

theorem Sized.step {u : Bool} {N : Nat} {y y' : Sys} (S : Sized N y) (s : Step u N y y') : Sized N y' := by
  obtain ⟨a, b, c⟩ := S
  have key : ∀ {i : Nat} {q : PC}, Known N q → ∀ (j : Nat) (p : PC), (y.thrs.set i q)[j]? = some p → Known N p := by
    intro i q hq j p h
    rcases thr_set h with ⟨_, rfl⟩ | ⟨_, h⟩
    · exact hq
    · exact c j p h
  have lt : ∀ {α : Type} {l : List α} {k : Nat} {x : α}, l.length = N → l[k]? = some x → k < N := fun e h => e ▸ (List.getElem?_eq_some_iff.1 h).1
  cases s
  case setClaim h k => exact ⟨by simpa using a, b, key (lt a k)⟩
  case setWrite h k => exact ⟨a, by simpa using b, key (lt b k)⟩
  case getShare h k => exact ⟨a, b, key (lt b k)⟩
  case getRef h k => exact ⟨by simpa using a, b, key (by cases u <;> trivial)⟩
  all_goals exact ⟨by simpa using a, by simpa using b, key trivial⟩

theorem sized_init (N n : Nat) : Sized N (init N n) := by
  refine ⟨by simp [init], by simp [init], fun i p h => ?_⟩
  have := List.mem_of_getElem? h
  simp [init] at this
  rw [this.2]
  trivial

theorem sized {u : Bool} {N n : Nat} {y : Sys} (h : Reach u N n y) : Sized N y := by
  induction h with
  | init => exact sized_init N n
  | step _ s ih => exact ih.step s

theorem reach_of_L {u : Bool} {L N n : Nat} {y : Sys} (h : ReachL u L N n y) : Reach u N n y := by
  induction h with
  | init => exact .init
  | step _ s _ ih => exact ih.step s

/-- Where the steps of a thread lead. -/
inductive Next (u : Bool) (N : Nat) (y y' : Sys) : PC → PC → Prop
  | setBegin {k v : Nat} : Next u N y y' .idle (.s0 k v)
  | setNext {k v r : Nat} : y.refs[k]? = some r → r ≠ 0 → y'.refs = y.refs → Next u N y y' (.s0 k v) (.s0 ((k + 1) % N) v)
  | setClaim {k v : Nat} : y.refs[k]? = some 0 → Next u N y y' (.s0 k v) (.s1 k v)
  | setWrite {k v : Nat} {d : Option Nat} : Next u N y y' (.s1 k v) (.s2 k d)
  | setSwap {k p : Nat} {d : Option Nat} : Next u N y y' (.s2 k d) (.s3 p d)
  | setSub {p : Nat} {d : Option Nat} : Next u N y y' (.s3 p d) (.s4 d)
  | setFault {p : Nat} {d : Option Nat} : Next u N y y' (.s3 p d) .fault
  | setDestroy {d : Option Nat} : Next u N y y' (.s4 d) .idle
  | getAdd {k : Nat} {v : Option Nat} : Next u N y y' .idle (.g1 k v)
  | getShare {k : Nat} {v : Option Nat} : Next u N y y' (.g1 k v) (.g2 k)
  | getFault {k : Nat} {v : Option Nat} : Next u N y y' (.g1 k v) .fault
  | getRef {k : Nat} : Next u N y y' (.g2 k) (if u then .g3 k else .idle)
  | getBack {k : Nat} : Next u N y y' (.g3 k) (.g4 k)
  | getLeave {k : Nat} : Next u N y y' (.g3 k) .idle
  | getUnref {k : Nat} : Next u N y y' (.g4 k) .idle

/-- A step is of another thread, or of this one. -/
theorem own_step {u : Bool} {N : Nat} {y y' : Sys} (i : Nat) (s : Step u N y y') :
    ∃ j p q, place j y = some p ∧ y'.thrs = y.thrs.set j q ∧ Next u N y y' p q ∧ (j ≠ i ∧ place i y' = place i y ∨ j = i ∧ place i y' = some q) := by
  have key : ∀ (j : Nat) (p q : PC), y.thrs[j]? = some p → Next u N y y' p q → y'.thrs = y.thrs.set j q →
      ∃ j p q, place j y = some p ∧ y'.thrs = y.thrs.set j q ∧ Next u N y y' p q ∧ (j ≠ i ∧ place i y' = place i y ∨ j = i ∧ place i y' = some q) := by
    intro j p q h k e
    refine ⟨j, p, q, h, e, k, ?_⟩
    by_cases hj : j = i
    · subst hj
      exact Or.inr ⟨rfl, by rw [place, e, List.getElem?_set_self (List.getElem?_eq_some_iff.1 h).1]⟩
    · exact Or.inl ⟨hj, by rw [place, e, List.getElem?_set_ne hj]⟩
  cases s with
  | setBegin h => exact key _ _ _ h .setBegin rfl
  | setNext h a b => exact key _ _ _ h (.setNext a b rfl) rfl
  | setClaim h a => exact key _ _ _ h (.setClaim a) rfl
  | setWrite h _ => exact key _ _ _ h .setWrite rfl
  | setSwap h _ => exact key _ _ _ h .setSwap rfl
  | setSub h _ => exact key _ _ _ h .setSub rfl
  | setFault h _ => exact key _ _ _ h .setFault rfl
  | setDestroy h => exact key _ _ _ h .setDestroy rfl
  | getAdd h => exact key _ _ _ h .getAdd rfl
  | getShare h _ => exact key _ _ _ h .getShare rfl
  | getFault h _ => exact key _ _ _ h .getFault rfl
  | getRef h _ => exact key _ _ _ h .getRef rfl
  | getBack h _ => exact key _ _ _ h .getBack rfl
  | getLeave h _ => exact key _ _ _ h .getLeave rfl
  | getUnref h _ => exact key _ _ _ h .getUnref rfl

/-- What is left of a get. -/
def getLeft : Option PC → Nat
  | some (.g1 _ _) => 2
  | some (.g2 _) => 1
  | _ => 0

/-- The thread is not in a get. -/
def GetOut : Option PC → Prop
  | some (.g1 _ _) | some (.g2 _) => False
  | _ => True

/-- **C130, `Get`.**  With `Tunlimited` false, whatever the other threads do, the thread is never held up, and `Get` is over with its second step after it has counted itself in `current`. -/
theorem C130_get (N n : Nat) (y : Sys) (h : Reach false N n y) (i k : Nat) (v : Option Nat) (hi : place i y = some (.g1 k v)) : Within (Step false N) (place i) GetOut 2 y := by
  refine within_of getLeft (Sized N) (fun _ _ S s => S.step s) ?_ ?_ ?_ (sized h) (by rw [hi]; simp [getLeft])
  · intro y _ o
    match e : place i y with
    | some (.g1 _ _) => simp [getLeft]
    | some (.g2 _) => simp [getLeft]
    | none | some .idle | some .fault | some (.s0 _ _) | some (.s1 _ _) | some (.s2 _ _) | some (.s3 _ _) | some (.s4 _) | some (.g3 _) | some (.g4 _) => rw [e] at o; exact absurd trivial o
  · intro y S o
    match e : place i y with
    | some (.g1 k v) =>
      have hl := (List.getElem?_eq_some_iff.1 e).1
      match d : y.data[k]? with
      | none => exact ⟨_, .getFault e d, by simp [place, List.getElem?_set_self hl]⟩
      | some d' => exact ⟨_, .getShare e d, by simp [place, List.getElem?_set_self hl]⟩
    | some (.g2 k) =>
      have hl := (List.getElem?_eq_some_iff.1 e).1
      have hk : k < y.refs.length := by rw [S.refs]; exact S.thr i _ e
      exact ⟨_, .getRef e (List.getElem?_eq_getElem hk), by simp [place, List.getElem?_set_self hl]⟩
    | none | some .idle | some .fault | some (.s0 _ _) | some (.s1 _ _) | some (.s2 _ _) | some (.s3 _ _) | some (.s4 _) | some (.g3 _) | some (.g4 _) => rw [e] at o; exact absurd trivial o
  · intro y y' S o s
    obtain ⟨j, p, q, e, _, n, h | ⟨rfl, h⟩⟩ := own_step i s
    · exact Or.inl h.2
    · rw [e] at o
      rw [e, h]
      cases n <;> first | exact Or.inr (Or.inl trivial) | exact absurd trivial o | exact Or.inr (Or.inr (by simp [getLeft]))

/-! ## `Set` alone -/

/-- As `within_of`, with a number that depends on the state. -/
theorem within_of_state {S P : Type} {Step : S → S → Prop} {place : S → P} {out : P → Prop} (left : S → Nat) (good : S → Prop)
    (pos : ∀ y, good y → ¬ out (place y) → 0 < left y)
    (move : ∀ y, good y → ¬ out (place y) → ∃ y', Step y y' ∧ place y' ≠ place y)
    (down : ∀ y y', good y → ¬ out (place y) → Step y y' → (place y' = place y ∧ good y' ∧ left y' ≤ left y) ∨ out (place y') ∨ good y' ∧ left y' < left y)
    {n : Nat} {y : S} (g : good y) (h : left y ≤ n) : Within Step place out n y := by
  have key : ∀ k z, During Step place out y k z → good z ∧ ¬ out (place z) ∧ left z + k ≤ n := by
    intro k z d
    induction d with
    | start o => exact ⟨g, o, h⟩
    | other d s e ih =>
      rcases down _ _ ih.1 ih.2.1 s with q | q | q
      · exact ⟨q.2.1, by rw [e]; exact ih.2.1, by have := q.2.2; omega⟩
      · rw [e] at q; exact absurd q ih.2.1
      · exact ⟨q.1, by rw [e]; exact ih.2.1, by omega⟩
    | own d s e o ih =>
      rcases down _ _ ih.1 ih.2.1 s with q | q | q
      · exact absurd q.1 e
      · exact absurd q o
      · exact ⟨q.1, o, by omega⟩
  intro k z d
  obtain ⟨a, b, c⟩ := key k z d
  exact ⟨by have := pos _ a b; omega, move z a b⟩

/-- A set that is looking for a node has `f` free. -/
structure Free (N i f : Nat) (y : Sys) : Prop where
  size : Sized N y
  lt : f < N
  kind : match place i y with
    | some (.s0 k _) => k < N ∧ y.refs[f]? = some 0
    | some (.s1 _ _) | some (.s2 _ _) | some (.s3 _ _) | some (.s4 _) => True
    | p => Out p

/-- What is left of a set. -/
def setLeft (N i f : Nat) (y : Sys) : Nat := match place i y with
  | some (.s0 k _) => (if k ≤ f then f - k else f + N - k) + 5
  | some (.s1 _ _) => 4
  | some (.s2 _ _) => 3
  | some (.s3 _ _) => 2
  | some (.s4 _) => 1
  | _ => 0

theorem set_alone {u : Bool} {N i f n : Nat} {y : Sys} (F : Free N i f y) (h : setLeft N i f y ≤ n) : Within (Alone u N i) (place i) Out n y := by
  refine within_of_state (setLeft N i f) (Free N i f) ?_ ?_ ?_ F h
  · intro y F o
    have := F.kind
    unfold setLeft
    match e : place i y with
    | some (.s0 _ _) | some (.s1 _ _) | some (.s2 _ _) | some (.s3 _ _) | some (.s4 _) => simp
    | none | some .idle | some .fault | some (.g1 _ _) | some (.g2 _) | some (.g3 _) | some (.g4 _) => rw [e] at o this; exact absurd this o
  · intro y F o
    have Q := F.kind
    have go : ∀ (y' : Sys) (p q : PC), place i y = some p → Step u N y y' → y'.thrs = y.thrs.set i q → q ≠ p → ∃ y', Alone u N i y y' ∧ place i y' ≠ some p := fun y' p q h s e n =>
      have k : place i y' ≠ some p := by
        rw [place, e, List.getElem?_set_self (List.getElem?_eq_some_iff.1 h).1]
        intro h
        injection h with h
        exact n h
      ⟨y', ⟨s, h ▸ k⟩, k⟩
    match e : place i y with
    | some (.s0 k v) =>
      rw [e] at Q
      have hk : k < y.refs.length := by rw [F.size.refs]; exact Q.1
      by_cases c : y.refs[k] = 0
      · exact go _ _ _ e (.setClaim e (by rw [List.getElem?_eq_getElem hk, c])) rfl (by simp)
      · refine go _ _ _ e (.setNext e (List.getElem?_eq_getElem hk) c) rfl ?_
        intro q
        injection q with q
        have hN : N ≠ 1 := by
          rintro rfl
          have h1 : k = 0 := by omega
          have h2 : f = 0 := by have := F.lt; omega
          subst h1 h2
          rw [List.getElem?_eq_getElem hk] at Q
          exact c (Option.some.inj Q.2)
        by_cases l : k + 1 = N
        · rw [l, Nat.mod_self] at q; omega
        · rw [Nat.mod_eq_of_lt (by omega)] at q; omega
    | some (.s1 k v) =>
      have hk : k < y.data.length := by rw [F.size.data]; exact F.size.thr i _ e
      exact go _ _ _ e (.setWrite e (List.getElem?_eq_getElem hk)) rfl (by simp)
    | some (.s2 k d) =>
      have hk : k < y.data.length := by rw [F.size.data]; exact F.size.thr i _ e
      exact go _ _ _ e (.setSwap e (List.getElem?_eq_getElem hk)) rfl (by simp)
    | some (.s3 p d) =>
      match r : y.refs[p / K]? with
      | none => exact go _ _ _ e (.setFault e r) rfl (by simp)
      | some _ => exact go _ _ _ e (.setSub e r) rfl (by simp)
    | some (.s4 d) => exact go _ _ _ e (.setDestroy e) rfl (by simp)
    | none | some .idle | some .fault | some (.g1 _ _) | some (.g2 _) | some (.g3 _) | some (.g4 _) => rw [e] at o Q; exact absurd Q o
  · intro y y' F o s
    obtain ⟨j, p, q, e, ht, n, h | ⟨rfl, h⟩⟩ := own_step i s.1
    · exact absurd h.2 s.2
    · have Q := F.kind
      rw [e] at o Q
      have S := F.size.step s.1
      have late : ∀ m, (match some q with
          | some (.s0 k _) => k < N ∧ y'.refs[f]? = some 0
          | some (.s1 _ _) | some (.s2 _ _) | some (.s3 _ _) | some (.s4 _) => True
          | p => Out p) → setLeft N j f y = m → setLeft N j f y' < m → (place j y' = place j y ∧ Free N j f y' ∧ setLeft N j f y' ≤ setLeft N j f y) ∨ Out (place j y') ∨
            Free N j f y' ∧ setLeft N j f y' < setLeft N j f y := fun m a b c => Or.inr (Or.inr ⟨⟨S, F.lt, by rw [h]; exact a⟩, by rw [b]; exact c⟩)
      cases n
      case setNext k v r a b c =>
        have hk : k ≠ f := by
          rintro rfl
          rw [Q.2] at a
          exact b (Option.some.inj a).symm
        have hf := F.lt
        have hkN := Q.1
        refine late _ ⟨Nat.mod_lt _ (by omega), by rw [c]; exact Q.2⟩ rfl ?_
        simp only [setLeft, h, e]
        by_cases l : k + 1 = N
        · rw [l, Nat.mod_self]
          split <;> split <;> omega
        · rw [Nat.mod_eq_of_lt (by omega)]
          split <;> split <;> omega
      case setClaim k v a => exact late _ trivial rfl (by simp only [setLeft, h, e]; omega)
      case setWrite k v d => exact late _ trivial rfl (by simp only [setLeft, h, e]; omega)
      case setSwap k p d => exact late _ trivial rfl (by simp only [setLeft, h, e]; omega)
      case setSub p d => exact late _ trivial rfl (by simp only [setLeft, h, e]; omega)
      case setFault => rw [h]; exact Or.inr (Or.inl trivial)
      case setDestroy => rw [h]; exact Or.inr (Or.inl trivial)
      all_goals exact absurd Q o

/-! ## A free node -/

theorem sum_eq1 (a N : Nat) : sumBy (eq1 a) (List.range N) ≤ 1 ∧ (N ≤ a → sumBy (eq1 a) (List.range N) = 0) := by
  induction N with
  | zero => simp
  | succ N ih =>
    rw [List.range_succ, sumBy_append]
    simp only [sumBy_cons, sumBy_nil, eq1, Nat.add_zero]
    constructor
    · split
      · have := ih.2 (by omega); omega
      · have := ih.1; omega
    · intro h
      rw [ih.2 (by omega), if_neg (by omega)]

theorem sum_add {α : Type} (f g : α → Nat) (l : List α) : sumBy (fun x => f x + g x) l = sumBy f l + sumBy g l := by
  induction l with
  | nil => rfl
  | cons a l ih => simp only [sumBy_cons, ih]; omega

theorem sum_zero {α : Type} (l : List α) : sumBy (fun _ => 0) l = 0 := sumBy_eq_zero _ fun _ _ => rfl

theorem sum_comm {α β : Type} (f : α → β → Nat) (l : List α) (m : List β) : sumBy (fun a => sumBy (f a) m) l = sumBy (fun b => sumBy (fun a => f a b) l) m := by
  induction l with
  | nil => simp only [sumBy_nil, sum_zero]
  | cons a l ih =>
    simp only [sumBy_cons, ih]
    rw [← sum_add]

theorem sum_ge {α : Type} (f : α → Nat) (l : List α) (h : ∀ a ∈ l, 0 < f a) : l.length ≤ sumBy f l := by
  induction l with
  | nil => simp
  | cons a l ih =>
    have := h a (by simp)
    have := ih fun b hb => h b (by simp [hb])
    simp only [sumBy_cons, List.length_cons]
    omega

theorem sum_lt {α : Type} (f : α → Nat) (hf : ∀ a, f a ≤ 1) {l : List α} {i : Nat} {a : α} (h : l[i]? = some a) (ha : f a = 0) : sumBy f l < l.length := by
  induction l generalizing i with
  | nil => simp at h
  | cons b l ih =>
    cases i with
    | zero =>
      simp at h
      subst h
      have := sumBy_le f hf l
      simp only [sumBy_cons, List.length_cons]
      omega
    | succ i =>
      simp at h
      have := ih h
      have := hf b
      simp only [sumBy_cons, List.length_cons]
      omega

/-- With more nodes than threads, one is free for a set that looks for one. -/
theorem exists_free {L N : Nat} {y : Sys} (a : A L N y.current y.refs y.since y.thrs) (hn : y.thrs.length < N) {i k v : Nat} (hi : place i y = some (.s0 k v)) : ∃ f, f < N ∧ y.refs[f]? = some 0 := by
  have use : ∀ p : PC, sumBy (fun k => own k p + pend k p) (List.range N) ≤ 1 := by
    intro p
    cases p <;> simp only [own, pend, Nat.zero_add, Nat.add_zero] <;> first | exact (sum_eq1 _ N).1 | simp [sum_zero]
  have tot : sumBy (fun k => eq1 (y.current / K) k + sumBy (fun p => own k p + pend k p) y.thrs) (List.range N) < N := by
    rw [sum_add, sum_comm]
    have h1 := (sum_eq1 (y.current / K) N).1
    have h2 := sum_lt (fun p => sumBy (fun k => own k p + pend k p) (List.range N)) use hi (by simp [own, pend, sum_zero])
    omega
  obtain ⟨f, hf, h0⟩ : ∃ f, f < N ∧ eq1 (y.current / K) f + sumBy (fun p => own f p + pend f p) y.thrs = 0 := by
    refine Classical.byContradiction fun c => ?_
    have := sum_ge (fun k => eq1 (y.current / K) k + sumBy (fun p => own k p + pend k p) y.thrs) (List.range N) fun k hk => by
      refine Nat.pos_of_ne_zero fun d => ?_
      exact c ⟨k, List.mem_range.1 hk, d⟩
    rw [List.length_range] at this
    omega
  rw [sum_add] at h0
  have hr : f < y.refs.length := by rw [a.len]; exact hf
  have r := a.refs f _ (List.getElem?_eq_getElem hr)
  have h1 : sumBy (own f) y.thrs = 0 := by omega
  have h2 : sumBy (pend f) y.thrs = 0 := by omega
  have h3 := cnt_own h1
  have h4 : y.current / K ≠ f := by
    intro h
    rw [h] at h0
    simp [eq1] at h0
  have h5 : eq1 (y.current / K) f = 0 := by omega
  rw [h1, h2, h3, h5, if_neg h4] at r
  refine ⟨f, hf, ?_⟩
  rw [List.getElem?_eq_getElem hr]
  have := r.2
  rw [Nat.mul_zero, Nat.add_zero, Nat.mod_eq_of_lt r.1] at this
  rw [this]
  rfl

/-- **C130, `Set`, what holds.**  With `Tunlimited` false, fewer than 2^16 gets between two sets, and more nodes than threads: if from some moment on only this thread runs, `Set` is over with its `Tmax + 4`-th step, wherever the others have stopped.
Missing: with as many nodes as threads it may have to wait for ever for a thread that has stopped (`C130_stuck_refuted`), and with any number of nodes it can be overtaken for ever (`C130_overtaken_refuted`). -/
theorem C130_set_partial (L N n : Nat) (hL : L < 65536) (hNW : N ≤ 2 ^ 48) (hnN : n < N) (y : Sys) (h : ReachL false L N n y) (i k v : Nat) (hi : place i y = some (.s0 k v)) :
    Within (Alone false N i) (place i) Out (N + 4) y := by
  have I := (h.inv hL (by omega) (by simp only [K, W]; omega) (by simp only [W]; omega)).1
  have len : ∀ {z : Sys}, Reach false N n z → z.thrs.length = n := by
    intro z hz
    induction hz with
    | init => simp [init]
    | step _ s ih =>
      obtain ⟨j, p, q, e, ht, _⟩ := own_step 0 s
      rw [ht, List.length_set]
      exact ih
  obtain ⟨f, hf, hr⟩ := exists_free I (by rw [len (reach_of_L h)]; exact hnN) hi
  have hk : k < N := I.bnd i _ hi
  refine set_alone (f := f) ⟨sized (reach_of_L h), hf, by rw [hi]; exact ⟨hk, hr⟩⟩ ?_
  simp only [setLeft, hi]
  split <;> omega

/-- Three nodes, two threads, and thread 0 looks for a node while thread 1 is in a get. -/
example : ∃ y, ReachL false 1 3 2 y ∧ place 0 y = some (.s0 1 0) ∧ place 1 y = some (.g1 0 none) :=
  ⟨_, .step (.step .init (.getAdd (i := 1) rfl) (by decide)) (.setBegin (i := 0) rfl) (by decide), rfl, rfl⟩

/-- **C130, `Set` fails**: two threads and `Tmax` 2.  Thread 1 is in a get of the value that thread 0 has replaced; thread 0's next set looks for a node for ever, as long as thread 1 does not go on. -/
theorem C130_stuck_refuted (u : Bool) : ∃ y, Reach u 2 2 y ∧ place 0 y = some (.s0 0 1) ∧ ∀ z, Without u 2 1 y z → ∃ k v, place 0 z = some (.s0 k v) := by
  have h : Reach u 2 2 _ := .init
  have h := h.step (.getAdd (i := 1) rfl)
  have h := h.step (.setBegin (i := 0) rfl)
  have h := h.step (.setClaim (i := 0) rfl rfl)
  have h := h.step (.setWrite (i := 0) rfl rfl)
  have h := h.step (.setSwap (i := 0) rfl rfl)
  have h := h.step (.setSub (i := 0) rfl rfl)
  have h := h.step (.setDestroy (i := 0) rfl)
  have h := h.step (.setBegin (i := 0) rfl)
  refine ⟨_, h, rfl, fun z hz => ?_⟩
  have key : z.refs = [18446744073709551614, 1] ∧ ∃ k, k < 2 ∧ z.thrs = [.s0 k 1, .g1 0 none] := by
    induction hz with
    | refl => exact ⟨rfl, 0, by decide, rfl⟩
    | @step z z' _ s e ih =>
      obtain ⟨hr, k, hk, ht⟩ := ih
      obtain ⟨j, p, q, hp, hq, n, o | o⟩ := own_step 1 s
      · have hj : j = 0 := by
          have := (List.getElem?_eq_some_iff.1 hp).1
          rw [ht] at this
          simp at this
          omega
        subst hj
        rw [place, ht] at hp
        injection hp with hp
        subst hp
        rw [ht] at hq
        cases n with
        | setNext a b c => exact ⟨c.trans hr, (k + 1) % 2, by omega, hq⟩
        | setClaim a =>
          rw [hr] at a
          have : k = 0 ∨ k = 1 := by omega
          rcases this with rfl | rfl <;> simp at a
      · rw [o.2] at e
        rw [o.1] at hp
        rw [hp] at e
        injection e with e
        subst e
        rw [place, ht] at hp
        injection hp with hp
        subst hp
        cases n
  obtain ⟨_, k, _, ht⟩ := key
  exact ⟨k, 1, by rw [place, ht]; rfl⟩

/-! ## `Set` overtaken -/

/-- Thread 1 is in no call, the node `c` is the current one and the only one in use, and thread 0 looks at the next one. -/
structure Chase (N c : Nat) (y : Sys) : Prop where
  lt : c < N
  cur : y.current = c * K
  len : y.refs.length = N
  dlen : y.data.length = N
  one : y.refs[c]? = some 1
  zero : ∀ k, k < N → k ≠ c → y.refs[k]? = some 0
  thrs : ∃ v, y.thrs = [.s0 ((c + 1) % N) v, .idle]

/-- While thread 0 looks at one node, thread 1 makes a whole set. -/
theorem Chase.next {u : Bool} {N c m : Nat} (hN : 2 ≤ N) (hNW : N ≤ 2 ^ 48) {y0 y : Sys} (C : Chase N c y) (d : During (Step u N) (place 0) Out y0 m y) :
    ∃ y', Chase N ((c + 1) % N) y' ∧ During (Step u N) (place 0) Out y0 (m + 1) y' := by
  obtain ⟨lt, hcur, len, dlen, one, zero, v, hthrs⟩ := C
  obtain ⟨current, refs, data, thrs, sets, cur, since, destroyed, got⟩ := y
  simp only at hcur len dlen one zero hthrs
  subst hthrs
  have hc : current / K = c := by rw [hcur]; exact Nat.mul_div_cancel _ (by decide)
  have hm : current % K = 0 := by rw [hcur]; exact Nat.mul_mod_left _ _
  have k1 : (c + 1) % N < N := Nat.mod_lt _ (by omega)
  have ne : ∀ k, k < N → (k + 1) % N ≠ k := by
    intro k hk
    by_cases l : k + 1 = N
    · rw [l, Nat.mod_self]; omega
    · rw [Nat.mod_eq_of_lt (by omega)]; omega
  generalize hk : (c + 1) % N = k at *
  have hkc : k ≠ c := hk ▸ ne c lt
  have d1 := d.other (.setBegin (i := 1) rfl) rfl
  simp only [List.set_cons_succ, List.set_cons_zero, hc, hk] at d1
  have d2 := d1.other (.setClaim (i := 1) rfl (zero k k1 hkc)) rfl
  simp only [List.set_cons_succ, List.set_cons_zero] at d2
  have d3 := d2.own (.setNext (i := 0) (r := 1) rfl (by simp [len, k1]) (by decide)) (by simp [place, ne k k1]) (by simp [place, Out])
  simp only [List.set_cons_zero] at d3
  have d4 := d3.other (.setWrite (i := 1) rfl (List.getElem?_eq_getElem (by rw [dlen]; exact k1))) rfl
  simp only [List.set_cons_succ, List.set_cons_zero] at d4
  have d5 := d4.other (.setSwap (i := 1) (v := some sets) rfl (by simp [dlen, k1])) rfl
  simp only [List.set_cons_succ, List.set_cons_zero] at d5
  have d6 := d5.other (.setSub (i := 1) (r := 1) rfl (by simp only [hc]; rw [List.getElem?_set_ne hkc]; exact one)) rfl
  simp only [List.set_cons_succ, List.set_cons_zero, hc, hm] at d6
  have d7 := d6.other (.setDestroy (i := 1) rfl) rfl
  simp only [List.set_cons_succ, List.set_cons_zero] at d7
  refine ⟨_, ⟨k1, ?_, ?_, ?_, ?_, ?_, v, rfl⟩, d7⟩
  · exact Nat.mod_eq_of_lt (by simp only [K, W]; omega)
  · simp [len]
  · simp [dlen]
  · simp only
    rw [List.getElem?_set_ne (Ne.symm hkc), List.getElem?_set_self (by rw [len]; exact k1)]
  · intro j hj hjk
    simp only
    by_cases e : j = c
    · subst e
      rw [List.getElem?_set_self (by simp [len, hj])]
      rfl
    · rw [List.getElem?_set_ne (Ne.symm e), List.getElem?_set_ne (Ne.symm hjk)]
      exact zero j hj e

/-- **C130, `Set` fails**: with two threads and any `Tmax` from 2 on, there is no bound on the steps of a set: thread 1 makes one set for each node that thread 0 looks at, and has always just taken that node. -/
theorem C130_overtaken_refuted (u : Bool) (N : Nat) (hN : 2 ≤ N) (hNW : N ≤ 2 ^ 48) : ∃ y, Reach u N 2 y ∧ (∃ k v, place 0 y = some (.s0 k v)) ∧ ∀ b, ¬ Within (Step u N) (place 0) Out b y := by
  have h : Reach u N 2 _ := .step .init (.setBegin (i := 0) rfl)
  have key : ∀ y0, Chase N 0 y0 → ∀ m, ∃ c y', Chase N c y' ∧ During (Step u N) (place 0) Out y0 m y' := by
    intro y0 C0 m
    induction m with
    | zero =>
      obtain ⟨v, hv⟩ := C0.thrs
      exact ⟨0, y0, C0, .start (by rw [place, hv]; exact id)⟩
    | succ m ih =>
      obtain ⟨c, y', C, d⟩ := ih
      obtain ⟨z, C', d'⟩ := C.next hN hNW d
      exact ⟨_, z, C', d'⟩
  refine ⟨_, h, ⟨_, _, rfl⟩, fun b hb => ?_⟩
  have no : ∀ y0, Within (Step u N) (place 0) Out b y0 → ¬ Chase N 0 y0 := fun y0 hb C => by
    obtain ⟨c, y', _, d⟩ := key y0 C b
    exact absurd (hb b y' d).1 (Nat.lt_irrefl b)
  refine no _ hb ⟨by omega, by simp [init], by simp [init], by simp [init], ?_, ?_, 0, by simp [init, List.replicate]⟩
  · simp only [init]
    rw [List.getElem?_set_self (by simp; omega)]
  · intro k hk h0
    simp only [init]
    rw [List.getElem?_set_ne (Ne.symm h0)]
    simp [hk]

/-! ## `Tunlimited`, one thread at a time -/

/-- Some steps of thread `i`. -/
inductive Run (u : Bool) (N i : Nat) (y : Sys) : Sys → Prop
  | refl : Run u N i y y
  | step {z z' : Sys} : Run u N i y z → Alone u N i z z' → Run u N i y z'

/-- **C43, `Tunlimited` and one thread at a time**: a get that begins when no get or set is under way and runs alone shares what is in the current node and leaves `current` and the counts as they were, so that there can be any number of them before the
next set. -/
theorem C43_unlimited_alone (N i k r : Nat) (y : Sys) (d : Option Nat) (hi : y.thrs[i]? = some .idle) (hc : y.current = k * K) (hk : k * K + 1 < W) (hr : y.refs[k]? = some r) (hrW : r + 2 < W)
    (hd : y.data[k]? = some d) : ∃ z, Run true N i y z ∧ z.current = y.current ∧ z.refs = y.refs ∧ z.data = y.data ∧ z.thrs = y.thrs ∧ z.destroyed = y.destroyed ∧
      ∃ b, z.got = y.got ++ [(d, y.cur, b)] := by
  obtain ⟨current, refs, data, thrs, sets, cur, since, destroyed, got⟩ := y
  simp only at hi hc hr hd
  have hl : i < thrs.length := (List.getElem?_eq_some_iff.1 hi).1
  have hrl : k < refs.length := (List.getElem?_eq_some_iff.1 hr).1
  have e0 : current / K = k := by rw [hc]; exact Nat.mul_div_cancel _ (by decide)
  have e1 : (current + 1) % W = k * K + 1 := by rw [hc]; exact Nat.mod_eq_of_lt hk
  have e2 : (k * K + 1) / K = k := by simp only [K]; omega
  have e3 : (k * K + 1 + W - 1) % W = k * K := by simp only [K, W] at *; omega
  have e4 : (r + 2) % W = r + 2 := Nat.mod_eq_of_lt hrW
  have e5 : (r + 2 + W - 2) % W = r := by simp only [W] at *; omega
  have al : ∀ {z z' : Sys} {p q : PC}, z.thrs = thrs.set i p → Step true N z z' → z'.thrs = thrs.set i q → q ≠ p → Alone true N i z z' := by
    intro z z' p q h s h' n
    refine ⟨s, ?_⟩
    rw [place, place, h, h', List.getElem?_set_self hl, List.getElem?_set_self hl]
    intro e
    injection e with e
    exact n e
  have h0 : thrs = thrs.set i .idle := by
    refine List.ext_getElem? fun j => ?_
    by_cases e : i = j
    · subst e; rw [hi, List.getElem?_set_self hl]
    · rw [List.getElem?_set_ne e]
  have t1 := Step.getAdd (u := true) (N := N) (y := ⟨current, refs, data, thrs, sets, cur, since, destroyed, got⟩) (i := i) hi
  simp only [e0, e1] at t1
  have t2 := Step.getShare (u := true) (N := N) (y := ⟨k * K + 1, refs, data, thrs.set i (.g1 k cur), sets, cur, since + 1, destroyed, got⟩) (i := i) (List.getElem?_set_self hl) hd
  simp only [List.set_set] at t2
  have t3 := Step.getRef (u := true) (N := N) (y := ⟨k * K + 1, refs, data, thrs.set i (.g2 k), sets, cur, since + 1, destroyed, got ++ [(d, cur, d != none && destroyed.contains d)]⟩) (i := i)
    (List.getElem?_set_self hl) hr
  simp only [List.set_set, e4, if_true] at t3
  have t4 := Step.getBack (u := true) (N := N) (y := ⟨k * K + 1, refs.set k (r + 2), data, thrs.set i (.g3 k), sets, cur, since + 1, destroyed, got ++ [(d, cur, d != none && destroyed.contains d)]⟩) (i := i)
    (List.getElem?_set_self hl) e2
  simp only [List.set_set, e3] at t4
  have t5 := Step.getUnref (u := true) (N := N) (y := ⟨k * K, refs.set k (r + 2), data, thrs.set i (.g4 k), sets, cur, since + 1, destroyed, got ++ [(d, cur, d != none && destroyed.contains d)]⟩) (i := i)
    (List.getElem?_set_self hl) (List.getElem?_set_self hrl)
  simp only [List.set_set, e5] at t5
  refine ⟨_, .step (.step (.step (.step (.step .refl (al h0 t1 rfl (by simp))) (al rfl t2 rfl (by simp))) (al rfl t3 rfl (by simp))) (al rfl t4 rfl (by simp))) (al rfl t5 rfl (by simp)), hc.symm, ?_, rfl, h0.symm, rfl, _, rfl⟩
  refine List.ext_getElem? fun j => ?_
  by_cases e : k = j
  · subst e; rw [hr, List.getElem?_set_self hrl]
  · rw [List.getElem?_set_ne e]

/-- The hypotheses are met by a new resource. -/
example : (init 2 3).thrs[1]? = some .idle ∧ (init 2 3).current = 0 * K ∧ (init 2 3).refs[0]? = some 1 ∧ (init 2 3).data[0]? = some none := ⟨rfl, rfl, rfl, rfl⟩

#print axioms C43_unlimited_alone
#print axioms C130_get
#print axioms C130_set_partial
#print axioms C130_stuck_refuted
#print axioms C130_overtaken_refuted

end Verif.SharedProgress
