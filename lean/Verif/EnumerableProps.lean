import Verif.Enumerable
import Mathlib.Data.List.Nodup
import Mathlib.Data.Nat.ModEq
/-!
# C25: enumerators visit each element exactly once in order
-/
namespace Verif.Enumerable

/-! ## Specification: a cursor in a list -/
namespace Spec

/-- A cursor standing at position `pos` of `items`; moving past an end reports `none` and stays. -/
def step {α : Type} (items : List α) (pos : Nat) : Call → Nat × Option α
  | .current => (pos, items[pos]?)
  | .head => (0, items[0]?)
  | .tail => (items.length - 1, items[items.length - 1]?)
  | .next => if pos + 1 < items.length then (pos + 1, items[pos + 1]?) else (pos, none)
  | .previous => if 0 < pos then (pos - 1, items[pos - 1]?) else (pos, none)

def run {α : Type} (items : List α) (pos : Nat) : List Call → List (Option α)
  | [] => []
  | c :: cs => (step items pos c).2 :: run items (step items pos c).1 cs

/-- Addresses of `count` consecutive elements of size `stride`. -/
def batch (ptr stride count : Nat) : List Nat := (List.range count).map (fun k => ptr + k * stride)

/-- Addresses of `count` elements of a ring of `max` slots, beginning with slot `start`. -/
def ring (ptr stride count start max : Nat) : List Nat :=
  (List.range count).map (fun k => ptr + ((start + k) % max) * stride)

end Spec

theorem batch_get (ptr stride count k : Nat) :
    (Spec.batch ptr stride count)[k]? = if k < count then some (ptr + k * stride) else none := by
  unfold Spec.batch
  by_cases h : k < count <;> simp [h]

theorem ring_get (ptr stride count start max k : Nat) :
    (Spec.ring ptr stride count start max)[k]? = if k < count then some (ptr + ((start + k) % max) * stride) else none := by
  unfold Spec.ring
  by_cases h : k < count <;> simp [h]

theorem dec_eq {n : Nat} (h : 0 < n) (h2 : n ≤ 2 ^ 64) : dec n = n - 1 := by
  unfold dec; omega

theorem batch_step (ptr stride count pos : Nat) (hc : count < 2 ^ 64) (hp : pos < count ∨ count = 0) (c : Call) (e : En)
    (he : e.fmt = .batch ∧ e.ptr = ptr ∧ e.stride = stride ∧ e.count = count ∧ (count ≠ 0 → e.index = pos)) :
    (step e c).2 = (Spec.step (Spec.batch ptr stride count) pos c).2 ∧
    ((step e c).1.fmt = .batch ∧ (step e c).1.ptr = ptr ∧ (step e c).1.stride = stride ∧ (step e c).1.count = count ∧
      (count ≠ 0 → (step e c).1.index = (Spec.step (Spec.batch ptr stride count) pos c).1)) ∧
    ((Spec.step (Spec.batch ptr stride count) pos c).1 < count ∨ count = 0) := by
  obtain ⟨f, p, n, s, i⟩ := e
  obtain ⟨rfl, rfl, rfl, rfl, hi⟩ := he
  dsimp only at hi hp hc
  have hlen : (Spec.batch p s n).length = n := by simp [Spec.batch]
  by_cases h0 : n = 0
  · subst h0
    cases c <;> simp [step, Spec.step, current, getHead, getTail, next, previous, Spec.batch]
    all_goals (repeat' split) <;> simp_all
  · have hpn : pos < n := by omega
    have := hi h0
    subst this
    cases c with
    | current => simp [step, Spec.step, current, batch_get, h0, hpn, addr]
    | head => simp [step, Spec.step, getHead, batch_get, h0]; omega
    | tail =>
      have hd := dec_eq (n := n) (by omega) (by omega)
      simp only [step, Spec.step, getTail, batch_get, hlen, hd, addr]
      have : n - 1 < n := by omega
      simp [h0, this]
    | next =>
      simp only [step, Spec.step, next, batch_get, hlen, addr, if_neg h0]
      by_cases c : i + 1 < n
      · simp [c]
      · simp [c, hpn]
    | previous =>
      simp only [step, Spec.step, previous, batch_get, addr, if_neg h0]
      by_cases c : 0 < i
      · have : i - 1 < n := by omega
        simp [c, this]
      · simp [c, hpn]

theorem ring_step (ptr stride count start max pos : Nat) (hc : count + start < 2 ^ 64) (hp : pos < count ∨ count = 0) (c : Call) (e : En)
    (he : e.fmt = .circular max start ∧ e.ptr = ptr ∧ e.stride = stride ∧ e.count = count ∧ (count ≠ 0 → e.index = start + pos)) :
    (step e c).2 = (Spec.step (Spec.ring ptr stride count start max) pos c).2 ∧
    ((step e c).1.fmt = .circular max start ∧ (step e c).1.ptr = ptr ∧ (step e c).1.stride = stride ∧ (step e c).1.count = count ∧
      (count ≠ 0 → (step e c).1.index = start + (Spec.step (Spec.ring ptr stride count start max) pos c).1)) ∧
    ((Spec.step (Spec.ring ptr stride count start max) pos c).1 < count ∨ count = 0) := by
  obtain ⟨f, p, n, s, i⟩ := e
  obtain ⟨rfl, rfl, rfl, rfl, hi⟩ := he
  dsimp only at hi hp hc
  have hlen : (Spec.ring p s n start max).length = n := by simp [Spec.ring]
  by_cases h0 : n = 0
  · subst h0
    cases c <;> simp [step, Spec.step, current, getHead, getTail, next, previous, Spec.ring]
    all_goals (repeat' split) <;> simp_all
  · have hpn : pos < n := by omega
    have := hi h0
    subst this
    cases c with
    | current => simp [step, Spec.step, current, ring_get, h0, hpn, addr]
    | head => simp [step, Spec.step, getHead, ring_get, h0, addr]; omega
    | tail =>
      have hd := dec_eq (n := n) (by omega) (by omega)
      have hd2 : (n - 1 + start) % 2 ^ 64 = start + (n - 1) := by rw [Nat.mod_eq_of_lt (by omega)]; omega
      simp only [step, Spec.step, getTail, ring_get, hlen, hd, hd2, addr]
      have : n - 1 < n := by omega
      simp [h0, this]
    | next =>
      simp only [step, Spec.step, next, ring_get, hlen, addr, if_neg h0]
      by_cases c : pos + 1 < n
      · have c2 : start + pos + 1 < n + start := by omega
        simp only [c, c2, if_true]
        refine ⟨by congr 1, ⟨trivial, trivial, trivial, trivial, fun _ => by omega⟩, ?_⟩
        exact Or.inl trivial
      · have c2 : ¬ (start + pos + 1 < n + start) := by omega
        simp [c, c2, hpn]
    | previous =>
      simp only [step, Spec.step, previous, ring_get, addr, if_neg h0]
      by_cases c : 0 < pos
      · have c3 : pos - 1 < n := by omega
        have c2 : start + pos > start := by omega
        have e : start + pos - 1 = start + (pos - 1) := by omega
        simp only [c, c2, c3, if_true, e]
        exact ⟨trivial, ⟨trivial, trivial, trivial, trivial, fun _ => trivial⟩, Or.inl trivial⟩
      · have c2 : ¬ (start + pos > start) := by omega
        simp [c, c2, hpn]

theorem batch_run (ptr stride count : Nat) (hc : count < 2 ^ 64) (cs : List Call) : ∀ (pos : Nat) (e : En), (pos < count ∨ count = 0) →
    (e.fmt = .batch ∧ e.ptr = ptr ∧ e.stride = stride ∧ e.count = count ∧ (count ≠ 0 → e.index = pos)) →
    run e cs = Spec.run (Spec.batch ptr stride count) pos cs := by
  induction cs with
  | nil => intros; rfl
  | cons c cs ih =>
    intro pos e hp he
    obtain ⟨h1, h2, h3⟩ := batch_step ptr stride count pos hc hp c e he
    rw [run, Spec.run, h1, ih _ _ h3 h2]

theorem ring_run (ptr stride count start max : Nat) (hc : count + start < 2 ^ 64) (cs : List Call) : ∀ (pos : Nat) (e : En), (pos < count ∨ count = 0) →
    (e.fmt = .circular max start ∧ e.ptr = ptr ∧ e.stride = stride ∧ e.count = count ∧ (count ≠ 0 → e.index = start + pos)) →
    run e cs = Spec.run (Spec.ring ptr stride count start max) pos cs := by
  induction cs with
  | nil => intros; rfl
  | cons c cs ih =>
    intro pos e hp he
    obtain ⟨h1, h2, h3⟩ := ring_step ptr stride count start max pos hc hp c e he
    rw [run, Spec.run, h1, ih _ _ h3 h2]

/-- Every sequence of calls on an enumerable over `count` consecutive elements behaves as a cursor in
the list of their addresses, starting at the first. -/
theorem C25_batch_walk (ptr stride count : Nat) (hc : count < 2 ^ 64) (cs : List Call) :
    run (create ptr stride count) cs = Spec.run (Spec.batch ptr stride count) 0 cs :=
  batch_run ptr stride count hc cs 0 _ (by omega) ⟨rfl, rfl, rfl, rfl, fun _ => rfl⟩

/-- The same for a circular buffer with any start. -/
theorem C25_circular_walk (ptr stride count start max : Nat) (hm : max ≤ 2 ^ 63) (hc : count ≤ max) (hs : start < max) (cs : List Call) :
    run (createCircular ptr stride count start max) cs = Spec.run (Spec.ring ptr stride count start max) 0 cs :=
  ring_run ptr stride count start max (by omega) cs 0 _ (by omega) ⟨rfl, rfl, rfl, rfl, fun _ => rfl⟩

/-! ## Consequences of the cursor behaviour, for any list -/

theorem spec_forward_from {α : Type} (items : List α) (k : Nat) : ∀ pos, pos + 1 + k = items.length →
    Spec.run items pos (List.replicate (k + 1) .next) = (items.drop (pos + 1)).map some ++ [none] := by
  induction k with
  | zero =>
    intro pos h
    have : ¬ (pos + 1 < items.length) := by omega
    simp [Spec.run, Spec.step, this]
    omega
  | succ k ih =>
    intro pos h
    have c : pos + 1 < items.length := by omega
    rw [List.replicate_succ, Spec.run]
    simp only [Spec.step, if_pos c]
    rw [ih (pos + 1) (by omega), List.drop_eq_getElem_cons (by omega : pos + 1 < items.length), List.map_cons, List.cons_append,
      List.getElem?_eq_getElem c]

theorem spec_backward_from {α : Type} (items : List α) (pos : Nat) (h : pos < items.length) :
    Spec.run items pos (List.replicate (pos + 1) .previous) = ((items.take pos).reverse).map some ++ [none] := by
  induction pos with
  | zero => simp [Spec.run, Spec.step]
  | succ k ih =>
    rw [List.replicate_succ, Spec.run]
    simp only [Spec.step, Nat.succ_pos, if_true, Nat.add_sub_cancel]
    rw [ih (by omega), List.take_succ_eq_append_getElem (by omega : k < items.length), List.reverse_append, List.getElem?_eq_getElem (by omega)]
    rfl

/-- Forwards: the current element and then the following ones, each once and in order, then the end;
backwards from the tail: the reverse, then the end.  Stated for both kinds of enumerable. -/
theorem C25_visits_all (e : En) (items : List Nat)
    (he : (∃ ptr stride count, count < 2 ^ 64 ∧ e = create ptr stride count ∧ items = Spec.batch ptr stride count) ∨
      (∃ ptr stride count start max, max ≤ 2 ^ 63 ∧ count ≤ max ∧ start < max ∧ e = createCircular ptr stride count start max ∧
        items = Spec.ring ptr stride count start max)) :
    run e (.current :: List.replicate items.length .next) = items.map some ++ [none] ∧
    run e (.tail :: List.replicate items.length .previous) = items.reverse.map some ++ [none] := by
  have key : ∀ cs, run e cs = Spec.run items 0 cs := by
    intro cs
    rcases he with ⟨p, s, n, h, rfl, rfl⟩ | ⟨p, s, n, st, m, hm, h1, h2, rfl, rfl⟩
    · exact C25_batch_walk p s n h cs
    · exact C25_circular_walk p s n st m hm h1 h2 cs
  rw [key, key]
  cases items with
  | nil => simp [Spec.run, Spec.step]
  | cons a t =>
    constructor
    · rw [Spec.run]
      simp only [Spec.step]
      have := spec_forward_from (a :: t) t.length 0 (by simp; omega)
      rw [List.length_cons, this]
      simp
    · rw [Spec.run]
      simp only [Spec.step]
      have h := spec_backward_from (a :: t) t.length (by simp)
      have e1 : (a :: t).length - 1 = t.length := by simp
      rw [e1, List.length_cons, h]
      have e2 : (a :: t)[t.length]? = some ((a :: t)[t.length]'(by simp)) := List.getElem?_eq_getElem (by simp)
      rw [e2]
      have e3 : a :: t = (a :: t).take t.length ++ [(a :: t)[t.length]'(by simp)] := by
        rw [← List.take_succ_eq_append_getElem (by simp)]; simp
      conv => rhs; rw [e3]
      rw [List.reverse_append]
      rfl

/-- The visited elements are different ones. -/
theorem C25_distinct (ptr stride count start max : Nat) (hst : 0 < stride) (hc : count ≤ max) :
    (Spec.batch ptr stride count).Nodup ∧ (Spec.ring ptr stride count start max).Nodup := by
  constructor
  · unfold Spec.batch
    refine List.Nodup.map ?_ List.nodup_range
    intro a b h
    have h : ptr + a * stride = ptr + b * stride := h
    exact Nat.eq_of_mul_eq_mul_right hst (Nat.add_left_cancel h)
  · unfold Spec.ring
    refine List.Nodup.map_on ?_ List.nodup_range
    intro a ha b hb h
    have h : ptr + (start + a) % max * stride = ptr + (start + b) % max * stride := h
    have hm := Nat.eq_of_mul_eq_mul_right hst (Nat.add_left_cancel h)
    rw [List.mem_range] at ha hb
    have h1 := Nat.div_add_mod (start + a) max
    have h2 := Nat.div_add_mod (start + b) max
    have key : ∀ x y : Nat, x < max → y < max → (start + x) % max = (start + y) % max → x = y := by
      intro x y hx hy hxy
      have := (Nat.ModEq.add_left_cancel' start (hxy : start + x ≡ start + y [MOD max]))
      rw [Nat.ModEq, Nat.mod_eq_of_lt hx, Nat.mod_eq_of_lt hy] at this
      exact this
    exact key a b (by omega) (by omega) hm

/-- After any walk, a successful step forwards undone by a step backwards gives the element the walk
was at, and the other way round. -/
theorem C25_there_and_back (e : En) (items : List Nat)
    (he : (∃ ptr stride count, count < 2 ^ 64 ∧ e = create ptr stride count ∧ items = Spec.batch ptr stride count) ∨
      (∃ ptr stride count start max, max ≤ 2 ^ 63 ∧ count ≤ max ∧ start < max ∧ e = createCircular ptr stride count start max ∧
        items = Spec.ring ptr stride count start max)) (cs : List Call) :
    (∃ pre here there back, run e (cs ++ [.current, .next, .previous]) = pre ++ [here, there, back] ∧ (there.isSome → back = here)) ∧
    (∃ pre here there back, run e (cs ++ [.current, .previous, .next]) = pre ++ [here, there, back] ∧ (there.isSome → back = here)) := by
  have key : ∀ cs, run e cs = Spec.run items 0 cs := by
    intro cs
    rcases he with ⟨p, s, n, h, rfl, rfl⟩ | ⟨p, s, n, st, m, hm, h1, h2, rfl, rfl⟩
    · exact C25_batch_walk p s n h cs
    · exact C25_circular_walk p s n st m hm h1 h2 cs
  have split : ∀ (cs : List Call) (pos : Nat), (pos < items.length ∨ items = []) → ∃ pos', (pos' < items.length ∨ items = []) ∧
      ∀ ds, Spec.run items pos (cs ++ ds) = Spec.run items pos cs ++ Spec.run items pos' ds := by
    intro cs
    induction cs with
    | nil => intro pos h; exact ⟨pos, h, fun ds => rfl⟩
    | cons c cs ih =>
      intro pos h
      have hstep : (Spec.step items pos c).1 < items.length ∨ items = [] := by
        rcases h with h | h
        · left
          cases c <;> simp only [Spec.step] <;> (try split) <;> (try simp only) <;> omega
        · exact Or.inr h
      obtain ⟨p', hp', h'⟩ := ih _ hstep
      exact ⟨p', hp', fun ds => by simp only [List.cons_append, Spec.run, h' ds]⟩
  obtain ⟨pos, hp, hs⟩ := split cs 0 (by
    cases items with
    | nil => exact Or.inr rfl
    | cons a t => left; simp)
  constructor
  · refine ⟨_, _, _, _, by rw [key, hs]; rfl, ?_⟩
    intro h
    have c : pos + 1 < items.length := by
      apply Classical.byContradiction; intro c
      simp [Spec.step, c] at h
    simp [Spec.step, c]
  · refine ⟨_, _, _, _, by rw [key, hs]; rfl, ?_⟩
    intro h
    have c : 0 < pos := by
      apply Classical.byContradiction; intro c
      simp [Spec.step, c] at h
    have e1 : pos - 1 + 1 = pos := by omega
    rcases hp with hp | hp
    · simp [Spec.step, c, e1, hp]
    · subst hp; simp [Spec.step, c] at h

example : run (createCircular 1000 4 3 2 4) [.current, .next, .next, .next, .previous, .tail, .previous, .head] =
    [some 1008, some 1012, some 1000, none, some 1012, some 1000, some 1012, some 1008] := by decide
example : run (create 1000 8 2) [.current, .next, .next, .previous, .previous] = [some 1000, some 1008, none, some 1000, none] := by decide
example : Spec.ring 1000 4 3 2 4 = [1008, 1012, 1000] := by decide

#print axioms C25_batch_walk
#print axioms C25_circular_walk
#print axioms C25_visits_all
#print axioms C25_distinct
#print axioms C25_there_and_back

end Verif.Enumerable
