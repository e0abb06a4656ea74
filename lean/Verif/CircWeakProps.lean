import Verif.CircWeak
import Verif.CircBufferProps
/-!
# C125: the memory orders of the concurrent circular buffer
-/
namespace Verif.CircWeak

/-- What C125 says about a recorded event; `sync`: the store of `head` is a release and the loads of it are acquires. -/
def Ev.ok (sync : Bool) (m : Nat) (added : List Nat) : Ev → Prop
  | .add req got used now => now ≤ used ∧ used ≤ m - 1 ∧ got = min req (m - 1 - used)
  | .opened count avail now => count = avail ∧ avail ≤ now
  | .visit k x => ∃ v, added[k]? = some v ∧ x = some v
  | .readRace => False
  | .writeRace => sync = false

theorem Ev.ok_mono {s : Bool} {m : Nat} {l : List Nat} (b : List Nat) {e : Ev} (h : e.ok s m l) : e.ok s m (l ++ b) := by
  cases e with
  | visit k x =>
    obtain ⟨v, h1, h2⟩ := h
    exact ⟨v, by rw [List.getElem?_append_left (List.getElem?_eq_some_iff.1 h1).1]; exact h1, h2⟩
  | _ => exact h

theorem used_same (m a b : Nat) : used m a b = CircBuffer.used m a b := rfl

theorem log_snoc {s : Bool} {m : Nat} {a : List Nat} {l : List Ev} {e : Ev} (h : ∀ e ∈ l, e.ok s m a) (he : e.ok s m a) : ∀ x ∈ l ++ [e], x.ok s m a := by
  intro x hx
  rcases List.mem_append.1 hx with hx | hx
  · exact h x hx
  · obtain rfl := List.mem_singleton.1 hx; exact he

/-- The stores to a variable: what the values are, none counts more than `top`, the last counts `top`, counts and stamps do not fall, and stamps are below `step`. -/
structure Stores (m : Nat) (l : List Msg) (top step : Nat) : Prop where
  val : ∀ x ∈ l, x.value = x.count % m ∧ x.count ≤ top ∧ x.stamp < step
  last : ∃ st, l.getLast? = some ⟨top % m, top, st⟩
  mono : ∀ (i j : Nat) (x z : Msg), i ≤ j → l[i]? = some x → l[j]? = some z → x.count ≤ z.count ∧ x.stamp ≤ z.stamp

theorem Stores.weaken {m top step step' : Nat} {l : List Msg} (h : Stores m l top step) (le : step ≤ step') : Stores m l top step' :=
  ⟨fun x hx => have := h.val x hx; ⟨this.1, this.2.1, by omega⟩, h.last, h.mono⟩

theorem Stores.snoc {m top step n : Nat} {l : List Msg} (h : Stores m l top step) (le : top ≤ n) :
    Stores m (l ++ [⟨n % m, n, step⟩]) n (step + 1) := by
  refine ⟨?_, ⟨step, by simp⟩, ?_⟩
  · intro x hx
    rcases List.mem_append.1 hx with hx | hx
    · have := h.val x hx; exact ⟨this.1, by omega, by omega⟩
    · obtain rfl := List.mem_singleton.1 hx; exact ⟨rfl, Nat.le_refl _, by simp⟩
  · intro i j x z hij hx hz
    by_cases hj : j < l.length
    · rw [List.getElem?_append_left hj] at hz
      rw [List.getElem?_append_left (by omega)] at hx
      exact h.mono i j x z hij hx hz
    · have hz' := (List.getElem?_eq_some_iff.1 hz).1
      have ej : j = l.length := by simp at hz'; omega
      subst ej
      simp at hz
      subst hz
      by_cases hi : i < l.length
      · rw [List.getElem?_append_left hi] at hx
        have := h.val x (List.mem_of_getElem? hx)
        exact ⟨by simp; omega, by simp; omega⟩
      · have ei : i = l.length := by omega
        subst ei
        simp at hx
        subst hx
        exact ⟨Nat.le_refl _, Nat.le_refl _⟩

/-- The producer is in a legitimate state; `H` is how many items had been released at the store of `head` it saw. -/
def PcP (m : Nat) (y : Sys) (H : Nat) : P → Prop
  | .idle => True
  | .one _ h | .many _ h => h = H % m
  | .loop b k t => y.added.length + b.length < H + m ∧ t = (y.added.length + k) % m ∧ k ≤ b.length ∧
      (∀ j, j < k → (y.items ((y.added.length + j) % m)).val = b[j]?)
  | .torn b k t => y.added.length + b.length < H + m ∧ t = (y.added.length + k) % m ∧ k < b.length ∧
      (∀ j, j < k → (y.items ((y.added.length + j) % m)).val = b[j]?)

/-- The consumer is in a legitimate state; `T` is how many items had been added at the store of `tail` it saw. -/
def PcC (m : Nat) (y : Sys) (T : Nat) : C → Prop
  | .idle => True
  | .gotHead h => h = y.released % m
  | .opened s n => s = y.released % m ∧ y.released + n ≤ T

structure Inv (o : Orders) (m : Nat) (y : Sys) : Prop where
  heads : Stores m y.heads y.released y.cStep
  tails : Stores m y.tails y.added.length y.pStep
  seenHead : ∃ x, y.heads[y.pHead]? = some x ∧ y.added.length < x.count + m ∧ PcP m y x.count y.p ∧ ((o.storeHead && o.loadHead) = true → x.stamp ≤ y.pSeen)
  seenTail : ∃ x, y.tails[y.cTail]? = some x ∧ y.released ≤ x.count ∧ PcC m y x.count y.c ∧ x.stamp ≤ y.cSeen
  wStamp : ∀ t, (y.items t).wStamp < y.pStep
  rStamp : ∀ t, (y.items t).rStamp < y.cStep
  content : ∀ k, y.released ≤ k → k < y.added.length → (y.items (k % m)).val = y.added[k]? ∧ ∀ x ∈ y.tails, k < x.count → (y.items (k % m)).wStamp ≤ x.stamp
  read : ∀ t, (y.items t).rStamp ≠ 0 → (y.items t).rItem < y.added.length ∧ (y.items t).rItem % m = t ∧ ∀ x ∈ y.heads, (y.items t).rItem < x.count → (y.items t).rStamp ≤ x.stamp
  pending : ∀ l ∈ y.pending, y.released ≤ l.item ∧ l.slot = l.item % m ∧ l.step < y.cStep ∧ ∃ x ∈ y.tails, l.item < x.count ∧ x.stamp ≤ l.seen
  log : ∀ e ∈ y.log, e.ok (o.storeHead && o.loadHead) m y.added

theorem inv_init (o : Orders) {m : Nat} (hm : 0 < m) : Inv o m init := by
  have s : Stores m [⟨0, 0, 0⟩] 0 1 := by
    refine ⟨by simp, ⟨0, by simp⟩, ?_⟩
    intro i j x z hij hx hz
    have hi := (List.getElem?_eq_some_iff.1 hx).1
    have hj := (List.getElem?_eq_some_iff.1 hz).1
    simp at hi hj; subst hi; subst hj
    rw [hx] at hz; cases hz
    exact ⟨Nat.le_refl _, Nat.le_refl _⟩
  exact ⟨s, s, ⟨_, rfl, by simpa [init] using hm, trivial, fun _ => Nat.zero_le _⟩, ⟨_, rfl, Nat.le_refl _, trivial, Nat.le_refl _⟩, by simp [init], by simp [init],
    by simp [init], by simp [init], by simp [init], by simp [init]⟩

theorem lastTail_eq {o : Orders} {m : Nat} {y : Sys} (I : Inv o m y) : lastTail y = y.added.length % m := by
  obtain ⟨st, h⟩ := I.tails.last
  rw [lastTail, h]

theorem lastHead_eq {o : Orders} {m : Nat} {y : Sys} (I : Inv o m y) : lastHead y = y.released % m := by
  obtain ⟨st, h⟩ := I.heads.last
  rw [lastHead, h]

theorem Inv.le {o : Orders} {m : Nat} {y : Sys} (I : Inv o m y) : y.released ≤ y.added.length := by
  obtain ⟨x, hx, h, _⟩ := I.seenTail
  have := (I.tails.val x (List.mem_of_getElem? hx)).2.1
  omega

/-- Seeing a store of `head` that is not older. -/
theorem Inv.seeHead {o : Orders} {m : Nat} {y : Sys} (I : Inv o m y) {i : Nat} {x : Msg} (hp : y.p = .idle) (hi : y.pHead ≤ i) (hx : y.heads[i]? = some x) (p : P)
    (pc : ∀ y' : Sys, PcP m y' x.count p) : Inv o m { seeHead o y i x with p := p } := by
  have ⟨h1, h2, h3, h4, h5, h6, h7, h8, h9, h10⟩ := I
  obtain ⟨x0, a, b, c, d⟩ := h3
  have mo := h1.mono _ _ _ _ hi a hx
  refine ⟨h1, h2, ⟨x, hx, ?_, pc _, ?_⟩, h4, h5, h6, h7, h8, h9, h10⟩
  · show y.added.length < _; omega
  · intro s
    show x.stamp ≤ (if _ then _ else _)
    rw [if_pos s]; exact Nat.le_max_right _ _

/-- What the producer logs. -/
theorem Inv.logAdd {o : Orders} {m : Nat} {y : Sys} (I : Inv o m y) {e : Ev} (he : e.ok (o.storeHead && o.loadHead) m y.added) {p : P} {x : Msg}
    (hx : y.heads[y.pHead]? = some x) (pc : PcP m { y with p := p, log := y.log ++ [e] } x.count p) : Inv o m { y with p := p, log := y.log ++ [e] } := by
  have ⟨h1, h2, h3, h4, h5, h6, h7, h8, h9, h10⟩ := I
  obtain ⟨x0, a, b, c, d⟩ := h3
  have : x0 = x := by rw [hx] at a; exact (Option.some.inj a).symm
  subst this
  exact ⟨h1, h2, ⟨x0, a, b, pc, d⟩, h4, h5, h6, h7, h8, h9, log_snoc h10 he⟩

theorem Inv.step {o : Orders} (keeps : (o.storeHead || o.inOrder) = true) (pub : (o.storeTail && o.loadTail) = true) {m : Nat} (hm : 0 < m) {y y' : Sys} (I : Inv o m y)
    (s : Step o m y y') : Inv o m y' := by
  have hle := I.le
  have ⟨h1, h2, h3, h4, h5, h6, h7, h8, h9, h10⟩ := I
  obtain ⟨xh, a, b, c, d⟩ := h3
  obtain ⟨xt, e, f, g, hs⟩ := h4
  have hxh := h1.val xh (List.mem_of_getElem? a)
  have hxt := h2.val xt (List.mem_of_getElem? e)
  -- the slot the producer writes next is none of those that hold items
  have hne : ∀ n k, y.added.length + n < xh.count + m → k < n → ∀ j, y.released ≤ j → j < y.added.length + k → j % m ≠ (y.added.length + k) % m := by
    intro n k hn hk j hj hj'
    have : y.added.length + k = j + (y.added.length + k - j) := by omega
    rw [this]; exact (CircBuffer.mod_ne (by omega) (by omega)).symm
  cases s with
  | addOne v hp hi hx => exact I.seeHead hp hi hx _ fun _ => (h1.val _ (List.mem_of_getElem? hx)).1
  | addMany vs hp hi hx => exact I.seeHead hp hi hx _ fun _ => (h1.val _ (List.mem_of_getElem? hx)).1
  | @roomOne v h x hp hn hx =>
    rw [a] at hx; cases hx
    rw [hp] at c
    have c : h = xh.count % m := c
    have hu : y.added.length + 1 ≠ xh.count + m := by
      intro q
      apply hn
      rw [lastTail_eq I, c, Nat.mod_add_mod, q, CircBuffer.mod_eq]
    exact I.logAdd (e := .add _ _ _ _) ⟨by omega, by omega, by omega⟩ a ⟨by simp; omega, lastTail_eq I, by simp, fun j hj => absurd hj (by omega)⟩
  | @fullOne v h x hp hn hx =>
    rw [a] at hx; cases hx
    rw [hp] at c
    have c : h = xh.count % m := c
    have hu : y.added.length + 1 = xh.count + m := by
      apply Decidable.byContradiction; intro q
      rw [lastTail_eq I, c, Nat.mod_add_mod] at hn
      have : y.added.length + 1 = xh.count + (y.added.length + 1 - xh.count) := by omega
      rw [this] at hn
      exact CircBuffer.mod_ne (by omega) (by omega) hn
    exact I.logAdd (e := .add _ _ _ _) ⟨by omega, by omega, by omega⟩ a trivial
  | @roomMany vs h n x hp hn hn0 hx =>
    rw [a] at hx; cases hx
    rw [hp] at c
    have c : h = xh.count % m := c
    have hu : used m h (lastTail y) = y.added.length - xh.count := by
      rw [lastTail_eq I, c, used_same]
      have : y.added.length = xh.count + (y.added.length - xh.count) := by omega
      conv => lhs; rw [this]
      exact CircBuffer.used_eq (by omega)
    rw [hu] at hn
    exact I.logAdd (e := .add _ _ _ _) ⟨by omega, by omega, by omega⟩ a ⟨by simp; omega, lastTail_eq I, by simp, fun j hj => absurd hj (by omega)⟩
  | @fullMany vs h n x hp hn hn0 hx =>
    rw [a] at hx; cases hx
    rw [hp] at c
    have c : h = xh.count % m := c
    have hu : used m h (lastTail y) = y.added.length - xh.count := by
      rw [lastTail_eq I, c, used_same]
      have : y.added.length = xh.count + (y.added.length - xh.count) := by omega
      conv => lhs; rw [this]
      exact CircBuffer.used_eq (by omega)
    rw [hu] at hn
    exact I.logAdd (e := .add _ _ _ _) ⟨by omega, by omega, by omega⟩ a trivial
  | @write bt k t hp hk =>
    rw [hp] at c
    obtain ⟨c1, c2, c3, c4⟩ := c
    have ne := hne _ k c1 hk
    refine ⟨h1, h2.weaken (Nat.le_succ _), ⟨xh, a, b, ⟨c1, c2, hk, ?_⟩, d⟩, ⟨xt, e, f, g, hs⟩, ?_, ?_, ?_, ?_, h9, ?_⟩
    · intro j hj
      have q : (y.added.length + j) % m ≠ t := by rw [c2]; exact ne _ (by omega) (by omega)
      show (put _ _ _ _).val = _
      rw [put, if_neg q]
      exact c4 j hj
    · intro t'
      show (put _ _ _ _).wStamp < y.pStep + 1
      unfold put; split
      · simp
      · have := h5 t'; omega
    · intro t'
      show (put _ _ _ _).rStamp < _
      unfold put; split
      · exact h6 t
      · exact h6 t'
    · intro j hj hj'
      show (put _ _ _ _).val = _ ∧ ∀ x ∈ _, _ → (put _ _ _ _).wStamp ≤ _
      have : j % m ≠ t := by rw [c2]; exact ne _ hj (Nat.lt_of_lt_of_le hj' (Nat.le_add_right _ _))
      rw [put, if_neg this]
      exact h7 j hj hj'
    · intro t'
      show (put _ _ _ _).rStamp ≠ 0 → (put _ _ _ _).rItem < _ ∧ (put _ _ _ _).rItem % m = _ ∧ ∀ x ∈ _, (put _ _ _ _).rItem < _ → (put _ _ _ _).rStamp ≤ _
      unfold put; split
      · next q => subst q; exact h8 t'
      · exact h8 t'
    · dsimp only
      split
      · next r =>
        refine log_snoc h10 ?_
        show _ = false
        apply Decidable.byContradiction; intro sy
        have sy : (o.storeHead && o.loadHead) = true := by simpa using sy
        obtain ⟨r1, r2, r3⟩ := h8 t (by omega)
        -- the item read there was released before the store the producer saw
        have : (y.items t).rItem < xh.count := by
          apply Decidable.byContradiction; intro lt
          have : y.added.length + k = (y.items t).rItem + (y.added.length + k - (y.items t).rItem) := by omega
          have q := CircBuffer.mod_ne (a := (y.items t).rItem) (d := y.added.length + k - (y.items t).rItem) (m := m) (by omega) (by omega)
          rw [← this, r2, c2] at q
          exact q rfl
        have := r3 xh (List.mem_of_getElem? a) this
        have := d sy
        omega
      · exact h10
  | @written bt k t hp =>
    rw [hp] at c
    obtain ⟨c1, c2, hk, c4⟩ := c
    have ne := hne _ k c1 hk
    refine ⟨h1, h2, ⟨xh, a, b, ⟨c1, ?_, hk, ?_⟩, d⟩, ⟨xt, e, f, g, hs⟩, ?_, ?_, ?_, ?_, h9, h10⟩
    · show (t + 1) % m = (y.added.length + (k + 1)) % m
      rw [c2, Nat.mod_add_mod, Nat.add_assoc]
    · intro j hj
      show (put _ _ _ _).val = _
      by_cases q : j = k
      · subst q; rw [put, if_pos c2.symm]
      · have q' : (y.added.length + j) % m ≠ t := by rw [c2]; exact ne _ (by omega) (by omega)
        rw [put, if_neg q']
        exact c4 j (by omega)
    · intro t'
      show (put _ _ _ _).wStamp < y.pStep
      unfold put; split
      · exact h5 t
      · exact h5 t'
    · intro t'
      show (put _ _ _ _).rStamp < _
      unfold put; split
      · exact h6 t
      · exact h6 t'
    · intro j hj hj'
      show (put _ _ _ _).val = _ ∧ ∀ x ∈ _, _ → (put _ _ _ _).wStamp ≤ _
      have : j % m ≠ t := by rw [c2]; exact ne _ hj (Nat.lt_of_lt_of_le hj' (Nat.le_add_right _ _))
      rw [put, if_neg this]
      exact h7 j hj hj'
    · intro t'
      show (put _ _ _ _).rStamp ≠ 0 → (put _ _ _ _).rItem < _ ∧ (put _ _ _ _).rItem % m = _ ∧ ∀ x ∈ _, (put _ _ _ _).rItem < _ → (put _ _ _ _).rStamp ≤ _
      unfold put; split
      · next q => subst q; exact h8 t'
      · exact h8 t'
  | @publish bt k t hp hk =>
    rw [hp] at c
    obtain ⟨c1, c2, _, c4⟩ := c
    subst hk
    have len : (y.added ++ bt).length = y.added.length + bt.length := List.length_append
    have st := h2.snoc (n := y.added.length + bt.length) (by omega)
    rw [← c2] at st
    have up : y.added.length ≤ (y.added ++ bt).length := by omega
    refine ⟨h1, by rw [len]; exact st, ⟨xh, a, by rw [len]; exact c1, trivial, d⟩, ⟨xt, ?_, f, g, hs⟩, ?_, h6, ?_, ?_, ?_, fun e he => Ev.ok_mono _ (h10 e he)⟩
    · rw [List.getElem?_append_left (List.getElem?_eq_some_iff.1 e).1]; exact e
    · intro t'; exact Nat.lt_succ_of_lt (h5 t')
    · intro j hj hj'
      rw [len] at hj'
      by_cases q : j < y.added.length
      · obtain ⟨v, w⟩ := h7 j hj q
        refine ⟨by rw [List.getElem?_append_left q]; exact v, ?_⟩
        intro x hx hlt
        rcases List.mem_append.1 hx with hx | hx
        · exact w x hx hlt
        · obtain rfl := List.mem_singleton.1 hx
          have := h5 (j % m); exact Nat.le_of_lt this
      · refine ⟨?_, ?_⟩
        · have := c4 (j - y.added.length) (by omega)
          rw [Nat.add_sub_cancel' (by omega)] at this
          rw [List.getElem?_append_right (by omega)]; exact this
        · intro x hx hlt
          rcases List.mem_append.1 hx with hx | hx
          · have := (h2.val x hx).2.1; omega
          · obtain rfl := List.mem_singleton.1 hx
            have := h5 (j % m); exact Nat.le_of_lt this
    · intro t' ht
      obtain ⟨r1, r2, r3⟩ := h8 t' ht
      exact ⟨Nat.lt_of_lt_of_le r1 up, r2, r3⟩
    · intro l hl
      obtain ⟨p1, p2, p3, x, p4, p5⟩ := h9 l hl
      exact ⟨p1, p2, p3, x, List.mem_append_left _ p4, p5⟩
  | getHead hc =>
    exact ⟨h1, h2, ⟨xh, a, b, c, d⟩, ⟨xt, e, f, lastHead_eq I, hs⟩, h5, h6, h7, h8, h9, h10⟩
  | @getTail h i x hc hi hx =>
    rw [hc] at g
    have g : h = y.released % m := g
    have mo := h2.mono _ _ _ _ hi e hx
    have hv := h2.val x (List.mem_of_getElem? hx)
    have hu : used m h x.value = x.count - y.released := by
      rw [g, hv.1, used_same]
      have : x.count = y.released + (x.count - y.released) := by omega
      conv => lhs; rw [this]
      exact CircBuffer.used_eq (by omega)
    rw [hu]
    refine ⟨h1, h2, ⟨xh, a, b, c, d⟩, ⟨x, hx, ?_, ⟨g, ?_⟩, ?_⟩, h5, h6, h7, h8, h9, log_snoc h10 ⟨rfl, by omega⟩⟩
    · show y.released ≤ _; omega
    · show y.released + _ ≤ _; omega
    · show x.stamp ≤ (if _ then _ else _)
      rw [if_pos pub]; exact Nat.le_max_right _ _
  | @look s n j hc hj =>
    rw [hc] at g
    obtain ⟨g1, g2⟩ := g
    refine ⟨h1.weaken (Nat.le_succ _), h2, ⟨xh, a, b, c, d⟩, ⟨xt, e, f, (by show PcC _ _ _ y.c; rw [hc]; exact ⟨g1, g2⟩), hs⟩, h5, ?_, h7, h8, ?_, h10⟩
    · intro t; exact Nat.lt_succ_of_lt (h6 t)
    · intro l hl
      rcases List.mem_append.1 hl with hl | hl
      · obtain ⟨p1, p2, p3, p4⟩ := h9 l hl
        exact ⟨p1, p2, Nat.lt_succ_of_lt p3, p4⟩
      · obtain rfl := List.mem_singleton.1 hl
        exact ⟨Nat.le_add_right _ _, by show (s + j) % m = (y.released + j) % m; rw [g1, Nat.mod_add_mod], Nat.lt_succ_self _, xt, List.mem_of_getElem? e, by show y.released + j < _; omega, hs⟩
  | @read l hl =>
    obtain ⟨p1, p2, p3, x, p4, p5, p6⟩ := h9 l hl
    have hx := (h2.val x p4).2.1
    obtain ⟨v, w⟩ := h7 l.item p1 (by omega)
    rw [← p2] at v w
    have nr : ¬ l.seen < (y.items l.slot).wStamp := by have := w x p4 p5; omega
    have pv : ∀ t, (put y.items l.slot { y.items l.slot with rStamp := max (y.items l.slot).rStamp l.step, rItem := l.item } t).val = (y.items t).val ∧
        (put y.items l.slot { y.items l.slot with rStamp := max (y.items l.slot).rStamp l.step, rItem := l.item } t).wStamp = (y.items t).wStamp := by
      intro t; unfold put; split
      · next q => subst q; exact ⟨rfl, rfl⟩
      · exact ⟨rfl, rfl⟩
    refine ⟨h1, h2, ⟨xh, a, b, ?_, d⟩, ⟨xt, e, f, ?_, hs⟩, ?_, ?_, ?_, ?_, ?_, ?_⟩
    · show PcP _ _ _ y.p
      cases hp : y.p with
      | idle => trivial
      | one => rw [hp] at c; exact c
      | many => rw [hp] at c; exact c
      | loop bt k t => rw [hp] at c; exact ⟨c.1, c.2.1, c.2.2.1, fun j hj => by rw [(pv _).1]; exact c.2.2.2 j hj⟩
      | torn bt k t => rw [hp] at c; exact ⟨c.1, c.2.1, c.2.2.1, fun j hj => by rw [(pv _).1]; exact c.2.2.2 j hj⟩
    · show PcC _ _ _ y.c
      cases hc : y.c with
      | idle => trivial
      | gotHead => rw [hc] at g; exact g
      | opened => rw [hc] at g; exact g
    · intro t; rw [(pv t).2]; exact h5 t
    · intro t
      show (put _ _ _ _).rStamp < _
      unfold put; split
      · have := h6 l.slot; exact Nat.max_lt.2 ⟨this, p3⟩
      · exact h6 t
    · intro k hk hk'
      rw [(pv _).1, (pv _).2]; exact h7 k hk hk'
    · intro t
      show (put _ _ _ _).rStamp ≠ 0 → (put _ _ _ _).rItem < _ ∧ (put _ _ _ _).rItem % m = _ ∧ ∀ x ∈ _, (put _ _ _ _).rItem < _ → (put _ _ _ _).rStamp ≤ _
      unfold put; split
      · next q =>
        subst q
        intro _
        refine ⟨by show l.item < y.added.length; omega, p2.symm, ?_⟩
        intro z hz hlt
        have := (h1.val z hz).2.1
        have hlt : l.item < z.count := hlt
        omega
      · exact h8 t
    · intro l' hl'
      exact h9 l' (List.mem_of_mem_erase hl')
    · rw [if_neg nr]
      obtain ⟨u, hu⟩ : ∃ u, y.added[l.item]? = some u := ⟨_, List.getElem?_eq_getElem (by omega)⟩
      exact log_snoc h10 ⟨u, hu, by rw [v, hu]⟩
  | forget hc =>
    exact ⟨h1, h2, ⟨xh, a, b, c, d⟩, ⟨xt, e, f, trivial, hs⟩, h5, h6, h7, h8, h9, h10⟩
  | @release s n hc hw =>
    rw [hc] at g
    obtain ⟨g1, g2⟩ := g
    have hw : y.pending = [] := by
      rcases hw with hw | hw
      · rw [keeps] at hw; cases hw
      · exact hw
    have st := h1.snoc (n := y.released + n) (by omega)
    rw [show (y.released + n) % m = (s + n) % m by rw [g1, Nat.mod_add_mod]] at st
    refine ⟨st, h2, ⟨xh, ?_, b, c, d⟩, ⟨xt, e, g2, trivial, hs⟩, h5, ?_, ?_, ?_, ?_, h10⟩
    · rw [List.getElem?_append_left (List.getElem?_eq_some_iff.1 a).1]; exact a
    · intro t; exact Nat.lt_succ_of_lt (h6 t)
    · intro k hk hk'
      exact h7 k (by have hk : y.released + n ≤ k := hk; omega) hk'
    · intro t ht
      obtain ⟨r1, r2, r3⟩ := h8 t ht
      refine ⟨r1, r2, ?_⟩
      intro x hx hlt
      rcases List.mem_append.1 hx with hx | hx
      · exact r3 x hx hlt
      · obtain rfl := List.mem_singleton.1 hx
        exact Nat.le_of_lt (h6 t)
    · intro l hl
      have hl : l ∈ y.pending := hl
      rw [hw] at hl; simp at hl

theorem reach_inv {o : Orders} (keeps : (o.storeHead || o.inOrder) = true) (pub : (o.storeTail && o.loadTail) = true) {m : Nat} (hm : 0 < m) {y : Sys} (h : Reach o m y) : Inv o m y := by
  induction h with
  | init => exact inv_init o hm
  | step _ s ih => exact ih.step keeps pub hm s

/-! ## The theorems -/

/-- **C125.** With the memory orders of the file, on a machine that carries out loads before the stores that follow them, whatever older stores the loads of `head` and `tail` see:
* never more than `m - 1` items are added and not released;
* every item the consumer looks at is the one added as number `released + j`, completely written, and its being written happens before its being read: no read of an item races;
* an add reports `min req (m - 1 - used)` where `used` is what was added and not released as far as the producer saw, which is not less than there really was; an enumerable covers what the
consumer saw, which is not more than there was. -/
theorem C125_publication_partial (m : Nat) (hm : 0 < m) (y : Sys) (h : Reach (code true) m y) :
    y.released ≤ y.added.length ∧ y.added.length ≤ y.released + (m - 1) ∧
    (∀ e ∈ y.log, match e with
      | .add req got used now => now ≤ used ∧ used ≤ m - 1 ∧ got = min req (m - 1 - used)
      | .opened count avail now => count = avail ∧ avail ≤ now
      | .visit k x => ∃ v, y.added[k]? = some v ∧ x = some v
      | .readRace => False
      | .writeRace => True) := by
  have I := reach_inv rfl rfl hm h
  obtain ⟨x, a, b, _⟩ := I.seenHead
  have := (I.heads.val x (List.mem_of_getElem? a)).2.1
  refine ⟨I.le, by omega, ?_⟩
  intro e he
  have := I.log e he
  cases e <;> first | exact this | trivial

/-- **C125**, the missing part, with the orders it takes: if the store of `head` were a release and the loads of it acquires, the same would hold on every machine, and nothing would race. -/
theorem C125_with_release (inOrder : Bool) (m : Nat) (hm : 0 < m) (y : Sys) (h : Reach ⟨true, true, true, true, inOrder⟩ m y) :
    y.released ≤ y.added.length ∧ y.added.length ≤ y.released + (m - 1) ∧
    (∀ e ∈ y.log, match e with
      | .add req got used now => now ≤ used ∧ used ≤ m - 1 ∧ got = min req (m - 1 - used)
      | .opened count avail now => count = avail ∧ avail ≤ now
      | .visit k x => ∃ v, y.added[k]? = some v ∧ x = some v
      | .readRace => False
      | .writeRace => False) := by
  have I := reach_inv (by simp) rfl hm h
  obtain ⟨x, a, b, _⟩ := I.seenHead
  have := (I.heads.val x (List.mem_of_getElem? a)).2.1
  refine ⟨I.le, by omega, ?_⟩
  intro e he
  have := I.log e he
  cases e <;> first | exact this | exact absurd this (by simp [Ev.ok])

/-- With the orders of the file the producer never knows of anything the consumer did. -/
theorem C125_nothing_known (inOrder : Bool) (m : Nat) (y : Sys) (h : Reach (code inOrder) m y) : y.pSeen = 0 := by
  induction h with
  | init => rfl
  | step _ s ih => cases s <;> first | exact ih | (simp only [seeHead, seeTail, code]; simpa using ih)

/-- So every writing of an item to a slot the consumer has looked at is a data race. -/
theorem C125_reuse_races (inOrder : Bool) (m : Nat) (y y' : Sys) (h : Reach (code inOrder) m y) (s : Step (code inOrder) m y y') (t : Nat)
    (hr : (y.items t).rStamp ≠ 0) (hw : (y.items t).wStamp ≠ (y'.items t).wStamp) : .writeRace ∈ y'.log := by
  have k := C125_nothing_known inOrder m y h
  cases s with
  | @write b k t' hp hk =>
    have e : t = t' := by
      apply Decidable.byContradiction; intro q
      exact hw (by show _ = (put _ _ _ _).wStamp; rw [put, if_neg q])
    subst e
    show _ ∈ (if _ then _ else _)
    rw [if_pos (by omega)]
    simp
  | @written b k t' hp =>
    exact absurd (by show _ = (put _ _ _ _).wStamp; unfold put; split <;> simp_all) hw
  | @read l hl =>
    exact absurd (by show _ = (put _ _ _ _).wStamp; unfold put; split <;> simp_all) hw
  | _ => exact absurd rfl hw

/-- A buffer of size 2: an item is added, looked at and released, then a second; the third takes the slot of the first. -/
theorem C125_race_refuted (inOrder : Bool) : ∃ y, Reach (code inOrder) 2 y ∧ .writeRace ∈ y.log := by
  have r : Reach (code inOrder) 2 init := .init
  cases inOrder
  all_goals
    have r := r.step (.addOne (i := 0) (x := ⟨0, 0, 0⟩) 7 rfl (Nat.le_refl _) rfl)
    have r := r.step (.roomOne rfl (by decide) rfl)
    have r := r.step (.write rfl (by decide))
    have r := r.step (.written rfl)
    have r := r.step (.publish rfl rfl)
    have r := r.step (.getHead rfl)
    have r := r.step (.getTail (i := 1) rfl (by decide) rfl)
    have r := r.step (.look 0 rfl (by decide))
    have r := r.step (.read (List.mem_singleton.2 rfl))
    have r := r.step (.release rfl (.inr rfl))
    have r := r.step (.addOne (i := 1) 8 rfl (by decide) rfl)
    have r := r.step (.roomOne rfl (by decide) rfl)
    have r := r.step (.write rfl (by decide))
    have r := r.step (.written rfl)
    have r := r.step (.publish rfl rfl)
    have r := r.step (.getHead rfl)
    have r := r.step (.getTail (i := 2) rfl (by decide) rfl)
    have r := r.step (.release rfl (.inr rfl))
    have r := r.step (.addOne (i := 2) 9 rfl (by decide) rfl)
    have r := r.step (.roomOne rfl (by decide) rfl)
    have r := r.step (.write rfl (by decide))
    exact ⟨_, r, by decide⟩

/-- On a machine that may carry out the reading of an item after the store that releases it, the consumer sees the third item where it looks at the first. -/
theorem C125_late_read_refuted : ∃ y, Reach (code false) 2 y ∧ y.added = [7, 8, 9] ∧ Ev.visit 0 (some 9) ∈ y.log := by
  have r : Reach (code false) 2 _ := .init
  have r := r.step (.addOne (i := 0) (x := ⟨0, 0, 0⟩) 7 rfl (Nat.le_refl _) rfl)
  have r := r.step (.roomOne rfl (by decide) rfl)
  have r := r.step (.write rfl (by decide))
  have r := r.step (.written rfl)
  have r := r.step (.publish rfl rfl)
  have r := r.step (.getHead rfl)
  have r := r.step (.getTail (i := 1) rfl (by decide) rfl)
  have r := r.step (.look 0 rfl (by decide))
  have r := r.step (.release rfl (.inl rfl))
  have r := r.step (.addOne (i := 1) 8 rfl (by decide) rfl)
  have r := r.step (.roomOne rfl (by decide) rfl)
  have r := r.step (.write rfl (by decide))
  have r := r.step (.written rfl)
  have r := r.step (.publish rfl rfl)
  have r := r.step (.getHead rfl)
  have r := r.step (.getTail (i := 2) rfl (by decide) rfl)
  have r := r.step (.release rfl (.inl rfl))
  have r := r.step (.addOne (i := 2) 9 rfl (by decide) rfl)
  have r := r.step (.roomOne rfl (by decide) rfl)
  have r := r.step (.write rfl (by decide))
  have r := r.step (.written rfl)
  have r := r.step (.publish rfl rfl)
  have r := r.step (.read (List.mem_singleton.2 rfl))
  exact ⟨_, r, rfl, by decide⟩

/-- The orders of `tail` are needed: were its stores or its loads relaxed, the consumer's reading of an item would race with its being written. -/
theorem C125_tail_orders_needed (o : Orders) (ho : (o.storeTail && o.loadTail) = false) : ∃ y, Reach o 2 y ∧ .readRace ∈ y.log := by
  have r : Reach o 2 init := .init
  obtain ⟨a, b, c, d, e⟩ := o
  have : (c = false) ∨ (c = true ∧ d = false) := by cases c <;> simp_all
  rcases this with rfl | ⟨rfl, rfl⟩
  · cases d <;> cases a <;> cases b <;> cases e
    all_goals
      have r := r.step (.addOne (i := 0) (x := ⟨0, 0, 0⟩) 7 rfl (Nat.le_refl _) rfl)
      have r := r.step (.roomOne rfl (by decide) rfl)
      have r := r.step (.write rfl (by decide))
      have r := r.step (.written rfl)
      have r := r.step (.publish rfl rfl)
      have r := r.step (.getHead rfl)
      have r := r.step (.getTail (i := 1) rfl (by decide) rfl)
      have r := r.step (.look 0 rfl (by decide))
      have r := r.step (.read (List.mem_singleton.2 rfl))
      exact ⟨_, r, by decide⟩
  · cases a <;> cases b <;> cases e
    all_goals
      have r := r.step (.addOne (i := 0) (x := ⟨0, 0, 0⟩) 7 rfl (Nat.le_refl _) rfl)
      have r := r.step (.roomOne rfl (by decide) rfl)
      have r := r.step (.write rfl (by decide))
      have r := r.step (.written rfl)
      have r := r.step (.publish rfl rfl)
      have r := r.step (.getHead rfl)
      have r := r.step (.getTail (i := 1) rfl (by decide) rfl)
      have r := r.step (.look 0 rfl (by decide))
      have r := r.step (.read (List.mem_singleton.2 rfl))
      exact ⟨_, r, by decide⟩

/-- A state the first two theorems are about: an item has been added, looked at and released. -/
example : (∃ y, Reach (code true) 2 y ∧ y.released = 1 ∧ Ev.visit 0 (some 7) ∈ y.log) ∧
    ∃ y, Reach ⟨true, true, true, true, false⟩ 2 y ∧ y.released = 1 ∧ Ev.visit 0 (some 7) ∈ y.log := by
  constructor
  all_goals
    refine ⟨_, .step (.step (.step (.step (.step (.step (.step (.step (.step (.step .init (.addOne (i := 0) (x := ⟨0, 0, 0⟩) 7 rfl (Nat.le_refl _) rfl))
      (.roomOne rfl (by decide) rfl)) (.write rfl (by decide))) (.written rfl)) (.publish rfl rfl)) (.getHead rfl)) (.getTail (i := 1) rfl (by decide) rfl))
      (.look 0 rfl (by decide))) (.read (List.mem_singleton.2 rfl))) (.release rfl (.inr rfl)), rfl, by decide⟩

#print axioms C125_publication_partial
#print axioms C125_with_release
#print axioms C125_nothing_known
#print axioms C125_reuse_races
#print axioms C125_race_refuted
#print axioms C125_late_read_refuted
#print axioms C125_tail_orders_needed

end Verif.CircWeak
