import Verif.CircBuffer
/-!
# C16: the concurrent circular buffer is a FIFO for one producer and one consumer
-/
namespace Verif.CircBuffer

/-- What C16 says about a recorded event. -/
def Ev.ok (m : Nat) (added : List Nat) : Ev → Prop
  | .add req got used => used ≤ m - 1 ∧ got = min req (m - 1 - used)
  | .opened count avail => count = avail
  | .visit k x => ∃ v, added[k]? = some v ∧ x = some v

theorem Ev.ok_mono {m : Nat} {l : List Nat} (b : List Nat) {e : Ev} (h : e.ok m l) : e.ok m (l ++ b) := by
  cases e with
  | add => exact h
  | opened => exact h
  | visit k x =>
    obtain ⟨v, h1, h2⟩ := h
    exact ⟨v, by rw [List.getElem?_append_left (List.getElem?_eq_some_iff.1 h1).1]; exact h1, h2⟩

theorem add_mod_cases {a d m : Nat} (hd : d ≤ m) (hm : 0 < m) : (a + d) % m = if a % m + d < m then a % m + d else a % m + d - m := by
  have h := Nat.mod_lt a hm
  have e : (a + d) % m = (a % m + d) % m := by rw [Nat.mod_add_mod]
  rw [e]
  split
  · next c => exact Nat.mod_eq_of_lt c
  · next c =>
    rw [Nat.mod_eq_sub_mod (by omega)]
    exact Nat.mod_eq_of_lt (by omega)

theorem used_eq {m a d : Nat} (hd : d < m) : used m (a % m) ((a + d) % m) = d := by
  have h := Nat.mod_lt a (show 0 < m by omega)
  unfold used
  rw [add_mod_cases (by omega) (by omega)]
  by_cases c : a % m + d < m
  · rw [if_pos c, if_pos (by omega)]; omega
  · rw [if_neg c, if_neg (by omega)]; omega

theorem mod_ne {m a d : Nat} (h0 : 0 < d) (hd : d < m) : (a + d) % m ≠ a % m := by
  have h := Nat.mod_lt a (show 0 < m by omega)
  rw [add_mod_cases (by omega) (by omega)]
  split <;> omega

theorem mod_eq {m a : Nat} : (a + m) % m = a % m := by simp

/-- The producer is in a legitimate state. -/
def PcP (m : Nat) (y : Sys) : P → Prop
  | .idle => True
  | .one _ h u | .many _ h u => ∃ H, H ≤ y.released ∧ h = H % m ∧ u = y.added.length - H ∧ u < m ∧ H ≤ y.added.length
  | .loop b k t | .torn b k t => y.added.length + b.length < y.released + m ∧ t = (y.added.length + k) % m ∧ k ≤ b.length ∧
      (∀ j, j < k → y.items[(y.added.length + j) % m]? = some b[j]?)

/-- The consumer is in a legitimate state. -/
def PcC (y : Sys) : C → Prop
  | .idle => True
  | .gotHead h => h = y.head
  | .opened s n => s = y.head ∧ y.released + n ≤ y.added.length

structure Inv (m : Nat) (y : Sys) : Prop where
  head : y.head = y.released % m
  tail : y.tail = y.added.length % m
  len : y.items.length = m
  le : y.released ≤ y.added.length
  room : y.added.length < y.released + m
  content : ∀ k, y.released ≤ k → k < y.added.length → y.items[k % m]? = some y.added[k]?
  p : PcP m y y.p
  tornOk : ∀ b k t, y.p = .torn b k t → k < b.length
  c : PcC y y.c
  log : ∀ e ∈ y.log, e.ok m y.added

theorem log_snoc {m : Nat} {a : List Nat} {l : List Ev} {e : Ev} (h : ∀ e ∈ l, e.ok m a) (he : e.ok m a) : ∀ x ∈ l ++ [e], x.ok m a := by
  intro x hx
  rcases List.mem_append.1 hx with hx | hx
  · exact h x hx
  · obtain rfl := List.mem_singleton.1 hx; exact he

theorem Inv.step {m : Nat} (hm : 0 < m) {y y' : Sys} (I : Inv m y) (s : Step m y y') : Inv m y' := by
  have ⟨hh, ht, hl, hle, hroom, hcon, hp, htorn, hc, hlog⟩ := I
  cases s with
  | addOne v hpc =>
    exact ⟨hh, ht, hl, hle, hroom, hcon, ⟨y.released, Nat.le_refl _, hh, rfl, by omega, hle⟩, (fun _ _ _ h => by simp at h), hc, hlog⟩
  | addMany v hpc =>
    exact ⟨hh, ht, hl, hle, hroom, hcon, ⟨y.released, Nat.le_refl _, hh, rfl, by omega, hle⟩, (fun _ _ _ h => by simp at h), hc, hlog⟩
  | @roomOne v h u hpc hn =>
    rw [hpc] at hp
    obtain ⟨H, h1, h2, h3, h4, h5⟩ := hp
    have hu : u ≠ m - 1 := by
      intro e
      apply hn
      rw [ht, h2, Nat.mod_add_mod]
      have : y.added.length + 1 = H + m := by omega
      rw [this, mod_eq]
    exact ⟨hh, ht, hl, hle, hroom, hcon, ⟨by simp; omega, ht, by simp, fun j hj => absurd hj (by omega)⟩, (fun _ _ _ h => by simp at h), hc,
      log_snoc hlog ⟨by omega, by omega⟩⟩
  | @fullOne v h u hpc hn =>
    rw [hpc] at hp
    obtain ⟨H, h1, h2, h3, h4, h5⟩ := hp
    have hu : u = m - 1 := by
      apply Decidable.byContradiction; intro e
      rw [ht, h2, Nat.mod_add_mod] at hn
      have : y.added.length + 1 = H + (u + 1) := by omega
      rw [this] at hn
      exact mod_ne (by omega) (by omega) hn
    exact ⟨hh, ht, hl, hle, hroom, hcon, trivial, (fun _ _ _ h => by simp at h), hc, log_snoc hlog ⟨by omega, by omega⟩⟩
  | @roomMany vs h u n hpc hn hn0 =>
    rw [hpc] at hp
    obtain ⟨H, h1, h2, h3, h4, h5⟩ := hp
    have hu : used m h y.tail = u := by
      rw [ht, h2]
      have : y.added.length = H + u := by omega
      rw [this]; exact used_eq h4
    rw [hu] at hn
    exact ⟨hh, ht, hl, hle, hroom, hcon, ⟨by simp; omega, ht, by simp, fun j hj => absurd hj (by omega)⟩, (fun _ _ _ h => by simp at h), hc,
      log_snoc hlog ⟨by omega, by omega⟩⟩
  | @fullMany vs h u n hpc hn hn0 =>
    rw [hpc] at hp
    obtain ⟨H, h1, h2, h3, h4, h5⟩ := hp
    have hu : used m h y.tail = u := by
      rw [ht, h2]
      have : y.added.length = H + u := by omega
      rw [this]; exact used_eq h4
    rw [hu] at hn
    exact ⟨hh, ht, hl, hle, hroom, hcon, trivial, (fun _ _ _ h => by simp at h), hc, log_snoc hlog ⟨by omega, by omega⟩⟩
  | @write b k t hpc hk =>
    rw [hpc] at hp
    obtain ⟨h1, h2, h3, h4⟩ := hp
    have hne : ∀ j, y.released ≤ j → j < y.added.length + k → t ≠ j % m := by
      intro j hj hj'
      rw [h2]
      have : y.added.length + k = j + (y.added.length + k - j) := by omega
      rw [this]; exact mod_ne (by omega) (by omega)
    refine ⟨hh, ht, by simp [hl], hle, hroom, ?_, ⟨h1, h2, h3, ?_⟩, ?_, hc, hlog⟩
    · intro j hj hj'
      dsimp only at hj hj' ⊢
      rw [List.getElem?_set_ne (hne j hj (by omega))]; exact hcon j hj hj'
    · intro j hj
      dsimp only
      rw [List.getElem?_set_ne (hne _ (by omega) (by omega))]; exact h4 j hj
    · intro b' k' t' e
      cases e; exact hk
  | @written b k t hpc =>
    have hk := htorn b k t hpc
    rw [hpc] at hp
    obtain ⟨h1, h2, h3, h4⟩ := hp
    have hne : ∀ j, y.released ≤ j → j < y.added.length + k → t ≠ j % m := by
      intro j hj hj'
      rw [h2]
      have : y.added.length + k = j + (y.added.length + k - j) := by omega
      rw [this]; exact mod_ne (by omega) (by omega)
    refine ⟨hh, ht, by simp [hl], hle, hroom, ?_, ⟨h1, ?_, hk, ?_⟩, (fun _ _ _ h => by simp at h), hc, hlog⟩
    · intro j hj hj'
      dsimp only at hj hj' ⊢
      rw [List.getElem?_set_ne (hne j hj (by omega))]; exact hcon j hj hj'
    · rw [h2, Nat.mod_add_mod]; rfl
    · intro j hj
      dsimp only
      by_cases e : j = k
      · subst e
        rw [← h2, List.getElem?_set_self (by rw [hl, h2]; exact Nat.mod_lt _ hm)]
      · rw [List.getElem?_set_ne (hne _ (by omega) (by omega))]; exact h4 j (by omega)
  | @publish b k t hpc hk =>
    rw [hpc] at hp
    obtain ⟨h1, h2, h3, h4⟩ := hp
    subst hk
    refine ⟨hh, by simp [h2], hl, by simp; omega, by simp; omega, ?_, trivial, (fun _ _ _ h => by simp at h), ?_, fun e he => Ev.ok_mono b (hlog e he)⟩
    · intro j hj hj'
      dsimp only
      by_cases c : j < y.added.length
      · rw [hcon j hj c, List.getElem?_append_left c]
      · simp at hj'
        have := h4 (j - y.added.length) (by omega)
        rw [show y.added.length + (j - y.added.length) = j by omega] at this
        rw [this, List.getElem?_append_right (by omega)]
    · dsimp only
      cases hcc : y.c with
      | idle => trivial
      | gotHead h => rw [hcc] at hc; exact hc
      | opened s n => rw [hcc] at hc; exact ⟨hc.1, by have := hc.2; simp; omega⟩
  | getHead hcc => exact ⟨hh, ht, hl, hle, hroom, hcon, hp, htorn, rfl, hlog⟩
  | @getTail h hcc =>
    rw [hcc] at hc
    have hu : used m h y.tail = y.added.length - y.released := by
      rw [ht, show h = y.released % m from hc.trans hh]
      have : y.added.length = y.released + (y.added.length - y.released) := by omega
      rw [this, used_eq (by omega)]; omega
    exact ⟨hh, ht, hl, hle, hroom, hcon, hp, htorn, ⟨hc, by rw [hu]; dsimp only; omega⟩, log_snoc hlog hu⟩
  | @visit s n j hcc hj =>
    have hc' := hc
    rw [hcc] at hc'
    obtain ⟨c1, c2⟩ := hc'
    have hit : y.items[(s + j) % m]? = some y.added[y.released + j]? := by
      rw [c1, hh, Nat.mod_add_mod]
      exact hcon _ (by omega) (by omega)
    refine ⟨hh, ht, hl, hle, hroom, hcon, hp, htorn, hc, log_snoc hlog ?_⟩
    obtain ⟨v, hv⟩ : ∃ v, y.added[y.released + j]? = some v := ⟨_, List.getElem?_eq_getElem (by omega)⟩
    exact ⟨v, hv, by rw [hit, hv]; rfl⟩
  | forget hcc => exact ⟨hh, ht, hl, hle, hroom, hcon, hp, htorn, trivial, hlog⟩
  | @release s n hcc =>
    rw [hcc] at hc
    obtain ⟨c1, c2⟩ := hc
    refine ⟨?_, ht, hl, c2, by dsimp only; omega, fun k h1 h2 => hcon k (by dsimp only at h1; omega) h2, ?_, htorn, trivial, hlog⟩
    · rw [c1, hh, Nat.mod_add_mod]
    · dsimp only
      cases hpc : y.p with
      | idle => trivial
      | one v h u => rw [hpc] at hp; obtain ⟨H, a, b⟩ := hp; exact ⟨H, by dsimp only; omega, b⟩
      | many v h u => rw [hpc] at hp; obtain ⟨H, a, b⟩ := hp; exact ⟨H, by dsimp only; omega, b⟩
      | loop b k t => rw [hpc] at hp; exact ⟨by dsimp only; have := hp.1; omega, hp.2⟩
      | torn b k t => rw [hpc] at hp; exact ⟨by dsimp only; have := hp.1; omega, hp.2⟩

theorem inv_init {m : Nat} (hm : 0 < m) : Inv m (init m) := by
  refine ⟨by simp [init], by simp [init], by simp [init], Nat.le_refl _, by simp [init, hm], fun k h1 h2 => absurd h2 (by simp [init]), trivial,
    (fun _ _ _ h => by simp [init] at h), trivial, (fun e h => by simp [init] at h)⟩

theorem Reach.inv {m : Nat} (hm : 0 < m) {y : Sys} (h : Reach m y) : Inv m y := by
  induction h with
  | init => exact inv_init hm
  | step _ s ih => exact ih.step hm s

/-- **C16.** For every size `m` and every interleaving of the producer and the consumer:
* never more than `m - 1` items are added and not released;
* an add of `req` items reports `min req (m - 1 - used)` where `used` was the number of items added and not released when it looked: in particular a single add fails only if there were `m - 1`;
* an enumerable covers exactly the items added and not released when it was made;
* looking at the item at offset `j` of an enumerable shows, completely written, the item that is number `released + j` in the order of adding: as releasing an enumerable of `n` items makes `released` grow by `n`, items come out in order,
none is lost, repeated or overwritten before its release;
* the producer writes only slots of the array. -/
theorem C16_circular_fifo (m : Nat) (hm : 0 < m) (y : Sys) (h : Reach m y) :
    y.released ≤ y.added.length ∧ y.added.length ≤ y.released + (m - 1) ∧
    (∀ e ∈ y.log, match e with
      | .add req got used => used ≤ m - 1 ∧ got = min req (m - 1 - used)
      | .opened count avail => count = avail
      | .visit k x => ∃ v, y.added[k]? = some v ∧ x = some v) ∧
    (∀ b k t, y.p = .torn b k t → t < y.items.length) := by
  have I := h.inv hm
  refine ⟨I.le, by have := I.room; omega, fun e he => ?_, ?_⟩
  · have := I.log e he
    cases e <;> exact this
  · intro b k t hp
    have := I.p
    rw [hp] at this
    rw [this.2.1, I.len]
    exact Nat.mod_lt _ hm

/-- Non-vacuity: a buffer of three slots; two of three items are added, a further add fails, one read, and the ring wraps. -/
example : ∃ y, Reach 3 y ∧ y.added = [7, 8, 9] ∧ y.released = 2 ∧
    y.log = [.add 3 2 0, .opened 2 2, .add 1 0 2, .visit 1 (some 8), .add 1 1 0, .opened 1 1, .visit 2 (some 9)] := by
  have h := Reach.init (m := 3)
  have h := h.step (Step.addMany [7, 8, 9] rfl)
  have h := h.step (Step.roomMany (n := 2) rfl rfl (by decide))
  have h := h.step (Step.write rfl (by decide))
  have h := h.step (Step.written rfl)
  have h := h.step (Step.getHead rfl)
  have h := h.step (Step.write rfl (by decide))
  have h := h.step (Step.written rfl)
  have h := h.step (Step.publish rfl rfl)
  have h := h.step (Step.getTail rfl)
  have h := h.step (Step.addOne 9 rfl)
  have h := h.step (Step.fullOne rfl rfl)
  have h := h.step (Step.visit 1 rfl (by decide))
  have h := h.step (Step.release rfl)
  have h := h.step (Step.addOne 9 rfl)
  have h := h.step (Step.roomOne rfl (by decide))
  have h := h.step (Step.write rfl (by decide))
  have h := h.step (Step.written rfl)
  have h := h.step (Step.publish rfl rfl)
  have h := h.step (Step.getHead rfl)
  have h := h.step (Step.getTail rfl)
  have h := h.step (Step.visit 0 rfl (by decide))
  exact ⟨_, h, rfl, rfl, rfl⟩

#print axioms C16_circular_fifo
end Verif.CircBuffer
