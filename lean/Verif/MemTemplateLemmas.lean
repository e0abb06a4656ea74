import Verif.MemTemplate
import Verif.MemTemplateSpec
import Verif.DataLemmas
/-!
# Lemmas about wrapping memory accesses
-/
namespace Verif.MemTemplate
open Verif.Data Spec

/-- Storing `g i` at `f i` for the `left` numbers from `loop` on. -/
def pour (f : Nat → Nat) (g : Nat → Cell) : (left loop : Nat) → List Cell → List Cell
  | 0, _, l => l
  | left + 1, loop, l => pour f g left (loop + 1) (l.set (f loop) (g loop))

theorem pour_length (f : Nat → Nat) (g : Nat → Cell) (left loop : Nat) (l : List Cell) : (pour f g left loop l).length = l.length := by
  induction left generalizing loop l with
  | zero => rfl
  | succ n ih => rw [pour, ih, List.length_set]

theorem pour_other (f : Nat → Nat) (g : Nat → Cell) (left loop : Nat) (l : List Cell) (j : Nat)
    (h : ∀ i, loop ≤ i → i < loop + left → f i ≠ j) : (pour f g left loop l)[j]? = l[j]? := by
  induction left generalizing loop l with
  | zero => rfl
  | succ n ih =>
    rw [pour, ih _ _ (fun i h1 h2 => h i (by omega) (by omega)), List.getElem?_set_ne (h loop (by omega) (by omega))]

theorem pour_last (f : Nat → Nat) (g : Nat → Cell) (left loop : Nat) (l : List Cell) (i : Nat) (h1 : loop ≤ i) (h2 : i < loop + left)
    (hl : f i < l.length) (hlast : ∀ k, i < k → k < loop + left → f k ≠ f i) : (pour f g left loop l)[f i]? = some (g i) := by
  induction left generalizing loop l with
  | zero => omega
  | succ n ih =>
    rw [pour]
    by_cases he : i = loop
    · subst he
      rw [pour_other _ _ _ _ _ _ (fun k h3 h4 => hlast k (by omega) (by omega)), List.getElem?_set_self hl]
    · exact ih _ _ (by omega) (by omega) (by rw [List.length_set]; exact hl) (fun k h3 h4 => hlast k h3 (by omega))

theorem pour_congr (f f' : Nat → Nat) (g g' : Nat → Cell) (left loop : Nat) (l : List Cell)
    (h : ∀ i, loop ≤ i → i < loop + left → f i = f' i ∧ g i = g' i) : pour f g left loop l = pour f' g' left loop l := by
  induction left generalizing loop l with
  | zero => rfl
  | succ n ih =>
    rw [pour, pour, (h loop (by omega) (by omega)).1, (h loop (by omega) (by omega)).2, ih _ _ (fun i h1 h2 => h i (by omega) (by omega))]

theorem readLoop_eq (ix : Nat → Nat) (mem : List Cell) (size off : Nat) (hs : 0 < size) (hm : size ≤ mem.length) (left loop : Nat) (buf : List Cell)
    (hw : off + loop + left ≤ word) (hb : ∀ i, loop ≤ i → i < loop + left → ix i < buf.length) :
    readLoop ix mem size off left loop buf = some (pour ix (fun i => mem.getD ((off + i) % size) none) left loop buf) := by
  induction left generalizing loop buf with
  | zero => rfl
  | succ n ih =>
    have hlt : (off + loop) % word % size < mem.length := Nat.lt_of_lt_of_le (Nat.mod_lt _ hs) hm
    have hmod : (off + loop) % word = off + loop := Nat.mod_eq_of_lt (by omega)
    rw [readLoop, if_neg (by omega)]
    simp only [Option.bind_eq_bind]
    rw [hmod] at hlt ⊢
    rw [List.getElem?_eq_getElem hlt, Option.bind_some, if_pos (hb loop (by omega) (by omega)),
      ih _ _ (by omega) (fun i h1 h2 => by rw [List.length_set]; exact hb i (by omega) (by omega)), pour]
    congr 4
    rw [List.getD_eq_getElem?_getD, List.getElem?_eq_getElem hlt, Option.getD_some]

theorem writeLoop_eq (ix : Nat → Nat) (size off : Nat) (buf : List Cell) (hs : 0 < size) (left loop : Nat) (mem : List Cell) (hm : size ≤ mem.length)
    (hw : off + loop + left ≤ word) (hb : ∀ i, loop ≤ i → i < loop + left → ix i < buf.length) :
    writeLoop ix size off buf left loop mem = some (pour (fun i => (off + i) % size) (fun i => buf.getD (ix i) none) left loop mem) := by
  induction left generalizing loop mem with
  | zero => rfl
  | succ n ih =>
    have hlt : (off + loop) % word % size < mem.length := Nat.lt_of_lt_of_le (Nat.mod_lt _ hs) hm
    have hmod : (off + loop) % word = off + loop := Nat.mod_eq_of_lt (by omega)
    rw [writeLoop, if_neg (by omega)]
    simp only [Option.bind_eq_bind]
    rw [hmod] at hlt ⊢
    have hbi := hb loop (by omega) (by omega)
    rw [List.getElem?_eq_getElem hbi, Option.bind_some, if_pos hlt,
      ih _ _ (by rw [List.length_set]; exact hm) (by omega) (fun i h1 h2 => hb i (by omega) (by omega)), pour]
    congr 4
    rw [List.getD_eq_getElem?_getD, List.getElem?_eq_getElem hbi, Option.getD_some]

/-- The loop of a read runs only if every byte stored is inside of the buffer. -/
theorem readLoop_some (ix : Nat → Nat) (mem : List Cell) (size off : Nat) (left loop : Nat) (buf buf' : List Cell)
    (h : readLoop ix mem size off left loop buf = some buf') : ∀ i, loop ≤ i → i < loop + left → ix i < buf.length := by
  induction left generalizing loop buf with
  | zero => intro i h1 h2; omega
  | succ n ih =>
    rw [readLoop] at h
    split at h
    · simp at h
    · simp only [Option.bind_eq_bind, Option.bind_eq_some_iff] at h
      obtain ⟨v, -, h⟩ := h
      split at h
      · next hl =>
        intro i h1 h2
        by_cases he : i = loop
        · subst he; exact hl
        · have := ih _ _ h i (by omega) (by omega)
          rwa [List.length_set] at this
      · simp at h

/-- The loop of a write runs only if every byte loaded is inside of the buffer. -/
theorem writeLoop_some (ix : Nat → Nat) (size off : Nat) (buf : List Cell) (left loop : Nat) (mem mem' : List Cell)
    (h : writeLoop ix size off buf left loop mem = some mem') : ∀ i, loop ≤ i → i < loop + left → ix i < buf.length := by
  induction left generalizing loop mem with
  | zero => intro i h1 h2; omega
  | succ n ih =>
    rw [writeLoop] at h
    split at h
    · simp at h
    · simp only [Option.bind_eq_bind, Option.bind_eq_some_iff] at h
      obtain ⟨v, hv, h⟩ := h
      split at h
      · intro i h1 h2
        by_cases he : i = loop
        · subst he
          exact (List.getElem?_eq_some_iff.1 hv).1
        · exact ih _ _ h i (by omega) (by omega)
      · simp at h

theorem plainIx_eq (vs i : Nat) : plainIx vs i = i := by
  unfold plainIx; rw [Nat.mul_comm, Nat.mod_add_div]

theorem swapIx_mul (vs k j : Nat) (h : j < vs) : swapIx vs (k * vs + j) = k * vs + (vs - 1 - j) := by
  unfold swapIx
  rw [Nat.mul_comm k vs, Nat.mul_add_mod, Nat.mod_eq_of_lt h, Nat.mul_add_div (by omega), Nat.div_eq_of_lt h, Nat.add_zero, Nat.mul_comm k vs]
  omega

theorem split (vs i : Nat) (h : 0 < vs) : i = i / vs * vs + i % vs ∧ i % vs < vs :=
  ⟨by rw [Nat.mul_comm, Nat.div_add_mod], Nat.mod_lt _ h⟩

theorem swapIx_swapIx (vs i : Nat) (h : 0 < vs) : swapIx vs (swapIx vs i) = i := by
  obtain ⟨h1, h2⟩ := split vs i h
  have h3 : swapIx vs i = i / vs * vs + (vs - 1 - i % vs) := by
    conv => lhs; rw [h1]
    exact swapIx_mul _ _ _ h2
  rw [h3, swapIx_mul _ _ _ (by omega)]
  omega

/-- Swapping keeps a byte inside of the whole values. -/
theorem swapIx_lt (vs n i : Nat) (h : 0 < vs) (hi : i < n * vs) : swapIx vs i < n * vs := by
  obtain ⟨h1, h2⟩ := split vs i h
  have h3 : swapIx vs i = i / vs * vs + (vs - 1 - i % vs) := by
    conv => lhs; rw [h1]
    exact swapIx_mul _ _ _ h2
  have h4 : i / vs < n := (Nat.div_lt_iff_lt_mul h).2 hi
  have h5 : (i / vs + 1) * vs ≤ n * vs := Nat.mul_le_mul_right _ h4
  rw [Nat.succ_mul] at h5
  omega

theorem ring_length (mem : List Cell) (size off count : Nat) : (ring mem size off count).length = count := by
  simp [ring]

theorem ring_get (mem : List Cell) (size off count i : Nat) (h : i < count) :
    (ring mem size off count)[i]? = some (mem.getD ((off + i) % size) none) := by
  simp [ring, h]

theorem value_get (vs : Nat) (l : List Cell) (k j : Nat) : (value vs l k)[j]? = if j < vs then l[k * vs + j]? else none := by
  unfold value
  rw [List.getElem?_take, List.getElem?_drop]

end Verif.MemTemplate
