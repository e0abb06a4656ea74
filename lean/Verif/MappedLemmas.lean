import Verif.MappedSpec
import Verif.BigIntLemmas
import Verif.RleProps
import Verif.VarIntProps
/-!
# Lemmas for C100
-/
namespace Verif.Mapped

open Verif.BigInt (BI W)
open Verif.BigInt.Spec (nat)
open Verif.VarInt (Endian writeInt readInt)
open Verif.Rle (le ofLe)
open Verif.Mapped.Spec

theorem low_bit (c r : Nat) (hr : r < 2) : (c <<< 1) % W ||| r = 2 * c % W + r := by
  have h1 : (c <<< 1) % W = ((2 * c % W) / 2) <<< 1 := by
    simp only [Nat.shiftLeft_eq, W]; omega
  rw [h1, ← Nat.shiftLeft_add_eq_or_of_lt (by simpa using hr)]
  simp only [Nat.shiftLeft_eq, W]; omega

theorem top_bit (c d : Nat) (hc : c < 2 ^ 63) : c ||| (d &&& 1) <<< 63 = c + (d % 2) * 2 ^ 63 := by
  rw [Nat.or_comm, ← Nat.shiftLeft_add_eq_or_of_lt hc, Nat.and_one_is_mod, Nat.shiftLeft_eq]; omega

theorem shift63 {c : Nat} (h : c < W) : c >>> 63 < 2 := by
  simp only [Nat.shiftRight_eq_div_pow, W] at *; omega

/-- What is read back of the components. -/
def back (cs : List Nat) : List Nat := if cs.getLast? = some 0 then cs.dropLast else cs

theorem back_cons (c d : Nat) (cs : List Nat) : back (c :: d :: cs) = c :: back (d :: cs) := by
  simp only [back, List.getLast?_cons_cons, List.dropLast_cons_cons]
  split <;> rfl

theorem unmap_map : ∀ (cs : List Nat) (c r : Nat), r < 2 → c < W → (∀ x ∈ cs, x < W) →
    unmapLoop (mapLoop cs (c >>> 63)) ((2 * c % W + r) >>> 1) = back (c :: cs)
  | [], c, r, hr, hc, _ => by
    simp only [mapLoop, Nat.shiftRight_eq_div_pow, W] at *
    by_cases h : c < 2 ^ 63
    · rw [if_neg (by omega)]
      have e : (2 * c % 2 ^ 64 + r) / 2 ^ 1 = c := by omega
      rw [e]
      by_cases h0 : c = 0
      · subst h0; rfl
      · simp [unmapLoop, back, h0]
    · have e1 : c / 2 ^ 63 = 1 := by omega
      rw [e1]
      have e : (2 * c % 2 ^ 64 + r) / 2 ^ 1 = c - 2 ^ 63 := by omega
      rw [if_pos (by omega), e, unmapLoop, top_bit _ _ (by omega), unmapLoop]
      have : ¬ c = 0 := by omega
      simp only [Nat.shiftRight_eq_div_pow, back, List.getLast?_singleton, Option.some.injEq, this, if_false]
      simp only [show 1 / 2 ^ 1 = 0 from rfl, ne_eq, not_true, if_false]
      congr 1; omega
  | d :: cs, c, r, hr, hc, hx => by
    have hd := hx d (by simp)
    rw [mapLoop, low_bit _ _ (shift63 hc), unmapLoop, top_bit, unmap_map cs d _ (shift63 hc) hd (fun x h => hx x (by simp [h])),
      back_cons]
    · congr 1
      have := shift63 hc
      simp only [Nat.shiftRight_eq_div_pow, W] at *; omega
    · simp only [Nat.shiftRight_eq_div_pow, W] at *; omega

theorem sign_bit (b : Bool) : (if b then 1 else 0) < 2 := by cases b <;> decide

theorem unmapBig_map (b : BI) (h0 : b.comps ≠ []) (hd : ∀ c ∈ b.comps, c < W) : unmapBig (mapBig b) = some ⟨b.sign, back b.comps⟩ := by
  obtain ⟨sign, comps⟩ := b
  cases comps with
  | nil => exact absurd rfl h0
  | cons c cs =>
    simp only [mapBig, mapLoop]
    rw [low_bit _ _ (sign_bit sign), unmapBig, unmap_map cs c _ (sign_bit sign) (hd c (by simp)) (fun x h => hd x (by simp [h]))]
    congr 2
    rw [Nat.and_one_is_mod]
    cases sign <;> simp [W] <;> omega

theorem nat_map : ∀ (cs : List Nat) (r : Nat), r < 2 → (∀ c ∈ cs, c < W) →
    nat (mapLoop cs r) = 2 * nat cs + r ∧ (∀ d ∈ mapLoop cs r, d < W) ∧ (mapLoop cs r).length ≤ cs.length + 1
  | [], r, hr, _ => by
    rw [mapLoop]
    by_cases h : r = 0
    · subst h; simp [nat]
    · rw [if_pos h]; simp only [nat, W]; simp; omega
  | c :: cs, r, hr, hc => by
    have hcw := hc c (by simp)
    obtain ⟨h1, h2, h3⟩ := nat_map cs (c >>> 63) (shift63 hcw) (fun x h => hc x (by simp [h]))
    rw [mapLoop, low_bit _ _ hr]
    refine ⟨?_, ?_, by simpa using h3⟩
    · rw [nat, nat, h1]
      simp only [Nat.shiftRight_eq_div_pow, W] at *; omega
    · intro d hd
      rcases List.mem_cons.1 hd with rfl | hd
      · simp only [W] at *; omega
      · exact h2 d hd

theorem nat_unmap : ∀ (ds : List Nat) (c : Nat), c < 2 ^ 63 → (∀ d ∈ ds, d < W) →
    nat (unmapLoop ds c) = c + 2 ^ 63 * nat ds
  | [], c, _, _ => by
    rw [unmapLoop]
    by_cases h : c = 0
    · subst h; simp [nat]
    · rw [if_pos h]; simp [nat]
  | d :: ds, c, hc, hd => by
    have hdw := hd d (by simp)
    rw [unmapLoop, top_bit _ _ hc, nat, nat, nat_unmap ds (d >>> 1) (by simp only [Nat.shiftRight_eq_div_pow, W] at *; omega)
      (fun x h => hd x (by simp [h]))]
    simp only [Nat.shiftRight_eq_div_pow, W] at *; omega

/-- Lists of as many digits are the same when they denote the same number. -/
theorem nat_inj : ∀ (a b : List Nat), a.length = b.length → (∀ d ∈ a, d < W) → (∀ d ∈ b, d < W) → nat a = nat b → a = b
  | [], [], _, _, _, _ => rfl
  | [], _ :: _, h, _, _, _ => by simp at h
  | _ :: _, [], h, _, _, _ => by simp at h
  | x :: a, y :: b, h, ha, hb, e => by
    have hx := ha x (by simp)
    have hy := hb y (by simp)
    simp only [nat, W] at *
    have e1 : x = y := by omega
    subst e1
    rw [nat_inj a b (by simpa using h) (fun d h => ha d (by simp [h])) (fun d h => hb d (by simp [h])) (by omega)]

theorem unmap_inj (a b : List Nat) (h : a.length = b.length) (ha : ∀ d ∈ a, d < W) (hb : ∀ d ∈ b, d < W) (x : BI)
    (e1 : unmapBig a = some x) (e2 : unmapBig b = some x) : a = b := by
  refine nat_inj a b h ha hb ?_
  cases a with
  | nil => cases e1
  | cons d ds =>
    cases b with
    | nil => cases e2
    | cons e es =>
      have hd := ha d (by simp)
      have he := hb e (by simp)
      rw [unmapBig] at e1 e2
      cases e1
      simp only [Option.some.injEq, BI.mk.injEq, Nat.and_one_is_mod] at e2
      obtain ⟨e2, e3⟩ := e2
      have n1 := nat_unmap ds (d >>> 1) (by simp only [Nat.shiftRight_eq_div_pow, W] at *; omega) (fun x h => ha x (by simp [h]))
      have n2 := nat_unmap es (e >>> 1) (by simp only [Nat.shiftRight_eq_div_pow, W] at *; omega) (fun x h => hb x (by simp [h]))
      rw [e3] at n2
      rw [n2] at n1
      have e4 : e % 2 = d % 2 := by
        have h1 : (e % 2 = 0) ↔ (d % 2 = 0) := by
          have := decide_eq_decide.1 e2
          omega
        omega
      simp only [nat, Nat.shiftRight_eq_div_pow, W] at *; omega

theorem digit_nat : ∀ (ds : List Nat) (i : Nat), (∀ d ∈ ds, d < W) → digit (nat ds) i = ds.getD i 0
  | [], i, _ => by simp [nat, digit]
  | d :: ds, 0, h => by
    have := h d (by simp)
    simp only [nat, digit, W, Nat.mul_zero, Nat.pow_zero, Nat.div_one, List.getD_cons_zero] at *; omega
  | d :: ds, i + 1, h => by
    have h1 := h d (by simp)
    rw [List.getD_cons_succ, ← digit_nat ds i (fun x hx => h x (by simp [hx]))]
    simp only [digit, nat, W] at *
    rw [show 64 * (i + 1) = 64 + 64 * i by omega, Nat.pow_add, ← Nat.div_div_eq_div_mul]
    congr 2; omega

/-! ## The stream -/

/-- The number that is read for a number. -/
def stored (prefer d : Nat) : Nat := if 8 < prefer ∨ d < 2 ^ 56 then d else 2 ^ 64 - 1

theorem value_eq : ∀ xs : List UInt8, VarInt.value xs = ofLe xs
  | [] => rfl
  | b :: bs => by rw [VarInt.value, ofLe, value_eq bs]

theorem ofLe8 {d : Nat} (h : d < W) : ofLe (le 8 d) = d := by rw [Rle.ofLe_le, Nat.mod_eq_of_lt (by simpa [W] using h)]

theorem view_native (xs : List UInt8) : VarInt.view .native xs = xs := by simp [VarInt.view, Endian.low]

theorem ofLe_ff : ofLe (List.replicate 8 0xff) = 2 ^ 64 - 1 := by decide

theorem write_one (prefer : Nat) (se : Endian) (d : Nat) (h : d < W) :
    ∃ out, writeInt .native (le 8 d) false true prefer se = some out ∧
      ∀ rest, ∃ xs, readInt .native 8 false true prefer se (out ++ rest) = some (xs, rest) ∧ ofLe xs = stored prefer d := by
  have hlen := Rle.le_length 8 d
  by_cases hp : 8 < prefer
  · obtain ⟨out, h1, h2⟩ := VarInt.C75_integer_partial .native se .native (le 8 d) false true prefer
      (by intro e; rw [e] at hlen; simp at hlen) (Or.inr (Or.inr (Or.inr ⟨by omega, rfl, by omega⟩)))
    refine ⟨out, h1, fun rest => ⟨_, by rw [← hlen]; exact h2 rest, ?_⟩⟩
    rw [view_native, view_native, ofLe8 h, stored, if_pos (Or.inl hp)]
  · obtain ⟨out, h1, h2⟩ := VarInt.C75_unsigned64_exact .native (le 8 d) hlen
    refine ⟨out, by rw [writeInt, if_pos (Or.inl (by omega)), h1], fun rest => ?_⟩
    refine ⟨_, by rw [readInt, if_pos (Or.inl (by omega))]; exact h2 .native rest, ?_⟩
    rw [view_native, value_eq, ofLe8 h, stored]
    by_cases hd : d < 2 ^ 56
    · rw [if_pos hd, if_pos (Or.inr hd), view_native, ofLe8 h]
    · rw [if_neg hd, if_neg (by omega), ofLe_ff]

theorem read_write (prefer : Nat) (se : Endian) : ∀ ds : List Nat, (∀ d ∈ ds, d < W) →
    ∃ out, writeAll 8 true prefer se ds = some out ∧
      ∀ rest, readAll 8 true prefer se ds.length (out ++ rest) = some (ds.map (stored prefer), rest)
  | [], _ => ⟨[], rfl, fun _ => rfl⟩
  | d :: ds, h => by
    obtain ⟨out, h1, h2⟩ := write_one prefer se d (h d (by simp))
    obtain ⟨outs, h3, h4⟩ := read_write prefer se ds (fun x hx => h x (by simp [hx]))
    refine ⟨out ++ outs, by simp [writeAll, h1, h3], fun rest => ?_⟩
    obtain ⟨xs, h5, h6⟩ := h2 (outs ++ rest)
    rw [List.append_assoc, List.length_cons, readAll, h5]
    simp [h4, h6]

theorem le1 (d : Nat) : le 1 d = [UInt8.ofNat d] := rfl

theorem read_write_bytes (prefer : Nat) (se : Endian) : ∀ ds : List Nat, (∀ d ∈ ds, d < 256) →
    ∃ out, writeAll 1 false prefer se ds = some out ∧
      ∀ rest, readAll 1 false prefer se ds.length (out ++ rest) = some (ds, rest)
  | [], _ => ⟨[], rfl, fun _ => rfl⟩
  | d :: ds, h => by
    obtain ⟨out, h1, h2⟩ := VarInt.C75_integer_partial .native se .native (le 1 d) false false prefer (by simp [le1])
      (Or.inl (by simp [le1]))
    obtain ⟨outs, h3, h4⟩ := read_write_bytes prefer se ds (fun x hx => h x (by simp [hx]))
    refine ⟨out ++ outs, by simp [writeAll, h1, h3], fun rest => ?_⟩
    have h5 := h2 (outs ++ rest)
    rw [Rle.le_length] at h5
    have h6 := Rle.ofLe_le 1 d
    rw [Nat.mod_eq_of_lt (by simpa using h d (by simp))] at h6
    rw [List.append_assoc, List.length_cons, readAll, h5]
    simp [h4, view_native, h6]

theorem stored_lt (prefer d : Nat) (h : d < W) : stored prefer d < W := by
  simp only [stored, W] at *; split <;> omega

theorem stored_eq (prefer d : Nat) : stored prefer d = d ↔ Kept prefer d := by
  simp only [stored, Kept]; split <;> omega

end Verif.Mapped
