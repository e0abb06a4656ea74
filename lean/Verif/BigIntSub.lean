import Verif.BigIntLemmas
/-!
# Subtraction of components
-/
namespace Verif.BigInt
open Spec
attribute [local irreducible] W

theorem sub_step {c v carry : Nat} (hc : c < W) (hv : v < W) (h1 : carry ≤ 1) :
    let s := (v + carry) % W
    let next := if c < v ∨ c < s ∨ (carry ≠ 0 ∧ v = W - 1) then 1 else 0
    let c' := (c + (W - s)) % W
    next ≤ 1 ∧ c' < W ∧ c + W * next = c' + v + carry ∧ (next = 1 ↔ c < v + carry) := by
  intro s next c'
  have hW := W_two
  by_cases ho : v + carry < W
  · have es : s = v + carry := Nat.mod_eq_of_lt ho
    have hn : (c < v ∨ c < s ∨ (carry ≠ 0 ∧ v = W - 1)) ↔ c < v + carry := by rw [es]; omega
    by_cases hb : c < v + carry
    · have en : next = 1 := if_pos (hn.2 hb)
      have ec : c' = c + (W - s) := Nat.mod_eq_of_lt (by omega)
      refine ⟨by omega, by omega, ?_, by omega⟩
      rw [en, Nat.mul_one]; omega
    · have en : next = 0 := if_neg (fun h => hb (hn.1 h))
      have ec : c' = c - s := by
        show (c + (W - s)) % W = c - s
        rw [show c + (W - s) = (c - s) + W by omega, Nat.add_mod_right, Nat.mod_eq_of_lt (by omega)]
      refine ⟨by omega, by omega, ?_, by omega⟩
      rw [en, Nat.mul_zero]; omega
  · have e1 : v + carry = W := by omega
    have es : s = 0 := by show (v + carry) % W = 0; rw [e1, Nat.mod_self]
    have en : next = 1 := if_pos (Or.inr (Or.inr ⟨by omega, by omega⟩))
    have ec : c' = c := by
      show (c + (W - s)) % W = c
      rw [es, Nat.sub_zero, Nat.add_mod_right, Nat.mod_eq_of_lt hc]
    refine ⟨by omega, by omega, ?_, by omega⟩
    rw [en, Nat.mul_one]; omega

/-- The index of the last nonzero component, as tracked by the loop. -/
def lastNZ (idx last : Nat) : List Nat → Nat
  | [] => last
  | x :: xs => lastNZ (idx + 1) (if x ≠ 0 then idx else last) xs

theorem lastNZ_spec (p : List Nat) (idx last : Nat) :
    (lastNZ idx last p = last ∧ ∀ x ∈ p, x = 0) ∨
    (∃ i x, lastNZ idx last p = idx + i ∧ p[i]? = some x ∧ x ≠ 0 ∧ ∀ y ∈ p.drop (i + 1), y = 0) := by
  induction p generalizing idx last with
  | nil => left; exact ⟨rfl, by simp⟩
  | cons x xs ih =>
    rw [lastNZ]
    rcases ih (idx + 1) (if x ≠ 0 then idx else last) with ⟨h1, h2⟩ | ⟨i, y, h1, h2, h3, h4⟩
    · by_cases hx : x = 0
      · left
        rw [h1, if_neg (by simpa using hx)]
        refine ⟨rfl, fun y hy => ?_⟩
        rcases List.mem_cons.1 hy with rfl | hy
        · exact hx
        · exact h2 y hy
      · right
        refine ⟨0, x, ?_, by simp, hx, ?_⟩
        · rw [h1, if_pos hx]; rfl
        · simpa using h2
    · right
      refine ⟨i + 1, y, by rw [h1]; omega, by simpa using h2, h3, by simpa using h4⟩

theorem subLoop_spec (cs vs : List Nat) (carry idx last : Nat) (hcs : ∀ c ∈ cs, c < W) (hvs : ∀ v ∈ vs, v < W) (hc : carry ≤ 1) :
    ∃ p k, (subLoop cs vs carry idx last).comps = p ++ cs.drop k ∧ p.length = k ∧ k ≤ cs.length ∧ (∀ x ∈ p, x < W) ∧
      (subLoop cs vs carry idx last).left = vs.drop k ∧ (subLoop cs vs carry idx last).carry ≤ 1 ∧
      nat (cs.take k) + W ^ k * (subLoop cs vs carry idx last).carry = nat p + nat (vs.take k) + carry ∧
      (k = cs.length ∨ ((subLoop cs vs carry idx last).carry = 0 ∧ vs.drop k = [])) ∧
      (subLoop cs vs carry idx last).last = lastNZ idx last p ∧
      (k = cs.length ↔ cs = [] ∨ cs.length ≤ vs.length ∨ nat cs.dropLast < nat vs + carry) := by
  induction cs generalizing vs carry idx last with
  | nil =>
    refine ⟨[], 0, ?_⟩
    simp [subLoop, nat, lastNZ, hc]
  | cons c cs ih =>
    rw [subLoop]
    split
    · rename_i hgo
      have hcw := hcs c List.mem_cons_self
      have hcs' : ∀ x ∈ cs, x < W := fun x hx => hcs x (List.mem_cons_of_mem _ hx)
      have hh := headD_lt hvs
      have ht := nat_head_tail vs
      have hs := sub_step hcw hh hc
      simp only at hs ⊢
      generalize hv : vs.headD 0 = v at *
      generalize hn : (if c < v ∨ c < (v + carry) % W ∨ (carry ≠ 0 ∧ v = W - 1) then 1 else 0) = next at *
      generalize hc' : (c + (W - (v + carry) % W)) % W = c' at *
      obtain ⟨s1, s2, s3, s4⟩ := hs
      obtain ⟨p, k, i1, i2, i3, i4, i5, i6, i7, i8, i9, i10⟩ := ih vs.tail next (idx + 1) (if c' ≠ 0 then idx else last) hcs' (tail_mem hvs) s1
      generalize subLoop cs vs.tail next (idx + 1) (if c' ≠ 0 then idx else last) = r at *
      have hdrop : vs.tail.drop k = vs.drop (k + 1) := by rw [← List.drop_one, List.drop_drop, Nat.add_comm]
      have htake : nat (vs.take (k + 1)) = v + W * nat (vs.tail.take k) := by
        cases vs with
        | nil => simp at hv; simp [nat, ← hv]
        | cons y ys => simp at hv; simp [nat, hv]
      refine ⟨c' :: p, k + 1, ?_, ?_, ?_, ?_, ?_, ?_, ?_, ?_, ?_, ?_⟩
      · simp [i1]
      · simp [i2]
      · simp; exact i3
      · intro x hx
        rcases List.mem_cons.1 hx with rfl | hx
        · exact s2
        · exact i4 x hx
      · rw [← hdrop]; exact i5
      · exact i6
      · rw [List.take_succ_cons, nat_cons, nat_cons, htake, Nat.pow_succ, Nat.mul_comm (W ^ k) W, Nat.mul_assoc]
        have : W * (nat (cs.take k) + W ^ k * r.carry) = W * (nat p + nat (vs.tail.take k) + next) := by rw [i7]
        rw [Nat.mul_add, Nat.mul_add, Nat.mul_add] at this
        omega
      · rcases i8 with h | h
        · left; simp [h]
        · right; rw [← hdrop]; exact h
      · rw [lastNZ]; exact i9
      · have e1 : (k + 1 = (c :: cs).length) ↔ k = cs.length := by simp
        rw [e1, i10]
        cases cs with
        | nil =>
          have : (1 ≤ vs.length ∨ 0 < nat vs + carry) := by
            rcases hgo with h | h
            · right; omega
            · left; cases vs with
              | nil => exact absurd rfl h
              | cons => simp
          simpa [nat] using this
        | cons d ds =>
          have e2 : (d :: ds).length ≤ vs.tail.length ↔ (c :: d :: ds).length ≤ vs.length := by
            cases vs <;> simp
          have e3 : nat (d :: ds).dropLast < nat vs.tail + next ↔ nat (c :: d :: ds).dropLast < nat vs + carry := by
            rw [List.dropLast_cons_cons, nat_cons, ht]
            generalize nat (d :: ds).dropLast = x
            generalize nat vs.tail = y
            by_cases hb : c < v + carry
            · have : next = 1 := s4.2 hb
              subst this
              constructor
              · intro h
                have := Nat.mul_le_mul_left W (show x ≤ y by omega)
                omega
              · intro h
                apply Classical.byContradiction
                intro hh
                have := mul_lt_step (show y < x by omega)
                omega
            · have : next = 0 := by
                rcases Nat.lt_or_ge next 1 with h | h
                · omega
                · exact absurd (s4.1 (by omega)) hb
              subst this
              constructor
              · intro h
                have := mul_lt_step (show x < y by omega)
                omega
              · intro h
                apply Classical.byContradiction
                intro hh
                have := Nat.mul_le_mul_left W (show y ≤ x by omega)
                omega
          rw [e2, e3]
          simp
    · rename_i hgo
      have h0 : carry = 0 ∧ vs = [] := by
        constructor
        · apply Classical.byContradiction; intro e; exact hgo (Or.inl e)
        · apply Classical.byContradiction; intro e; exact hgo (Or.inr e)
      obtain ⟨rfl, rfl⟩ := h0
      refine ⟨[], 0, by simp, rfl, by omega, by simp, by simp, by omega, by simp [nat], Or.inr ⟨rfl, rfl⟩, rfl, ?_⟩
      simp [nat]

/-- The removal loop leaves the first component and the last `last` ones. -/
theorem removeLoop_spec (cs : List Nat) (last : Nat) (hl : last < cs.length) :
    removeLoop cs.length cs.length (last + 1) cs = some (cs.take 1 ++ cs.drop (cs.length - last)) := by
  have key : ∀ fuel m, last + 1 + m ≤ cs.length → cs.length - (last + 1 + m) ≤ fuel →
      removeLoop cs.length fuel (last + 1 + m) (cs.take (cs.length - last - m) ++ cs.drop (cs.length - last)) =
        some (cs.take 1 ++ cs.drop (cs.length - last)) := by
    intro fuel
    induction fuel with
    | zero =>
      intro m h1 h2
      rw [removeLoop, show cs.length - last - m = 1 by omega]
    | succ fuel ih =>
      intro m h1 h2
      rw [removeLoop]
      split
      · rename_i hlt
        have hlen : (cs.take (cs.length - last - m) ++ cs.drop (cs.length - last)).length = cs.length - m := by
          simp; omega
        rw [removeAt, if_pos (by rw [hlen]; omega), Option.bind_eq_bind, Option.bind_some]
        have : (cs.take (cs.length - last - m) ++ cs.drop (cs.length - last)).eraseIdx (cs.length - (last + 1 + m)) =
            cs.take (cs.length - last - (m + 1)) ++ cs.drop (cs.length - last) := by
          rw [List.eraseIdx_append_of_lt_length (by simp; omega), List.eraseIdx_eq_take_drop_succ]
          rw [List.take_take, Nat.min_eq_left (by omega), List.drop_of_length_le (by simp; omega), List.append_nil]
          congr 2; omega
        rw [this]
        exact ih (m + 1) (by omega) (by omega)
      · rw [show cs.length - last - m = 1 by omega]
  have := key cs.length 0 (by omega) (by omega)
  rw [Nat.sub_zero, Nat.add_zero, List.take_append_drop] at this
  exact this

theorem nat_dropLast (cs : List Nat) (h : ∀ c ∈ cs, c < W) : nat cs.dropLast = nat cs % W ^ (cs.length - 1) := by
  rw [List.dropLast_eq_take]
  have h1 := nat_append (cs.take (cs.length - 1)) (cs.drop (cs.length - 1))
  rw [List.take_append_drop, List.length_take, Nat.min_eq_left (by omega)] at h1
  have h2 := nat_lt (cs := cs.take (cs.length - 1)) (fun c hc => h c (List.mem_of_mem_take hc))
  rw [List.length_take, Nat.min_eq_left (by omega)] at h2
  rw [h1, Nat.add_mul_mod_self_left, Nat.mod_eq_of_lt h2]

/-- What `CCBigIntApplySub` leaves behind when the subtrahend is not the larger one: exactly the
difference if `SubRight`, otherwise a different number. -/
theorem applySub_spec (b : BI) (v : List Nat) (hb : Digits b.comps) (hv : Digits v) (hle : nat v ≤ nat b.comps) :
    ∃ r, applySub b v = some r ∧ r.sign = b.sign ∧
      (SubRight b.comps v → nat r.comps = nat b.comps - nat v ∧ Digits r.comps) ∧
      (¬ SubRight b.comps v → nat r.comps ≠ nat b.comps - nat v) := by
  obtain ⟨p, k, i1, i2, i3, i4, i5, i6, i7, i8, i9, i10⟩ := subLoop_spec b.comps v 0 0 0 hb.2.1 hv.2.1 (by omega)
  have hn0 : b.comps.length ≠ 0 := fun e => hb.1 (List.length_eq_zero_iff.1 e)
  have hv0 : v.length ≠ 0 := fun e => hv.1 (List.length_eq_zero_iff.1 e)
  have hvl : v.length ≤ b.comps.length := by
    apply Classical.byContradiction; intro h
    have := nat_lt_of_length hb hv (by omega); omega
  have hdrop : v.drop k = [] := by
    rcases i8 with h | h
    · exact List.drop_of_length_le (by omega)
    · exact h.2
  have hkv : v.length ≤ k := by
    have : (v.drop k).length = 0 := by rw [hdrop]; rfl
    rw [List.length_drop] at this; omega
  have htake : v.take k = v := List.take_of_length_le hkv
  rw [htake] at i7
  have hcar : (subLoop b.comps v 0 0 0).carry = 0 := by
    rcases i8 with h | h
    · apply Classical.byContradiction; intro hne
      have h1 : (subLoop b.comps v 0 0 0).carry = 1 := by omega
      rw [h1, Nat.mul_one, h, List.take_length] at i7
      have := nat_lt i4
      rw [i2, h] at this
      omega
    · exact h.1
  rw [hcar, Nat.mul_zero, Nat.add_zero, Nat.add_zero] at i7
  have hreach : k = b.comps.length ↔ v.length = b.comps.length ∨ nat b.comps % W ^ (b.comps.length - 1) < nat v := by
    rw [i10, nat_dropLast _ hb.2.1]
    constructor
    · rintro (h | h | h)
      · exact absurd h hb.1
      · left; omega
      · right; omega
    · rintro (h | h)
      · right; left; omega
      · right; right; omega
  generalize hr : subLoop b.comps v 0 0 0 = res at *
  generalize hR : res.comps = R at *
  have hRn : R.length = b.comps.length := by rw [i1]; simp; omega
  have hRw : ∀ c ∈ R, c < W := by
    rw [i1]; intro c hc
    rcases List.mem_append.1 hc with h | h
    · exact i4 c h
    · exact hb.2.1 c (List.mem_of_mem_drop h)
  have hRD : nat R = nat b.comps - nat v := by
    have h1 := nat_append (b.comps.take k) (b.comps.drop k)
    rw [List.take_append_drop, List.length_take, Nat.min_eq_left i3] at h1
    rw [i1, nat_append, i2, h1]; omega
  have hlast : res.last < R.length := by
    rw [i9, hRn]
    rcases lastNZ_spec p 0 0 with ⟨h, _⟩ | ⟨i, x, h, hx, _⟩
    · omega
    · have := (List.getElem?_eq_some_iff.1 hx).1
      omega
  have hrun : applySub b v = some ⟨b.sign, R.take 1 ++ R.drop (R.length - res.last)⟩ := by
    unfold applySub
    simp only [hr, i5, hdrop, hR, hcar, ne_eq, not_true_eq_false, if_false]
    rw [removeLoop_spec R res.last hlast, Option.bind_eq_bind, Option.bind_some]
    simp [fixSign]
  refine ⟨_, hrun, rfl, ?_⟩
  generalize hL : res.last = L at *
  -- the first component
  obtain ⟨r0, R', hRc⟩ : ∃ r0 R', R = r0 :: R' := by
    cases R with
    | nil => simp at hRn; omega
    | cons x xs => exact ⟨x, xs, rfl⟩
  have hRR : nat (R.take 1 ++ R.drop (R.length - L)) = r0 + W * nat (R.drop (R.length - L)) := by
    rw [hRc]; simp [nat]
  have hR1 : nat R = r0 + W * nat (R.drop 1) := by rw [hRc]; simp [nat]
  have hdw : ∀ j, ∀ c ∈ R.drop j, c < W := fun j c hc => hRw c (List.mem_of_mem_drop hc)
  dsimp only
  have hne : nat (R.drop (R.length - L)) ≠ nat (R.drop 1) → nat (R.take 1 ++ R.drop (R.length - L)) ≠ nat b.comps - nat v := by
    intro h e
    rw [← hRD, hRR, hR1] at e
    exact h (Nat.eq_of_mul_eq_mul_left W_pos (by omega))
  by_cases hk : k = b.comps.length
  · have hRp : R = p := by rw [i1, hk, List.drop_length, List.append_nil]
    have hre := hreach.1 hk
    -- a single component is left
    have single : (∀ y ∈ R.drop 1, y = 0) → L = 0 →
        (SubRight b.comps v → nat (R.take 1 ++ R.drop (R.length - L)) = nat b.comps - nat v ∧ Digits (R.take 1 ++ R.drop (R.length - L))) ∧
        (¬ SubRight b.comps v → nat (R.take 1 ++ R.drop (R.length - L)) ≠ nat b.comps - nat v) := by
      intro hz h0
      have hz' := nat_zeros hz
      have hr0 : r0 < W := hRw r0 (by rw [hRc]; exact List.mem_cons_self)
      have e : R.take 1 ++ R.drop (R.length - L) = [r0] := by
        rw [h0, Nat.sub_zero, List.drop_length, hRc]; simp
      rw [e]
      have en : nat [r0] = nat b.comps - nat v := by rw [← hRD, hR1, hz']; simp [nat]
      refine ⟨fun _ => ⟨en, by simp, ?_, by simp⟩, fun h => absurd ⟨hre, Or.inr ?_⟩ h⟩
      · intro c hc; simp at hc; omega
      · rw [← en]; simpa [nat] using hr0
    rcases lastNZ_spec p 0 0 with ⟨h1, h2⟩ | ⟨i, x, h1, h2, h3, h4⟩
    · exact single (fun y hy => h2 y (hRp ▸ List.mem_of_mem_drop hy)) (by omega)
    · have hLi : L = i := by omega
      rw [← hRp] at h2 h4
      rw [← hLi] at h2 h4
      by_cases hL0 : L = 0
      · exact single (by rw [hL0] at h4; exact h4) hL0
      · by_cases hLn : L = R.length - 1
        · -- nothing is removed
          have e : R.take 1 ++ R.drop (R.length - L) = R := by
            rw [show R.length - L = 1 by omega, List.take_append_drop]
          rw [e]
          have hge : W ^ (b.comps.length - 1) ≤ nat b.comps - nat v := by
            rw [← hRD, ← hRn, ← hLn]; exact nat_ge h2 h3
          refine ⟨fun _ => ⟨hRD, by rw [hRc]; simp, hRw, fun _ => ?_⟩, fun h => absurd ⟨hre, Or.inl hge⟩ h⟩
          rw [last_ne_zero_iff hRw (by rw [hRc]; simp), hRn, hRD]
          exact hge
        · -- the wrong components are removed
          have hDlo : W ^ L ≤ nat R := nat_ge h2 h3
          have hDhi : nat R < W ^ (R.length - 1) := by
            have h5 := nat_append (R.take (L + 1)) (R.drop (L + 1))
            rw [List.take_append_drop, nat_zeros h4, Nat.mul_zero, Nat.add_zero] at h5
            have h6 := nat_lt (cs := R.take (L + 1)) (fun c hc => hRw c (List.mem_of_mem_take hc))
            rw [List.length_take, Nat.min_eq_left (by omega)] at h6
            have h7 : W ^ (L + 1) ≤ W ^ (R.length - 1) := Nat.pow_le_pow_right W_pos (by omega)
            omega
          have hW1 : W ≤ W ^ L := by
            have := Nat.pow_le_pow_right W_pos (show 1 ≤ L by omega)
            rwa [Nat.pow_one] at this
          have hnot : ¬ SubRight b.comps v := by
            rintro ⟨_, h | h⟩
            · rw [← hRD, ← hRn] at h; omega
            · rw [← hRD] at h; omega
          refine ⟨fun h => absurd h hnot, fun _ => hne ?_⟩
          have hlo : W ^ (L - 1) ≤ nat (R.drop 1) := by
            apply nat_ge (c := x) _ h3
            rw [List.getElem?_drop, show 1 + (L - 1) = L by omega]; exact h2
          have hhi : nat (R.drop (R.length - L)) < W ^ (L - 1) := by
            have h5 := last_ne_zero_iff (hdw (R.length - L)) (by
              intro e; have : (R.drop (R.length - L)).length = 0 := by rw [e]; rfl
              rw [List.length_drop] at this; omega)
            rw [List.length_drop, show R.length - (R.length - L) - 1 = L - 1 by omega] at h5
            apply Nat.lt_of_not_le
            rw [← h5]
            intro hg
            apply hg
            rw [List.getLast?_eq_getElem?, List.getElem?_drop, List.length_drop, show R.length - L + (R.length - (R.length - L) - 1) = R.length - 1 by omega]
            have hlt : R.length - 1 < R.length := by omega
            rw [List.getElem?_eq_getElem hlt]
            congr 1
            apply h4
            rw [List.mem_iff_getElem?]
            refine ⟨R.length - 1 - (L + 1), ?_⟩
            rw [List.getElem?_drop, show L + 1 + (R.length - 1 - (L + 1)) = R.length - 1 by omega, List.getElem?_eq_getElem hlt]
          omega
  · -- the loop stopped early: the top components are dropped
    have hnot : ¬ SubRight b.comps v := fun h => hk (hreach.2 h.1)
    refine ⟨fun h => absurd h hnot, fun _ => hne ?_⟩
    have hn2 : 1 < b.comps.length := by omega
    have hLle : L ≤ R.length - 2 := by
      rw [i9]
      rcases lastNZ_spec p 0 0 with ⟨h, _⟩ | ⟨i, x, h, hx, _⟩
      · omega
      · have := (List.getElem?_eq_some_iff.1 hx).1
        omega
    have hhi := nat_lt (hdw (R.length - L))
    rw [List.length_drop, show R.length - (R.length - L) = L by omega] at hhi
    have h7 : W ^ L ≤ W ^ (R.length - 2) := Nat.pow_le_pow_right W_pos hLle
    have hlo : W ^ (R.length - 2) ≤ nat (R.drop 1) := by
      have htop := hb.2.2 hn2
      rw [List.getLast?_eq_getElem?] at htop
      have hlt : b.comps.length - 1 < b.comps.length := by omega
      rw [List.getElem?_eq_getElem hlt] at htop
      apply nat_ge (c := b.comps[b.comps.length - 1]) _ (fun e => htop (by rw [e]))
      rw [List.getElem?_drop, i1, List.getElem?_append_right (by rw [i2]; simp; omega), List.getElem?_drop]
      rw [← List.getElem?_eq_getElem hlt]
      congr 1
      simp; omega
    omega

end Verif.BigInt
