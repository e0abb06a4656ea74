import Verif.BigIntSpec
/-!
# Lemmas on component lists
-/
namespace Verif.BigInt
open Spec

theorem W_pos : 0 < W := by unfold W; omega
theorem W_two : 2 ≤ W := by unfold W; omega

attribute [local irreducible] W

theorem mul_lt_step {x y : Nat} (h : x < y) : W * x + W ≤ W * y := by
  have := Nat.mul_le_mul_left W (Nat.succ_le_of_lt h)
  rw [Nat.mul_succ] at this; exact this

theorem nat_nil : nat [] = 0 := rfl
theorem nat_cons (c : Nat) (cs : List Nat) : nat (c :: cs) = c + W * nat cs := rfl

theorem nat_append (a b : List Nat) : nat (a ++ b) = nat a + W ^ a.length * nat b := by
  induction a with
  | nil => simp [nat]
  | cons c cs ih =>
    rw [List.cons_append, nat_cons, nat_cons, ih, List.length_cons, Nat.pow_succ, Nat.mul_add, ← Nat.mul_assoc, Nat.mul_comm W (W ^ cs.length)]
    omega

theorem nat_lt {cs : List Nat} (h : ∀ c ∈ cs, c < W) : nat cs < W ^ cs.length := by
  induction cs with
  | nil => simp [nat]
  | cons c cs ih =>
    have h1 := ih (fun x hx => h x (List.mem_cons_of_mem _ hx))
    have h2 := h c List.mem_cons_self
    rw [nat_cons, List.length_cons, Nat.pow_succ, Nat.mul_comm (W ^ _)]
    have := mul_lt_step h1
    omega

theorem nat_zeros {cs : List Nat} (h : ∀ c ∈ cs, c = 0) : nat cs = 0 := by
  induction cs with
  | nil => rfl
  | cons c cs ih =>
    rw [nat_cons, ih (fun x hx => h x (List.mem_cons_of_mem _ hx)), h c List.mem_cons_self]; rfl

theorem nat_take_le (cs : List Nat) (k : Nat) : nat (cs.take k) ≤ nat cs := by
  have h := nat_append (cs.take k) (cs.drop k)
  rw [List.take_append_drop] at h
  omega

/-- A nonzero component at position `i` makes the number at least `W ^ i`. -/
theorem nat_ge {cs : List Nat} {i : Nat} {c : Nat} (h : cs[i]? = some c) (hc : c ≠ 0) : W ^ i ≤ nat cs := by
  induction cs generalizing i with
  | nil => simp at h
  | cons d cs ih =>
    rw [nat_cons]
    cases i with
    | zero => simp at h; subst h; simp; omega
    | succ i =>
      simp at h
      have := Nat.mul_le_mul_left W (ih h)
      rw [Nat.pow_succ, Nat.mul_comm]; omega

theorem digits_ge {cs : List Nat} (h : Digits cs) (hl : 1 < cs.length) : W ^ (cs.length - 1) ≤ nat cs := by
  have hg := h.2.2 hl
  rw [List.getLast?_eq_getElem?] at hg
  have hlt : cs.length - 1 < cs.length := by omega
  rw [List.getElem?_eq_getElem hlt] at hg
  exact nat_ge (List.getElem?_eq_getElem hlt) (fun e => hg (by rw [e]))

/-! ## Comparison -/

theorem compareDigits_rev (a b : List Nat) (hl : a.length = b.length) (ha : ∀ c ∈ a, c < W) (hb : ∀ c ∈ b, c < W) :
    compareDigits a b = if nat a.reverse < nat b.reverse then .lt else if nat a.reverse = nat b.reverse then .eq else .gt := by
  induction a generalizing b with
  | nil =>
    cases b with
    | nil => simp [compareDigits]
    | cons _ _ => simp at hl
  | cons x xs ih =>
    cases b with
    | nil => simp at hl
    | cons y ys =>
      simp only [List.length_cons, Nat.add_right_cancel_iff] at hl
      have hxs : ∀ c ∈ xs, c < W := fun c hc => ha c (List.mem_cons_of_mem _ hc)
      have hys : ∀ c ∈ ys, c < W := fun c hc => hb c (List.mem_cons_of_mem _ hc)
      have i1 := nat_lt (cs := xs.reverse) (fun c hc => hxs c (List.mem_reverse.1 hc))
      have i2 := nat_lt (cs := ys.reverse) (fun c hc => hys c (List.mem_reverse.1 hc))
      rw [compareDigits, List.reverse_cons, List.reverse_cons, nat_append, nat_append, nat_cons, nat_cons, nat_nil, Nat.mul_zero, Nat.add_zero, Nat.add_zero]
      have el : ys.reverse.length = xs.length := by rw [List.length_reverse, hl]
      rw [el] at i2 ⊢
      rw [List.length_reverse] at i1 ⊢
      by_cases hxy : x = y
      · subst hxy
        rw [if_neg (by simp), ih ys hl hxs hys]
        simp
      · rw [if_pos hxy]
        by_cases hlt : x < y
        · rw [if_pos hlt]
          have h := Nat.mul_le_mul_left (W ^ xs.length) (Nat.succ_le_of_lt hlt)
          rw [Nat.mul_succ] at h
          rw [if_pos (by omega)]
        · rw [if_neg hlt]
          have h := Nat.mul_le_mul_left (W ^ xs.length) (Nat.succ_le_of_lt (show y < x by omega))
          rw [Nat.mul_succ] at h
          rw [if_neg (by omega), if_neg (by omega)]

theorem nat_lt_of_length {a b : List Nat} (ha : Digits a) (hb : Digits b) (h : a.length < b.length) : nat a < nat b := by
  have h1 := nat_lt ha.2.1
  have h0 : a.length ≠ 0 := fun e => ha.1 (List.length_eq_zero_iff.1 e)
  have h2 := digits_ge hb (by omega)
  have h3 : W ^ a.length ≤ W ^ (b.length - 1) := Nat.pow_le_pow_right W_pos (by omega)
  omega

theorem compareComponents_spec {a b : List Nat} (ha : Digits a) (hb : Digits b) :
    compareComponents a b = if nat a < nat b then .lt else if nat a = nat b then .eq else .gt := by
  unfold compareComponents
  by_cases hl : a.length = b.length
  · rw [if_pos hl, compareDigits_rev _ _ (by simpa using hl) (fun c hc => ha.2.1 c (List.mem_reverse.1 hc)) (fun c hc => hb.2.1 c (List.mem_reverse.1 hc)),
      List.reverse_reverse, List.reverse_reverse]
  · rw [if_neg hl]
    by_cases hlt : a.length < b.length
    · have := nat_lt_of_length ha hb hlt
      rw [if_pos hlt, if_pos this]
    · have := nat_lt_of_length hb ha (by omega)
      rw [if_neg hlt, if_neg (by omega), if_neg (by omega)]

/-! ## Addition -/

theorem addTail_spec (vs : List Nat) (carry : Nat) (hv : ∀ v ∈ vs, v < W) (hc : carry ≤ 1) :
    nat (addTail vs carry) = nat vs + carry ∧ (∀ c ∈ addTail vs carry, c < W) := by
  induction vs generalizing carry with
  | nil =>
    unfold addTail
    have := W_two
    split
    · refine ⟨by simp [nat], fun c h => ?_⟩
      simp at h; omega
    · refine ⟨by simp [nat]; omega, fun c h => by simp at h⟩
  | cons v vs ih =>
    have hvw := hv v List.mem_cons_self
    have hvs : ∀ x ∈ vs, x < W := fun x hx => hv x (List.mem_cons_of_mem _ hx)
    rw [addTail]
    by_cases ho : v + carry < W
    · rw [Nat.mod_eq_of_lt ho, if_neg (by omega)]
      obtain ⟨h1, h2⟩ := ih 0 hvs (by omega)
      rw [nat_cons, nat_cons, h1]
      refine ⟨by simp; omega, fun c h => ?_⟩
      rcases List.mem_cons.1 h with rfl | h
      · exact ho
      · exact h2 c h
    · have hm : (v + carry) % W = 0 := by
        rw [show v + carry = W by omega, Nat.mod_self]
      rw [hm, if_pos (by have := W_two; omega)]
      obtain ⟨h1, h2⟩ := ih 1 hvs (by omega)
      rw [nat_cons, nat_cons, h1]
      refine ⟨by rw [Nat.mul_add]; omega, fun c h => ?_⟩
      rcases List.mem_cons.1 h with rfl | h
      · exact W_pos
      · exact h2 c h

theorem headD_lt {vs : List Nat} (hv : ∀ v ∈ vs, v < W) : vs.headD 0 < W := by
  cases vs with
  | nil => exact W_pos
  | cons v vs => exact hv v List.mem_cons_self

theorem nat_head_tail (vs : List Nat) : nat vs = vs.headD 0 + W * nat vs.tail := by
  cases vs <;> simp [nat]

theorem tail_mem {vs : List Nat} (hv : ∀ v ∈ vs, v < W) : ∀ v ∈ vs.tail, v < W :=
  fun v h => hv v (List.mem_of_mem_tail h)

theorem or_ne_zero (a b : Nat) : (a ||| b) ≠ 0 ↔ a ≠ 0 ∨ b ≠ 0 := by
  rw [Ne, Nat.or_eq_zero_iff]; omega

theorem addLoop_spec (cs vs : List Nat) (carry : Nat) (hcs : ∀ c ∈ cs, c < W) (hv : ∀ v ∈ vs, v < W) (hc : carry ≤ 1) :
    nat (addLoop cs vs carry) = nat cs + nat vs + carry ∧ (∀ c ∈ addLoop cs vs carry, c < W) := by
  induction cs generalizing vs carry with
  | nil =>
    rw [addLoop]
    obtain ⟨h1, h2⟩ := addTail_spec vs carry hv hc
    exact ⟨by rw [h1, nat_nil]; omega, h2⟩
  | cons c cs ih =>
    have hcw := hcs c List.mem_cons_self
    have hcs' : ∀ x ∈ cs, x < W := fun x hx => hcs x (List.mem_cons_of_mem _ hx)
    rw [addLoop]
    split
    · dsimp only
      have hh := headD_lt hv
      have ht := nat_head_tail vs
      generalize vs.headD 0 = v at *
      by_cases ho : c + v + carry < W
      · have e : (c + v + carry) % W = c + v + carry := Nat.mod_eq_of_lt ho
        have hn : ¬ (c + v + carry ≤ c ∧ (v ||| carry) ≠ 0) := by rw [or_ne_zero]; omega
        rw [e, if_neg hn]
        obtain ⟨h1, h2⟩ := ih vs.tail 0 hcs' (tail_mem hv) (by omega)
        rw [nat_cons, nat_cons, h1, ht]
        refine ⟨by simp only [Nat.mul_add]; omega, fun x h => ?_⟩
        rcases List.mem_cons.1 h with rfl | h
        · exact ho
        · exact h2 x h
      · have e : (c + v + carry) % W = c + v + carry - W := by
          rw [Nat.mod_eq_sub_mod (by omega), Nat.mod_eq_of_lt (by omega)]
        have hp : c + v + carry - W ≤ c ∧ (v ||| carry) ≠ 0 := by rw [or_ne_zero]; omega
        rw [e, if_pos hp]
        obtain ⟨h1, h2⟩ := ih vs.tail 1 hcs' (tail_mem hv) (by omega)
        rw [nat_cons, nat_cons, h1, ht]
        refine ⟨by simp only [Nat.mul_add]; omega, fun x h => ?_⟩
        rcases List.mem_cons.1 h with rfl | h
        · omega
        · exact h2 x h
    · have h0 : carry = 0 ∧ vs = [] := by
        rename_i h; constructor
        · apply Classical.byContradiction; intro e; exact h (Or.inl e)
        · apply Classical.byContradiction; intro e; exact h (Or.inr e)
      rw [h0.1, h0.2]
      exact ⟨by rw [nat_nil]; omega, hcs⟩

theorem getLast?_cons_ne (x : Nat) {l : List Nat} (h : l ≠ []) : (x :: l).getLast? = l.getLast? := by
  cases l with
  | nil => exact absurd rfl h
  | cons y l => rw [List.getLast?_cons_cons]

theorem addTail_zero (vs : List Nat) (hv : ∀ v ∈ vs, v < W) : addTail vs 0 = vs := by
  induction vs with
  | nil => rfl
  | cons v vs ih =>
    have hvw := hv v List.mem_cons_self
    rw [addTail]
    simp only [Nat.add_zero, Nat.mod_eq_of_lt hvw, Nat.lt_irrefl, if_false]
    rw [ih (fun x hx => hv x (List.mem_cons_of_mem _ hx))]

theorem addTail_last (vs : List Nat) (carry : Nat) (hv : ∀ v ∈ vs, v < W) (hc : carry ≤ 1)
    (h : vs.getLast? ≠ some 0) : (addTail vs carry).getLast? ≠ some 0 := by
  induction vs generalizing carry with
  | nil => unfold addTail; split <;> simp_all
  | cons v vs ih =>
    have hvw := hv v List.mem_cons_self
    have hvs : ∀ x ∈ vs, x < W := fun x hx => hv x (List.mem_cons_of_mem _ hx)
    have hl : vs.getLast? ≠ some 0 := by
      cases vs with
      | nil => simp
      | cons y ys => rw [List.getLast?_cons_cons] at h; exact h
    rw [addTail]
    have i := ih (if (v + carry) % W < v then 1 else 0) hvs (by split <;> omega) hl
    by_cases he : addTail vs (if (v + carry) % W < v then 1 else 0) = []
    · rw [he, List.getLast?_singleton]
      have hvs0 : vs = [] := by
        cases vs with
        | nil => rfl
        | cons y ys => simp [addTail] at he
      subst hvs0
      rw [List.getLast?_singleton] at h
      have hnc : ¬ (v + carry) % W < v := by
        intro hc; rw [if_pos hc] at he; simp [addTail] at he
      intro e
      have e2 := Option.some.inj e
      have : v ≠ 0 := fun e => h (by rw [e])
      omega
    · rw [getLast?_cons_ne _ he]; exact i

theorem addLoop_ne_nil (c : Nat) (cs vs : List Nat) (carry : Nat) : addLoop (c :: cs) vs carry ≠ [] := by
  rw [addLoop]; split <;> simp

theorem addLoop_last (cs vs : List Nat) (carry : Nat) (hcs : ∀ c ∈ cs, c < W) (hv : ∀ v ∈ vs, v < W) (hc : carry ≤ 1)
    (h : cs.getLast? ≠ some 0) (h' : vs.getLast? ≠ some 0) : (addLoop cs vs carry).getLast? ≠ some 0 := by
  induction cs generalizing vs carry with
  | nil => rw [addLoop]; exact addTail_last vs carry hv hc h'
  | cons c cs ih =>
    have hcw := hcs c List.mem_cons_self
    have hcs' : ∀ x ∈ cs, x < W := fun x hx => hcs x (List.mem_cons_of_mem _ hx)
    have hl : cs.getLast? ≠ some 0 := by
      cases cs with
      | nil => simp
      | cons y ys => rw [List.getLast?_cons_cons] at h; exact h
    have hl' : vs.tail.getLast? ≠ some 0 := by
      cases vs with
      | nil => simp
      | cons y ys =>
        cases ys with
        | nil => simp
        | cons z zs => rw [List.getLast?_cons_cons] at h'; exact h'
    rw [addLoop]
    split
    · simp only
      generalize hcar : (if (c + vs.headD 0 + carry) % W ≤ c ∧ (vs.headD 0 ||| carry) ≠ 0 then 1 else 0) = carry'
      have hc1 : carry' ≤ 1 := by rw [← hcar]; split <;> omega
      have i := ih vs.tail carry' hcs' (tail_mem hv) hc1 hl hl'
      by_cases he : addLoop cs vs.tail carry' = []
      · rw [he, List.getLast?_singleton]
        have hcs0 : cs = [] := by
          cases cs with
          | nil => rfl
          | cons y ys => exact absurd he (addLoop_ne_nil _ _ _ _)
        subst hcs0
        rw [addLoop] at he
        have hcar0 : carry' = 0 := by
          cases ht : vs.tail with
          | nil => rw [ht, addTail] at he; apply Classical.byContradiction; intro hne; rw [if_pos hne] at he; cases he
          | cons y ys => rw [ht, addTail] at he; cases he
        have hc0 : c ≠ 0 := fun e => h (by rw [e]; rfl)
        have hnc : ¬ ((c + vs.headD 0 + carry) % W ≤ c ∧ (vs.headD 0 ||| carry) ≠ 0) := by
          intro hp; rw [if_pos hp] at hcar; omega
        rw [or_ne_zero] at hnc
        intro e
        have e2 := Option.some.inj e
        rw [e2] at hnc
        have : vs.headD 0 = 0 ∧ carry = 0 := by omega
        rw [this.1, this.2, Nat.add_zero, Nat.mod_eq_of_lt hcw] at e2
        exact hc0 e2
      · rw [getLast?_cons_ne _ he]; exact i
    · exact h

theorem addLoop_zero_right (cs : List Nat) (hcs : ∀ c ∈ cs, c < W) (hn : cs ≠ []) : addLoop cs [0] 0 = cs := by
  cases cs with
  | nil => exact absurd rfl hn
  | cons c cs =>
    have hcw := hcs c List.mem_cons_self
    rw [addLoop]
    simp only [List.headD_cons, List.tail_cons, Nat.add_zero, Nat.mod_eq_of_lt hcw]
    cases cs <;> simp [addLoop, addTail]

theorem addLoop_zero_left (vs : List Nat) (hv : ∀ v ∈ vs, v < W) (hn : vs ≠ []) : addLoop [0] vs 0 = vs := by
  cases vs with
  | nil => exact absurd rfl hn
  | cons v vs =>
    have hvw := hv v List.mem_cons_self
    have hvs : ∀ x ∈ vs, x < W := fun x hx => hv x (List.mem_cons_of_mem _ hx)
    rw [addLoop]
    simp only [List.headD_cons, List.tail_cons, Nat.add_zero, Nat.zero_add, Nat.mod_eq_of_lt hvw]
    have : ¬ (v ≤ 0 ∧ (v ||| 0) ≠ 0) := by rw [or_ne_zero]; omega
    rw [if_neg this, addLoop, addTail_zero vs hvs]
    simp

theorem digits_zero_or {cs : List Nat} (h : Digits cs) : cs = [0] ∨ cs.getLast? ≠ some 0 := by
  obtain ⟨h1, _, h3⟩ := h
  match cs, h1 with
  | [c], _ =>
    by_cases hc : c = 0
    · left; rw [hc]
    · right; simpa using hc
  | _ :: _ :: _, _ => right; exact h3 (by simp)

/-- Addition of magnitudes: exact, and in normal form. -/
theorem add_digits {cs vs : List Nat} (hc : Digits cs) (hv : Digits vs) :
    nat (addLoop cs vs 0) = nat cs + nat vs ∧ Digits (addLoop cs vs 0) := by
  obtain ⟨h1, h2⟩ := addLoop_spec cs vs 0 hc.2.1 hv.2.1 (by omega)
  refine ⟨h1, ?_, h2, ?_⟩
  · match cs, hc.1 with
    | _ :: _, _ => exact addLoop_ne_nil _ _ _ _
  · rcases digits_zero_or hc with e | hcl
    · rw [e, addLoop_zero_left vs hv.2.1 hv.1]; exact hv.2.2
    · rcases digits_zero_or hv with e | hvl
      · rw [e, addLoop_zero_right cs hc.2.1 hc.1]; exact hc.2.2
      · intro _; exact addLoop_last cs vs 0 hc.2.1 hv.2.1 (by omega) hcl hvl

/-- A list of components below `W` has no leading zero iff its number needs all components. -/
theorem last_ne_zero_iff {cs : List Nat} (h : ∀ c ∈ cs, c < W) (hn : cs ≠ []) :
    cs.getLast? ≠ some 0 ↔ W ^ (cs.length - 1) ≤ nat cs := by
  have h0 : cs.length ≠ 0 := fun e => hn (List.length_eq_zero_iff.1 e)
  have hlt : cs.length - 1 < cs.length := by omega
  rw [List.getLast?_eq_getElem?]
  constructor
  · intro hg
    rw [List.getElem?_eq_getElem hlt] at hg
    exact nat_ge (List.getElem?_eq_getElem hlt) (fun e => hg (by rw [e]))
  · intro hg e
    have e2 : cs = cs.take (cs.length - 1) ++ [0] := by
      conv => lhs; rw [← List.take_append_drop (cs.length - 1) cs]
      congr 1
      rw [List.drop_eq_getElem_cons hlt]
      rw [List.getElem?_eq_getElem hlt] at e
      rw [Option.some.inj e, show cs.length - 1 + 1 = cs.length by omega, List.drop_length]
    have h1 : nat cs = nat (cs.take (cs.length - 1)) := by
      conv => lhs; rw [e2]
      rw [nat_append]; simp [nat]
    have h2 := nat_lt (cs := cs.take (cs.length - 1)) (fun c hc => h c (List.mem_of_mem_take hc))
    rw [List.length_take, Nat.min_eq_left (by omega)] at h2
    omega

end Verif.BigInt
