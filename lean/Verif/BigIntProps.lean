import Verif.BigIntSub
import Verif.PList
/-!
# C28: big integer arithmetic
-/
namespace Verif.BigInt
open Spec

section
attribute [local irreducible] W

/-! ## Comparison -/

/-- Comparison of big integers in normal form is the order of the integers. -/
theorem C28_compare (a b : BI) (ha : Norm a) (hb : Norm b) : compareBig a b = order (value a) (value b) := by
  have hc := compareComponents_spec ha.1 hb.1
  have za := ha.2
  have zb := hb.2
  unfold compareBig value order
  cases hsa : a.sign <;> cases hsb : b.sign <;> simp only [hsa, hsb] at za zb ⊢
  · simp only [ne_eq, not_true_eq_false, if_false, Bool.false_eq_true, hc]
    by_cases h1 : nat a.comps < nat b.comps
    · have h1' : (nat a.comps : Int) < nat b.comps := by omega
      rw [if_pos h1, if_pos h1']
    · have h1' : ¬ (nat a.comps : Int) < nat b.comps := by omega
      rw [if_neg h1, if_neg h1']
      by_cases h2 : nat a.comps = nat b.comps
      · have h2' : (nat a.comps : Int) = nat b.comps := by omega
        rw [if_pos h2, if_pos h2']
      · have h2' : ¬ (nat a.comps : Int) = nat b.comps := by omega
        rw [if_neg h2, if_neg h2']
  · have : nat b.comps ≠ 0 := fun e => by simpa using zb e
    simp only [ne_eq, Bool.false_eq_true, not_false_eq_true, if_true, if_false]
    rw [if_neg (by omega), if_neg (by omega)]
  · have : nat a.comps ≠ 0 := fun e => by simpa using za e
    simp only [ne_eq, Bool.true_eq_false, not_false_eq_true, if_true, Bool.false_eq_true, if_false]
    rw [if_pos (by omega)]
  · simp only [ne_eq, not_true_eq_false, if_false, if_true, hc]
    by_cases h1 : nat a.comps < nat b.comps
    · rw [if_pos h1, if_neg (by omega), if_neg (by omega)]; rfl
    · rw [if_neg h1]
      by_cases h2 : nat a.comps = nat b.comps
      · rw [if_pos h2, if_neg (by omega), if_pos (by omega)]; rfl
      · rw [if_neg h2, if_pos (by omega)]; rfl

theorem W_eq : W = 2 ^ 63 + 2 ^ 63 := by unfold W; omega
theorem W_gt : 2 ^ 63 < W := by rw [W_eq]; omega

theorem absInt_spec {v : Int} (h : Int64 v) : absInt v = some v.natAbs := by
  unfold absInt; rw [if_neg (by have := h.1; omega)]

theorem digits_single {n : Nat} (h : n < W) : Digits [n] :=
  ⟨by simp, by intro c hc; simp at hc; omega, by simp⟩

theorem natAbs_lt {v : Int} (h : Int64 v) : v.natAbs < W := by
  have := W_gt; have := h.1; have := h.2; omega

theorem nat_single (n : Nat) : nat [n] = n := by simp [nat]

/-- Storing an integer. -/
theorem C28_set_int (v : Int) (h : Int64 v) : ∃ r, setInt v = some r ∧ Norm r ∧ value r = v := by
  refine ⟨⟨decide (v < 0), [v.natAbs]⟩, ?_, ⟨digits_single (natAbs_lt h), ?_⟩, ?_⟩
  · unfold setInt; rw [absInt_spec h]; rfl
  · intro e; rw [nat_single] at e; simp; omega
  · unfold value; rw [nat_single]
    by_cases hv : v < 0
    · simp only [hv, decide_true, if_true]; omega
    · simp only [hv, decide_false, Bool.false_eq_true, if_false]; omega

/-- Comparison with a 64-bit integer. -/
theorem C28_compare_int (a : BI) (v : Int) (ha : Norm a) (hv : Int64 v) : compareInt a v = some (order (value a) v) := by
  obtain ⟨r, e, hr, hval⟩ := C28_set_int v hv
  unfold compareInt
  rw [e, Option.bind_eq_bind, Option.bind_some, C28_compare a r ha hr, hval]

/-! ## Copy -/

theorem copyPages_spec (fuel n : Nat) (cs : List Nat) (hf : cs.length ≤ fuel) :
    copyPages fuel n cs = if cs.length % 16 = 0 ∨ (n = 0 ∧ cs.length ≤ 16) then some cs else none := by
  induction fuel generalizing n cs with
  | zero =>
    have : cs = [] := List.length_eq_zero_iff.1 (by omega)
    subst this; simp [copyPages]
  | succ fuel ih =>
    cases cs with
    | nil => simp [copyPages]
    | cons c cs =>
      rw [copyPages]
      have hl : 1 ≤ (c :: cs).length := by simp
      generalize c :: cs = l at *
      have htl : (l.take 16).length = min 16 l.length := List.length_take
      by_cases hp : n ≠ 0 ∧ (l.take 16).length ≠ 16
      · rw [if_pos hp, if_neg]
        omega
      · rw [if_neg hp, ih (n + 16) (l.drop 16) (by simp; omega), List.length_drop]
        by_cases hq : l.length % 16 = 0 ∨ n = 0 ∧ l.length ≤ 16
        · have hq' : (l.length - 16) % 16 = 0 ∨ n + 16 = 0 ∧ l.length - 16 ≤ 16 := by omega
          rw [if_pos hq, if_pos hq', Option.bind_eq_bind, Option.bind_some, List.take_append_drop]
        · have hq' : ¬ ((l.length - 16) % 16 = 0 ∨ n + 16 = 0 ∧ l.length - 16 ≤ 16) := by omega
          rw [if_neg hq, if_neg hq']; rfl

/-- Copying a big integer: exact for at most 16 components and for whole pages; otherwise the list
reads beyond the source page. -/
theorem C28_copy_iff (v : BI) : setBig v = if CopyRight v.comps then some v else none := by
  unfold setBig
  rw [copyPages_spec _ _ _ (Nat.le_refl _)]
  by_cases h : v.comps.length % 16 = 0 ∨ (0 = 0 ∧ v.comps.length ≤ 16)
  · have h' : CopyRight v.comps := by unfold CopyRight; omega
    rw [if_pos h, if_pos h']; rfl
  · have h' : ¬ CopyRight v.comps := by unfold CopyRight; omega
    rw [if_neg h, if_neg h']; rfl

/-! ## Addition and subtraction -/

theorem differ_spec (a b : BI) (ha : Norm a) (hb : Norm b) :
    (DiffRight a.comps b.comps → ∃ r, differ a b = some r ∧ Digits r.comps ∧
      (if nat b.comps ≤ nat a.comps then r.sign = a.sign ∧ nat r.comps = nat a.comps - nat b.comps
       else r.sign = !a.sign ∧ nat r.comps = nat b.comps - nat a.comps)) ∧
    (¬ DiffRight a.comps b.comps → ∀ r, differ a b = some r →
      (if nat b.comps ≤ nat a.comps then r.sign = a.sign ∧ nat r.comps ≠ nat a.comps - nat b.comps
       else r.sign = !a.sign ∧ nat r.comps ≠ nat b.comps - nat a.comps)) := by
  have hc := compareComponents_spec ha.1 hb.1
  unfold differ
  by_cases hlt : nat a.comps < nat b.comps
  · have hn : ¬ nat b.comps ≤ nat a.comps := by omega
    simp only [hc, if_pos hlt, ne_eq, not_true_eq_false, if_false, C28_copy_iff, if_neg hn]
    by_cases hcp : CopyRight b.comps
    · simp only [if_pos hcp, Option.bind_eq_bind, Option.bind_some]
      obtain ⟨r, h1, h2, h3, h4⟩ := applySub_spec b a.comps hb.1 ha.1 (by omega)
      rw [h1]
      simp only [Option.bind_some]
      constructor
      · intro hd
        have hs : SubRight b.comps a.comps := by
          rcases hd with h | h
          · omega
          · exact h.2.1
        exact ⟨_, rfl, (h3 hs).2, rfl, (h3 hs).1⟩
      · intro hd r' he
        have hs : ¬ SubRight b.comps a.comps := fun h => hd (Or.inr ⟨hlt, h, hcp⟩)
        rw [← Option.some.inj he]
        exact ⟨rfl, h4 hs⟩
    · simp only [if_neg hcp, Option.bind_eq_bind, Option.bind_none]
      constructor
      · intro hd
        rcases hd with h | h
        · omega
        · exact absurd h.2.2 hcp
      · intro _ r' he; cases he
  · have hle : nat b.comps ≤ nat a.comps := by omega
    have hne : (if nat a.comps < nat b.comps then Ordering.lt else if nat a.comps = nat b.comps then .eq else .gt) ≠ .lt := by
      rw [if_neg hlt]; split <;> simp
    rw [hc, if_pos hne]
    simp only [if_pos hle]
    obtain ⟨r, h1, h2, h3, h4⟩ := applySub_spec a b.comps ha.1 hb.1 hle
    rw [h1]
    constructor
    · intro hd
      have hs : SubRight a.comps b.comps := by
        rcases hd with h | h
        · exact h.2
        · omega
      exact ⟨_, rfl, (h3 hs).2, h2, (h3 hs).1⟩
    · intro hd r' he
      have hs : ¬ SubRight a.comps b.comps := fun h => hd (Or.inl ⟨hle, h⟩)
      rw [← Option.some.inj he]
      exact ⟨h2, h4 hs⟩

/-- **C28 (partial)**, addition: exact and in normal form whenever the signs agree or the
subtraction of magnitudes is one the code does right and the result is not a zero carrying the sign
of a negative first operand. Missing: the other subtractions, on which the property is false
(`C28_add_only`). -/
theorem C28_add_partial (a b : BI) (ha : Norm a) (hb : Norm b) (h : a.sign = b.sign ∨ DiffRight a.comps b.comps) :
    ∃ r, addBig a b = some r ∧ value r = value a + value b ∧ Digits r.comps ∧ ((value a + value b = 0 → a.sign = false) → Norm r) := by
  unfold addBig
  by_cases hs : a.sign = b.sign
  · rw [if_pos hs]
    obtain ⟨h1, h2⟩ := add_digits ha.1 hb.1
    refine ⟨_, rfl, ?_, h2, fun _ => ⟨h2, ?_⟩⟩
    · unfold value applyAdd; simp only; rw [h1, ← hs]; split <;> omega
    · unfold applyAdd; simp only; rw [h1]; intro e; exact ha.2 (by omega)
  · rw [if_neg hs]
    have hd : DiffRight a.comps b.comps := h.resolve_left hs
    obtain ⟨r, e, hr, hv⟩ := (differ_spec a b ha hb).1 hd
    refine ⟨r, e, ?_, hr, fun hz => ⟨hr, ?_⟩⟩
    · unfold value
      split at hv <;> (rw [hv.1, hv.2]; revert hs; cases a.sign <;> cases b.sign <;> simp <;> omega)
    · intro e0
      by_cases hle : nat b.comps ≤ nat a.comps
      · rw [if_pos hle] at hv
        rw [hv.1]
        apply hz
        unfold value
        revert hs; cases a.sign <;> cases b.sign <;> simp <;> omega
      · rw [if_neg hle] at hv; omega

/-- Outside these cases the stored integer is never the sum: the defect is exactly there. -/
theorem C28_add_only (a b : BI) (ha : Norm a) (hb : Norm b) (r : BI) (hr : addBig a b = some r)
    (hv : value r = value a + value b) : a.sign = b.sign ∨ DiffRight a.comps b.comps := by
  apply Classical.byContradiction
  intro h
  have hs : ¬ a.sign = b.sign := fun e => h (Or.inl e)
  have hd : ¬ DiffRight a.comps b.comps := fun e => h (Or.inr e)
  unfold addBig at hr
  rw [if_neg hs] at hr
  have := (differ_spec a b ha hb).2 hd r hr
  unfold value at hv
  by_cases hle : nat b.comps ≤ nat a.comps
  · rw [if_pos hle] at this
    rw [this.1] at hv
    revert hv hs; cases a.sign <;> cases b.sign <;> simp <;> omega
  · rw [if_neg hle] at this
    rw [this.1] at hv
    revert hv hs; cases a.sign <;> cases b.sign <;> simp <;> omega

/-- **C28 (partial)**, subtraction. Missing: see `C28_sub_only`. -/
theorem C28_sub_partial (a b : BI) (ha : Norm a) (hb : Norm b) (h : a.sign ≠ b.sign ∨ DiffRight a.comps b.comps) :
    ∃ r, subBig a b = some r ∧ value r = value a - value b ∧ Digits r.comps ∧ ((value a - value b = 0 → a.sign = false) → Norm r) := by
  unfold subBig
  by_cases hs : a.sign = b.sign
  · rw [if_neg (by simpa using hs)]
    have hd : DiffRight a.comps b.comps := h.resolve_left (by simpa using hs)
    obtain ⟨r, e, hr, hv⟩ := (differ_spec a b ha hb).1 hd
    refine ⟨r, e, ?_, hr, fun hz => ⟨hr, ?_⟩⟩
    · unfold value
      split at hv <;> (rw [hv.1, hv.2]; revert hs; cases a.sign <;> cases b.sign <;> simp <;> omega)
    · intro e0
      by_cases hle : nat b.comps ≤ nat a.comps
      · rw [if_pos hle] at hv
        rw [hv.1]
        apply hz
        unfold value
        revert hs; cases a.sign <;> cases b.sign <;> simp <;> omega
      · rw [if_neg hle] at hv; omega
  · rw [if_pos hs]
    obtain ⟨h1, h2⟩ := add_digits ha.1 hb.1
    refine ⟨_, rfl, ?_, h2, fun _ => ⟨h2, ?_⟩⟩
    · unfold value applyAdd; simp only; rw [h1]; revert hs; cases a.sign <;> cases b.sign <;> simp <;> omega
    · unfold applyAdd; simp only; rw [h1]; intro e; exact ha.2 (by omega)

theorem C28_sub_only (a b : BI) (ha : Norm a) (hb : Norm b) (r : BI) (hr : subBig a b = some r)
    (hv : value r = value a - value b) : a.sign ≠ b.sign ∨ DiffRight a.comps b.comps := by
  apply Classical.byContradiction
  intro h
  have hs : a.sign = b.sign := Classical.byContradiction fun e => h (Or.inl e)
  have hd : ¬ DiffRight a.comps b.comps := fun e => h (Or.inr e)
  unfold subBig at hr
  rw [if_neg (by simpa using hs)] at hr
  have := (differ_spec a b ha hb).2 hd r hr
  unfold value at hv
  by_cases hle : nat b.comps ≤ nat a.comps
  · rw [if_pos hle] at this
    rw [this.1] at hv
    revert hv hs; cases a.sign <;> cases b.sign <;> simp <;> omega
  · rw [if_neg hle] at this
    rw [this.1] at hv
    revert hv hs; cases a.sign <;> cases b.sign <;> simp <;> omega

/-- Taking a 64-bit magnitude from the components. -/
theorem applySub_int (a : BI) (n : Nat) (ha : Norm a) (hn : n < 2 ^ 63) :
    (IntRight a.comps n → ∃ r, applySub a [n] = some r ∧ Digits r.comps ∧
      (if n ≤ nat a.comps then r.sign = a.sign ∧ nat r.comps = nat a.comps - n
       else r.sign = !a.sign ∧ nat r.comps = n - nat a.comps)) ∧
    (¬ IntRight a.comps n → ∀ r, applySub a [n] = some r → r.sign = a.sign ∧ n ≤ nat a.comps ∧ nat r.comps ≠ nat a.comps - n) := by
  have hW := W_gt
  have hW2 := W_eq
  have hdn : Digits [n] := digits_single (by omega)
  by_cases hle : n ≤ nat a.comps
  · obtain ⟨r, h1, h2, h3, h4⟩ := applySub_spec a [n] ha.1 hdn (by rw [nat_single]; exact hle)
    rw [nat_single] at h3 h4
    rw [h1]
    simp only [if_pos hle]
    constructor
    · intro h
      have hs : SubRight a.comps [n] := h.resolve_left (by omega)
      exact ⟨r, rfl, (h3 hs).2, h2, (h3 hs).1⟩
    · intro h r' he
      rw [← Option.some.inj he]
      exact ⟨h2, hle, h4 (fun e => h (Or.inr e))⟩
  · have hlen : a.comps.length = 1 := by
      have h0 : a.comps.length ≠ 0 := fun e => ha.1.1 (List.length_eq_zero_iff.1 e)
      apply Classical.byContradiction; intro hne
      have := nat_lt_of_length hdn ha.1 (by simp; omega)
      rw [nat_single] at this; omega
    obtain ⟨c, hc⟩ : ∃ c, a.comps = [c] := List.length_eq_one_iff.1 hlen
    have hca : nat a.comps = c := by rw [hc, nat_single]
    rw [hca] at hle ⊢
    have hn' : n % W = n := Nat.mod_eq_of_lt (by omega)
    have hb : c < n ∨ c < n ∨ (0 : Nat) ≠ 0 ∧ n = W - 1 := by omega
    have hcm : (c + (W - n)) % W = c + (W - n) := Nat.mod_eq_of_lt (by omega)
    have hrun : applySub a [n] = some ⟨!a.sign, [W - (c + (W - n))]⟩ := by
      unfold applySub
      rw [hc]
      have h1 : (subLoop [c] [n] 0 0 0) = ⟨[c + (W - n)], [], 1, 0⟩ := by
        simp only [subLoop, List.headD_cons, List.tail_cons, Nat.add_zero, hn', hcm, if_pos hb, ne_eq, not_true_eq_false, false_or,
          List.cons_ne_nil, not_false_eq_true, if_true]
        simp
        omega
      rw [h1]
      simp only [ne_eq, not_true_eq_false, if_false, List.length_singleton]
      have h2 : removeLoop 1 1 (0 + 1) [c + (W - n)] = some [c + (W - n)] := by
        simp [removeLoop]
      rw [h2, Option.bind_eq_bind, Option.bind_some]
      unfold fixSign
      simp only [ne_eq, Nat.one_ne_zero, not_false_eq_true, if_true]
      rw [if_neg (show ¬ (c + (W - n) = 2 ^ 63) by omega), if_neg (show ¬ (c + (W - n) < 2 ^ 63) by omega)]
    rw [hrun]
    constructor
    · intro _
      refine ⟨_, rfl, digits_single (by omega), ?_⟩
      rw [if_neg hle]
      exact ⟨rfl, by rw [nat_single]; omega⟩
    · intro h
      exact absurd (Or.inl (by omega)) h

/-- **C28 (partial)**, adding a 64-bit integer. Missing: see `C28_add_int_only`, and `INT64_MIN`. -/
theorem C28_add_int_partial (a : BI) (v : Int) (ha : Norm a) (hv : Int64 v)
    (h : a.sign = decide (v < 0) ∨ IntRight a.comps v.natAbs) :
    ∃ r, addInt a v = some r ∧ value r = value a + v ∧ Digits r.comps ∧ ((value a + v = 0 → a.sign = false) → Norm r) := by
  unfold addInt
  rw [absInt_spec hv, Option.bind_eq_bind, Option.bind_some]
  by_cases hs : a.sign = decide (v < 0)
  · rw [if_pos hs]
    obtain ⟨h1, h2⟩ := add_digits ha.1 (digits_single (natAbs_lt hv))
    rw [nat_single] at h1
    refine ⟨_, rfl, ?_, h2, fun _ => ⟨h2, ?_⟩⟩
    · unfold value applyAdd; simp only; rw [h1]
      revert hs; cases a.sign <;> by_cases hv0 : v < 0 <;> simp [hv0] <;> omega
    · unfold applyAdd; simp only; rw [h1]; intro e; exact ha.2 (by omega)
  · rw [if_neg hs]
    have hd := h.resolve_left hs
    obtain ⟨r, e, hr, hval⟩ := (applySub_int a v.natAbs ha (by have := hv.1; have := hv.2; omega)).1 hd
    refine ⟨r, e, ?_, hr, fun hz => ⟨hr, ?_⟩⟩
    · unfold value
      split at hval <;> (rw [hval.1, hval.2]; revert hs; cases a.sign <;> by_cases hv0 : v < 0 <;> simp [hv0] <;> omega)
    · intro e0
      by_cases hle : v.natAbs ≤ nat a.comps
      · rw [if_pos hle] at hval
        rw [hval.1]
        apply hz
        unfold value
        revert hs; cases a.sign <;> by_cases hv0 : v < 0 <;> simp [hv0] <;> omega
      · rw [if_neg hle] at hval; omega

theorem C28_add_int_only (a : BI) (v : Int) (ha : Norm a) (hv : Int64 v) (r : BI) (hr : addInt a v = some r)
    (hval : value r = value a + v) : a.sign = decide (v < 0) ∨ IntRight a.comps v.natAbs := by
  apply Classical.byContradiction
  intro h
  have hs : ¬ a.sign = decide (v < 0) := fun e => h (Or.inl e)
  have hd : ¬ IntRight a.comps v.natAbs := fun e => h (Or.inr e)
  unfold addInt at hr
  rw [absInt_spec hv, Option.bind_eq_bind, Option.bind_some, if_neg hs] at hr
  have := (applySub_int a v.natAbs ha (by have := hv.1; have := hv.2; omega)).2 hd r hr
  unfold value at hval
  rw [this.1] at hval
  revert hval hs; cases a.sign <;> by_cases hv0 : v < 0 <;> simp [hv0] <;> omega

/-- **C28 (partial)**, subtracting a 64-bit integer. -/
theorem C28_sub_int_partial (a : BI) (v : Int) (ha : Norm a) (hv : Int64 v)
    (h : a.sign ≠ decide (v < 0) ∨ IntRight a.comps v.natAbs) :
    ∃ r, subInt a v = some r ∧ value r = value a - v ∧ Digits r.comps ∧ ((value a - v = 0 → a.sign = false) → Norm r) := by
  unfold subInt
  rw [absInt_spec hv, Option.bind_eq_bind, Option.bind_some]
  by_cases hs : a.sign = decide (v < 0)
  · rw [if_neg (by simpa using hs)]
    have hd := h.resolve_left (by simpa using hs)
    obtain ⟨r, e, hr, hval⟩ := (applySub_int a v.natAbs ha (by have := hv.1; have := hv.2; omega)).1 hd
    refine ⟨r, e, ?_, hr, fun hz => ⟨hr, ?_⟩⟩
    · unfold value
      split at hval <;> (rw [hval.1, hval.2]; revert hs; cases a.sign <;> by_cases hv0 : v < 0 <;> simp [hv0] <;> omega)
    · intro e0
      by_cases hle : v.natAbs ≤ nat a.comps
      · rw [if_pos hle] at hval
        rw [hval.1]
        apply hz
        unfold value
        revert hs; cases a.sign <;> by_cases hv0 : v < 0 <;> simp [hv0] <;> omega
      · rw [if_neg hle] at hval; omega
  · rw [if_pos hs]
    obtain ⟨h1, h2⟩ := add_digits ha.1 (digits_single (natAbs_lt hv))
    rw [nat_single] at h1
    refine ⟨_, rfl, ?_, h2, fun _ => ⟨h2, ?_⟩⟩
    · unfold value applyAdd; simp only; rw [h1]
      revert hs; cases a.sign <;> by_cases hv0 : v < 0 <;> simp [hv0] <;> omega
    · unfold applyAdd; simp only; rw [h1]; intro e; exact ha.2 (by omega)

theorem C28_sub_int_only (a : BI) (v : Int) (ha : Norm a) (hv : Int64 v) (r : BI) (hr : subInt a v = some r)
    (hval : value r = value a - v) : a.sign ≠ decide (v < 0) ∨ IntRight a.comps v.natAbs := by
  apply Classical.byContradiction
  intro h
  have hs : a.sign = decide (v < 0) := Classical.byContradiction fun e => h (Or.inl e)
  have hd : ¬ IntRight a.comps v.natAbs := fun e => h (Or.inr e)
  unfold subInt at hr
  rw [absInt_spec hv, Option.bind_eq_bind, Option.bind_some, if_neg (by simpa using hs)] at hr
  have := (applySub_int a v.natAbs ha (by have := hv.1; have := hv.2; omega)).2 hd r hr
  unfold value at hval
  rw [this.1] at hval
  revert hval hs; cases a.sign <;> by_cases hv0 : v < 0 <;> simp [hv0] <;> omega

end

/-! ## Histories -/

/-- One call. -/
def step (a : BI) : Op → Option BI
  | .setInt v => setInt v
  | .setBig v => setBig v
  | .addBig v => addBig a v
  | .subBig v => subBig a v
  | .addInt v => addInt a v
  | .subInt v => subInt a v

/-- A history of calls from a fresh big integer, each done right and not producing a negative zero;
`x` is the mathematical result. -/
inductive History : BI → Int → Prop
  | create : History create 0
  | call (a x op a') : History a x → op.Right a → (op.meaning x = 0 → a.sign = false ∨ (∃ v, op = .setInt v) ∨ (∃ v, op = .setBig v)) →
      step a op = some a' → History a' (op.meaning x)

/-- **C28 (partial)**, whole histories: the big integer holds the mathematical result, in normal
form, and every further call that is done right succeeds. -/
theorem C28_history_partial (a : BI) (x : Int) (h : History a x) :
    Norm a ∧ value a = x ∧ ∀ op : Op, op.Right a → ∃ a', step a op = some a' ∧ value a' = op.meaning x := by
  have base : Norm a ∧ value a = x := by
    induction h with
    | create => exact ⟨⟨⟨by simp [create], by simp [create, W], by simp [create]⟩, by simp [create]⟩, rfl⟩
    | call a x op a' _ hr hz hs ih =>
      obtain ⟨hn, hx⟩ := ih
      subst hx
      cases op with
      | setInt v =>
        obtain ⟨r, e, h1, h2⟩ := C28_set_int v hr
        rw [show step a (.setInt v) = setInt v from rfl, e] at hs
        rw [← Option.some.inj hs]; exact ⟨h1, h2⟩
      | setBig v =>
        rw [show step a (.setBig v) = setBig v from rfl, C28_copy_iff, if_pos hr.2] at hs
        rw [← Option.some.inj hs]; exact ⟨hr.1, rfl⟩
      | addBig v =>
        obtain ⟨r, e, h1, _, h2⟩ := C28_add_partial a v hn hr.1 hr.2
        rw [show step a (.addBig v) = addBig a v from rfl, e] at hs
        rw [← Option.some.inj hs]; exact ⟨h2 (fun h0 => by simpa using hz h0), h1⟩
      | subBig v =>
        obtain ⟨r, e, h1, _, h2⟩ := C28_sub_partial a v hn hr.1 hr.2
        rw [show step a (.subBig v) = subBig a v from rfl, e] at hs
        rw [← Option.some.inj hs]; exact ⟨h2 (fun h0 => by simpa using hz h0), h1⟩
      | addInt v =>
        obtain ⟨r, e, h1, _, h2⟩ := C28_add_int_partial a v hn hr.1 hr.2
        rw [show step a (.addInt v) = addInt a v from rfl, e] at hs
        rw [← Option.some.inj hs]; exact ⟨h2 (fun h0 => by simpa using hz h0), h1⟩
      | subInt v =>
        obtain ⟨r, e, h1, _, h2⟩ := C28_sub_int_partial a v hn hr.1 hr.2
        rw [show step a (.subInt v) = subInt a v from rfl, e] at hs
        rw [← Option.some.inj hs]; exact ⟨h2 (fun h0 => by simpa using hz h0), h1⟩
  refine ⟨base.1, base.2, fun op hr => ?_⟩
  obtain ⟨hn, hx⟩ := base
  subst hx
  cases op with
  | setInt v => obtain ⟨r, e, _, h2⟩ := C28_set_int v hr; exact ⟨r, e, h2⟩
  | setBig v => exact ⟨v, by rw [show step a (.setBig v) = setBig v from rfl, C28_copy_iff, if_pos hr.2], rfl⟩
  | addBig v => obtain ⟨r, e, h1, _⟩ := C28_add_partial a v hn hr.1 hr.2; exact ⟨r, e, h1⟩
  | subBig v => obtain ⟨r, e, h1, _⟩ := C28_sub_partial a v hn hr.1 hr.2; exact ⟨r, e, h1⟩
  | addInt v => obtain ⟨r, e, h1, _⟩ := C28_add_int_partial a v hn hr.1 hr.2; exact ⟨r, e, h1⟩
  | subInt v => obtain ⟨r, e, h1, _⟩ := C28_sub_int_partial a v hn hr.1 hr.2; exact ⟨r, e, h1⟩

/-! ## The property as stated is false -/

/-- `7 * 2^64 + 5` minus 1 stores 4. -/
theorem C28_refuted : ¬ ∀ (a : BI) (v : Int), Norm a → Int64 v → ∃ r, subInt a v = some r ∧ value r = value a - v := by
  intro h
  obtain ⟨r, e, hv⟩ := h ⟨false, [5, 7]⟩ 1 ⟨⟨by decide, by decide, by decide⟩, by decide⟩ (by decide)
  have : subInt ⟨false, [5, 7]⟩ 1 = some ⟨false, [4]⟩ := by decide
  rw [this] at e
  rw [← Option.some.inj e] at hv
  exact absurd hv (by decide)

/-- Adding zero to a negative number with two components drops the upper one. -/
theorem C28_add_zero_refuted : addInt ⟨true, [5, 7]⟩ 0 = some ⟨true, [5]⟩ := by decide

/-- `-5 + 5` stores a negative zero, which compares less than zero. -/
theorem C28_negative_zero_refuted :
    ∃ r, addInt ⟨true, [5]⟩ 5 = some r ∧ value r = 0 ∧ ¬ Norm r ∧ compareInt r 0 = some .lt := by
  refine ⟨⟨true, [0]⟩, by decide, by decide, ?_, by decide⟩
  intro h; exact absurd (h.2 (by decide)) (by decide)

/-- Storing, adding or subtracting `INT64_MIN` overflows. -/
theorem C28_int_min_refuted (a : BI) : setInt (-(2 ^ 63)) = none ∧ addInt a (-(2 ^ 63)) = none ∧ subInt a (-(2 ^ 63)) = none :=
  ⟨rfl, rfl, rfl⟩

/-- The copy of 17 components on the model of the list: the second page is appended with a read
beyond its end. -/
theorem C28_copy_refuted (p : List Nat) (hp : p.length = 17) : setBig ⟨false, p⟩ = none := by
  rw [C28_copy_iff, if_neg]
  unfold CopyRight; rw [hp]; omega

/-- The same copy, run on the model of the list itself. -/
example : (do
    let L ← PList.create Nat 4 16
    let (L, _) ← PList.appendN L (.buf (List.replicate 16 1))
    let (L, _) ← PList.appendN L (.buf [2])
    return L.count : Except _ Nat) = .error .outOfBounds := by rfl

/-! ## Examples: the hypotheses are met -/

example : Norm ⟨true, [5, 7]⟩ := ⟨⟨by decide, by decide, by decide⟩, by decide⟩
example : SubRight [0, 7] [1] ∧ SubRight [5, 7] [6, 3] ∧ SubRight [5, 7] [1, 7] ∧ ¬ SubRight [5, 7] [1] := by decide
example : DiffRight [5, 7] [0, 9] ∧ DiffRight [3] [0, 9] ∧ IntRight [0, 7] 1 ∧ IntRight [3] 12 := by decide
example : subBig ⟨false, [0, 7]⟩ ⟨false, [1]⟩ = some ⟨false, [18446744073709551615, 6]⟩ := by decide
example : History ⟨true, [2]⟩ (-2) :=
  .call _ _ (.addInt (-7)) _ (.call create 0 (.setInt 5) ⟨false, [5]⟩ .create (show Int64 5 by decide) (by simp) rfl)
    (show Int64 (-7) ∧ ((false : Bool) = true ∨ IntRight [5] 7) by decide) (fun _ => Or.inl rfl) (by decide)

#print axioms C28_compare
#print axioms C28_compare_int
#print axioms C28_set_int
#print axioms C28_copy_iff
#print axioms C28_add_partial
#print axioms C28_add_only
#print axioms C28_sub_partial
#print axioms C28_sub_only
#print axioms C28_add_int_partial
#print axioms C28_add_int_only
#print axioms C28_sub_int_partial
#print axioms C28_sub_int_only
#print axioms C28_history_partial
#print axioms C28_refuted

end Verif.BigInt
