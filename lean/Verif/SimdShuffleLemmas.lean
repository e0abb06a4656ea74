import Verif.SimdShuffle
import Verif.SimdShuffleSpec

/-!
# Lemmas for C93

The instructions do not look at the values of the lanes: they commute with any change of the
values.  A vector is a change of the values of the vector of lane numbers, so it suffices to know
what each case of the tables does to the lane numbers.
-/
namespace Verif.SimdShuffle

open Spec

section natural

variable {α β : Type} (f : α → β)

theorem pairs_map : ∀ (n : Nat) (a : List α), a.length ≤ n →
    pairs (a.map f) = (pairs a).map (Prod.map f f)
  | _, [], _ => rfl
  | _, [_], _ => rfl
  | n + 2, x :: y :: r, h => by
      simp only [List.map_cons, pairs]
      rw [pairs_map n r (by simp at h; omega)]
      rfl
  | 0, _ :: _ :: _, h => by simp at h
  | 1, _ :: _ :: _, h => by simp at h

theorem pairs_map' (a : List α) : pairs (a.map f) = (pairs a).map (Prod.map f f) :=
  pairs_map f a.length a (Nat.le_refl _)

theorem unpairs_map : ∀ (a : List (α × α)), unpairs (a.map (Prod.map f f)) = (unpairs a).map f
  | [] => rfl
  | (x, y) :: r => by
      simp only [List.map_cons, Prod.map_apply, unpairs]
      rw [unpairs_map r]

theorem alternate_map : ∀ (a b : List α), alternate (a.map f) (b.map f) = (alternate a b).map f
  | [], _ => by simp [alternate]
  | _ :: _, [] => by simp [alternate]
  | x :: r, y :: s => by
      simp only [List.map_cons, alternate]
      rw [alternate_map r s]

theorem evens_map : ∀ (n : Nat) (a : List α), a.length ≤ n → evens (a.map f) = (evens a).map f
  | _, [], _ => rfl
  | _, [_], _ => rfl
  | n + 2, x :: y :: r, h => by
      simp only [List.map_cons, evens]
      rw [evens_map n r (by simp at h; omega)]
  | 0, _ :: _ :: _, h => by simp at h
  | 1, _ :: _ :: _, h => by simp at h

theorem evens_map' (a : List α) : evens (a.map f) = (evens a).map f :=
  evens_map f a.length a (Nat.le_refl _)

theorem odds_map : ∀ (n : Nat) (a : List α), a.length ≤ n → odds (a.map f) = (odds a).map f
  | _, [], _ => rfl
  | _, [_], _ => rfl
  | n + 2, x :: y :: r, h => by
      simp only [List.map_cons, odds]
      rw [odds_map n r (by simp at h; omega)]
  | 0, _ :: _ :: _, h => by simp at h
  | 1, _ :: _ :: _, h => by simp at h

theorem odds_map' (a : List α) : odds (a.map f) = (odds a).map f :=
  odds_map f a.length a (Nat.le_refl _)

theorem rev2_map : ∀ (n : Nat) (a : List α), a.length ≤ n → rev2 (a.map f) = (rev2 a).map f
  | _, [], _ => rfl
  | _, [_], _ => rfl
  | n + 2, x :: y :: r, h => by
      simp only [List.map_cons, rev2]
      rw [rev2_map n r (by simp at h; omega)]
  | 0, _ :: _ :: _, h => by simp at h
  | 1, _ :: _ :: _, h => by simp at h

theorem rev2_map' (a : List α) : rev2 (a.map f) = (rev2 a).map f :=
  rev2_map f a.length a (Nat.le_refl _)

theorem dup_map (a : List α) (i : Nat) : dup (a.map f) i = (dup a i).map (List.map f) := by
  simp only [dup, List.getElem?_map, List.length_map]
  cases a[i]? <;> simp

theorem copy_map (a : List α) (i : Nat) (b : List α) (j : Nat) :
    copy (a.map f) i (b.map f) j = (copy a i b j).map (List.map f) := by
  simp only [copy, List.getElem?_map, List.length_map]
  split
  · cases b[j]? <;> simp [List.map_set]
  · rfl

theorem ext_map (a b : List α) (k : Nat) :
    ext (a.map f) (b.map f) k = (ext a b k).map (List.map f) := by
  simp only [ext, List.length_map]
  split
  · simp only [Option.map_some, ← List.map_append, ← List.map_drop, ← List.map_take]
  · rfl

theorem zip1_map (a b : List α) : zip1 (a.map f) (b.map f) = (zip1 a b).map f := by
  simp only [zip1, List.length_map, ← List.map_take, alternate_map]

theorem zip2_map (a b : List α) : zip2 (a.map f) (b.map f) = (zip2 a b).map f := by
  simp only [zip2, List.length_map, ← List.map_drop, alternate_map]

theorem eval_map (a b : List α) (e : E) :
    e.eval (a.map f) (b.map f) = (e.eval a b).map (List.map f) := by
  induction e with
  | a => rfl
  | b => rfl
  | dup x i hx =>
    simp only [E.eval, hx]
    cases x.eval a b <;> simp [dup_map]
  | copy x i y j hx hy =>
    simp only [E.eval, hx, hy]
    cases x.eval a b <;> cases y.eval a b <;> simp [copy_map]
  | ext x y k hx hy =>
    simp only [E.eval, hx, hy]
    cases x.eval a b <;> cases y.eval a b <;> simp [ext_map]
  | zip1 x y hx hy =>
    simp only [E.eval, hx, hy]
    cases x.eval a b <;> cases y.eval a b <;> simp [zip1_map]
  | zip2 x y hx hy =>
    simp only [E.eval, hx, hy]
    cases x.eval a b <;> cases y.eval a b <;> simp [zip2_map]
  | uzp1 x y hx hy =>
    simp only [E.eval, hx, hy]
    cases x.eval a b <;> cases y.eval a b <;> simp [← List.map_append, evens_map']
  | uzp2 x y hx hy =>
    simp only [E.eval, hx, hy]
    cases x.eval a b <;> cases y.eval a b <;> simp [← List.map_append, odds_map']
  | trn1 x y hx hy =>
    simp only [E.eval, hx, hy]
    cases x.eval a b <;> cases y.eval a b <;> simp [evens_map', alternate_map]
  | trn2 x y hx hy =>
    simp only [E.eval, hx, hy]
    cases x.eval a b <;> cases y.eval a b <;> simp [odds_map', alternate_map]
  | rev2 x hx =>
    simp only [E.eval, hx]
    cases x.eval a b <;> simp [rev2_map']
  | revAll x hx =>
    simp only [E.eval, hx]
    cases x.eval a b <;> simp
  | wideDup x i hx =>
    simp only [E.eval, hx]
    cases x.eval a b with
    | none => rfl
    | some p =>
      simp only [Option.map_some, Option.bind_eq_bind, Option.bind_some, pairs_map', dup_map]
      cases dup (pairs p) i <;> simp [unpairs_map]
  | wideCopy x i y j hx hy =>
    simp only [E.eval, hx, hy]
    cases x.eval a b with
    | none => rfl
    | some p =>
      cases y.eval a b with
      | none => rfl
      | some q =>
        simp only [Option.map_some, Option.bind_eq_bind, Option.bind_some, pairs_map', copy_map]
        cases copy (pairs p) i (pairs q) j <;> simp [unpairs_map]
  | wideZip1 x y hx hy =>
    simp only [E.eval, hx, hy]
    cases x.eval a b <;> cases y.eval a b <;> simp [pairs_map', zip1_map, unpairs_map]
  | wideZip2 x y hx hy =>
    simp only [E.eval, hx, hy]
    cases x.eval a b <;> cases y.eval a b <;> simp [pairs_map', zip2_map, unpairs_map]

theorem swizzleBy_map (n w : Nat) (t : List (Nat × E)) (a : List α) (vs : List Nat) :
    swizzleBy n w t (a.map f) vs = (swizzleBy n w t a vs).map (List.map f) := by
  simp only [swizzleBy]
  split
  · cases t.lookup (key w vs) with
    | none => rfl
    | some e => exact eval_map f a a e
  · rfl

theorem copyLanes_map (b : List α) : ∀ (vs : List Nat) (r : List α) (j : Nat),
    copyLanes (b.map f) (r.map f) j vs = (copyLanes b r j vs).map (List.map f)
  | [], _, _ => rfl
  | v :: vs, r, j => by
      simp only [copyLanes, copy_map]
      by_cases h : v ≠ 0
      · simp only [if_pos h]
        cases copy r j b j with
        | none => rfl
        | some p => simpa using copyLanes_map b vs p (j + 1)
      · simp only [if_neg h]
        simpa using copyLanes_map b vs r (j + 1)

theorem interleaveBy_map (t : List (Nat × Case))
    {half : List (α × α) → List (α × α) → List Nat → Option (List (α × α))}
    {half' : List (β × β) → List (β × β) → List Nat → Option (List (β × β))}
    {rest : List α → List α → List Nat → Option (List α)}
    {rest' : List β → List β → List Nat → Option (List β)}
    (hh : ∀ a b vs, half' (a.map (Prod.map f f)) (b.map (Prod.map f f)) vs =
      (half a b vs).map (List.map (Prod.map f f)))
    (hr : ∀ a b vs, rest' (a.map f) (b.map f) vs = (rest a b vs).map (List.map f))
    (a b : List α) (vs : List Nat) :
    interleaveBy t half' rest' (a.map f) (b.map f) vs =
      (interleaveBy t half rest a b vs).map (List.map f) := by
  simp only [interleaveBy]
  split
  · cases t.lookup (key 1 vs) with
    | none => exact hr a b vs
    | some c =>
      cases c with
      | expr e => exact eval_map f a b e
      | wide ws =>
        simp only [pairs_map', hh]
        cases half (pairs a) (pairs b) ws <;> simp [unpairs_map]
  · rfl

end natural

theorem Q.interleave2_map {α β : Type} (f : α → β) (a b : List α) (vs : List Nat) :
    Q.interleave2 (a.map f) (b.map f) vs = (Q.interleave2 a b vs).map (List.map f) :=
  interleaveBy_map f _ (fun _ _ _ => rfl) (fun _ _ _ => rfl) a b vs

theorem Q.interleave4_map {α β : Type} (f : α → β) (a b : List α) (vs : List Nat) :
    Q.interleave4 (a.map f) (b.map f) vs = (Q.interleave4 a b vs).map (List.map f) :=
  interleaveBy_map f _ (Q.interleave2_map _) (fun _ _ _ => rfl) a b vs

theorem Q.interleave8_map {α β : Type} (f : α → β) (a b : List α) (vs : List Nat) :
    Q.interleave8 (a.map f) (b.map f) vs = (Q.interleave8 a b vs).map (List.map f) :=
  interleaveBy_map f _ (Q.interleave4_map _) (fun a b vs => copyLanes_map f b vs a 0) a b vs

theorem Q.interleave16_map {α β : Type} (f : α → β) (a b : List α) (vs : List Nat) :
    Q.interleave16 (a.map f) (b.map f) vs = (Q.interleave16 a b vs).map (List.map f) :=
  interleaveBy_map f _ (Q.interleave8_map _) (fun a b vs => copyLanes_map f b vs a 0) a b vs

theorem D.interleave2_map {α β : Type} (f : α → β) (a b : List α) (vs : List Nat) :
    D.interleave2 (a.map f) (b.map f) vs = (D.interleave2 a b vs).map (List.map f) :=
  interleaveBy_map f _ (fun _ _ _ => rfl) (fun _ _ _ => rfl) a b vs

theorem D.interleave4_map {α β : Type} (f : α → β) (a b : List α) (vs : List Nat) :
    D.interleave4 (a.map f) (b.map f) vs = (D.interleave4 a b vs).map (List.map f) :=
  interleaveBy_map f _ (D.interleave2_map _) (fun _ _ _ => rfl) a b vs

theorem D.interleave8_map {α β : Type} (f : α → β) (a b : List α) (vs : List Nat) :
    D.interleave8 (a.map f) (b.map f) vs = (D.interleave8 a b vs).map (List.map f) :=
  interleaveBy_map f _ (D.interleave4_map _) (fun a b vs => copyLanes_map f b vs a 0) a b vs

/-! ## Vectors as changed lane numbers -/

/-- The lanes of two vectors of `n` lanes are the values of the lane numbers `0 … n-1` and
`n … 2n-1` under one function. -/
theorem exists_lanes {α : Type} {n : Nat} (a b : List α) (ha : a.length = n) (hb : b.length = n)
    (hn : 0 < n) :
    ∃ f : Nat → α, a = (List.range n).map f ∧ b = (List.range' n n).map f ∧
      (∀ i, i < n → a[i]? = some (f i)) ∧ (∀ i, i < n → b[i]? = some (f (i + n))) := by
  cases a with
  | nil => simp at ha; omega
  | cons x0 a' =>
    refine ⟨fun i => ((x0 :: a') ++ b).getD i x0, ?_, ?_, ?_, ?_⟩
    · apply List.ext_getElem (by simp; simpa using ha)
      intro i h1 h2
      have h3 : i < ((x0 :: a') ++ b).length := by rw [List.length_append]; omega
      rw [List.getElem_map, List.getElem_range, List.getD_eq_getElem?_getD,
        List.getElem?_eq_getElem h3, Option.getD_some, List.getElem_append_left h1]
    · apply List.ext_getElem (by simp; simpa using hb)
      intro i h1 h2
      have h3 : i + n < ((x0 :: a') ++ b).length := by rw [List.length_append]; omega
      rw [List.getElem_map, List.getElem_range', Nat.one_mul, Nat.add_comm n i,
        List.getD_eq_getElem?_getD, List.getElem?_eq_getElem h3, Option.getD_some,
        List.getElem_append_right (by omega)]
      congr 1
      omega
    · intro i hi
      have h1 : i < (x0 :: a').length := by omega
      dsimp only
      rw [List.getD_eq_getElem?_getD, List.getElem?_append_left h1,
        List.getElem?_eq_getElem h1, Option.getD_some]
    · intro i hi
      have h1 : i < b.length := by omega
      dsimp only
      rw [List.getD_eq_getElem?_getD, List.getElem?_append_right (by omega), ha,
        Nat.add_sub_cancel, List.getElem?_eq_getElem h1, Option.getD_some]

/-! ## The value the switches are over -/

/-- The last `n` groups of `w` bits of `k`, highest first. -/
def digits (w : Nat) : Nat → Nat → List Nat
  | 0, _ => []
  | n + 1, k => digits w n (k / 2 ^ w) ++ [k % 2 ^ w]

theorem key_snoc (w : Nat) (vs : List Nat) (v : Nat) (hv : v < 2 ^ w) :
    key w (vs ++ [v]) = key w vs * 2 ^ w + v := by
  simp only [key, List.foldl_append, List.foldl_cons, List.foldl_nil]
  rw [← Nat.shiftLeft_add_eq_or_of_lt hv, Nat.shiftLeft_eq]

theorem digits_key (w : Nat) : ∀ (n : Nat) (vs : List Nat), vs.length = n →
    (∀ v ∈ vs, v < 2 ^ w) → digits w n (key w vs) = vs
  | 0, vs, h, _ => by
      have : vs = [] := List.eq_nil_of_length_eq_zero h
      rw [this]; rfl
  | n + 1, vs, h, hv => by
      have hne : vs ≠ [] := by intro e; rw [e] at h; simp at h
      obtain ⟨us, u, rfl⟩ : ∃ us u, vs = us ++ [u] :=
        ⟨_, _, (List.dropLast_concat_getLast hne).symm⟩
      have hl : u < 2 ^ w := hv u (by simp)
      have hp : 0 < 2 ^ w := Nat.two_pow_pos w
      rw [key_snoc w us u hl, digits]
      rw [Nat.mul_comm, Nat.mul_add_div hp, Nat.div_eq_of_lt hl, Nat.add_zero, Nat.mul_add_mod,
        Nat.mod_eq_of_lt hl, digits_key w n us (by simpa using h)
          (fun v h => hv v (List.mem_append_left _ h))]

theorem lookup_mem {β : Type} (k : Nat) (c : β) : ∀ (t : List (Nat × β)), t.lookup k = some c →
    (k, c) ∈ t
  | [], h => by simp at h
  | (k', c') :: t, h => by
      rw [List.lookup_cons] at h
      cases e : k == k' with
      | true =>
        have : k = k' := by simpa using e
        simp only [e, Option.some.injEq] at h
        rw [this, h]; exact List.mem_cons_self
      | false =>
        simp only [e] at h
        exact List.mem_cons_of_mem _ (lookup_mem k c t h)

theorem key_lt (w : Nat) : ∀ (n : Nat) (vs : List Nat), vs.length = n →
    (∀ v ∈ vs, v < 2 ^ w) → key w vs < 2 ^ (w * n)
  | 0, vs, h, _ => by
      have : vs = [] := List.eq_nil_of_length_eq_zero h
      rw [this]; simp [key]
  | n + 1, vs, h, hv => by
      have hne : vs ≠ [] := by intro e; rw [e] at h; simp at h
      obtain ⟨us, u, rfl⟩ : ∃ us u, vs = us ++ [u] :=
        ⟨_, _, (List.dropLast_concat_getLast hne).symm⟩
      have hl : u < 2 ^ w := hv u (by simp)
      have ih := key_lt w n us (by simpa using h) (fun v h => hv v (List.mem_append_left _ h))
      rw [key_snoc w us u hl, Nat.mul_add, Nat.mul_one, Nat.pow_add]
      calc key w us * 2 ^ w + u < key w us * 2 ^ w + 2 ^ w := by omega
        _ = (key w us + 1) * 2 ^ w := by rw [Nat.add_mul, Nat.one_mul]
        _ ≤ 2 ^ (w * n) * 2 ^ w := Nat.mul_le_mul_right _ ih

/-! ## Swizzling -/

theorem swizzleBy_bad {α : Type} {n w : Nat} {t : List (Nat × E)} {a : List α} {vs : List Nat}
    (h : ∃ v ∈ vs, n ≤ v) : swizzleBy n w t a vs = none := by
  obtain ⟨v, hv, hle⟩ := h
  rw [swizzleBy, if_neg]
  intro hall
  have := List.all_eq_true.mp hall v hv
  simp at this
  omega

theorem swizzles_of_table {α : Type} {n w : Nat} {t : List (Nat × E)} (hn : n = 2 ^ w)
    (H : ∀ k, k < 2 ^ (w * n) →
      swizzleBy n w t (List.range n) (digits w n k) = some (digits w n k)) :
    Swizzles n (swizzleBy (α := α) n w t) := by
  intro a vs ha hvs
  refine ⟨fun hv => ?_, swizzleBy_bad⟩
  have hp : 0 < n := by rw [hn]; exact Nat.two_pow_pos w
  obtain ⟨f, hfa, -, hfi, -⟩ := exists_lanes a a ha ha hp
  have hv' : ∀ v ∈ vs, v < 2 ^ w := by rw [← hn]; exact hv
  have h := H _ (key_lt w n vs hvs hv')
  rw [digits_key w n vs hvs hv'] at h
  refine ⟨vs.map f, ?_, by simp, ?_⟩
  · rw [hfa, swizzleBy_map, h]; rfl
  · intro j v hj
    rw [List.getElem?_map, hj, Option.map_some]
    exact (hfi v (hv v (List.mem_of_getElem? hj))).symm

theorem tbl_spec {α : Type} (a : List α) : ∀ (vs : List Nat), (∀ v ∈ vs, v < a.length) →
    ∃ r, tbl a vs = some r ∧ IsSwizzle a vs r
  | [], _ => ⟨[], rfl, rfl, by intro j v h; simp at h⟩
  | v :: vs, h => by
      obtain ⟨r, hr, hl, hs⟩ := tbl_spec a vs (fun u hu => h u (List.mem_cons_of_mem _ hu))
      have hv := h v List.mem_cons_self
      refine ⟨a[v] :: r, ?_, by simp [hl], ?_⟩
      · rw [tbl] at hr ⊢
        rw [List.mapM_cons, hr, List.getElem?_eq_getElem hv]
        rfl
      · intro j u hj
        cases j with
        | zero =>
          simp at hj
          subst hj
          simp [List.getElem?_eq_getElem hv]
        | succ j =>
          simp at hj
          simpa using hs j u hj

theorem swizzles_tbl {α : Type} (n : Nat) :
    Swizzles (α := α) n (fun a vs => if vs.all (· < n) then tbl a vs else none) := by
  intro a vs ha _
  constructor
  · intro hv
    have hall : vs.all (fun v => decide (v < n)) = true := by
      rw [List.all_eq_true]; intro v h; simpa using hv v h
    simp only [hall, if_true]
    exact tbl_spec a vs (by rw [ha]; exact hv)
  · rintro ⟨v, hv, hle⟩
    have : ¬ vs.all (fun v => decide (v < n)) = true := by
      intro hall
      have := List.all_eq_true.mp hall v hv
      simp at this
      omega
    simp only [this, if_false, Bool.false_eq_true]

theorem unpairs_length {β : Type} : ∀ (a : List (β × β)), (unpairs a).length = 2 * a.length
  | [] => rfl
  | (x, y) :: r => by simp only [unpairs, List.length_cons, unpairs_length r]; omega

theorem pairs_unpairs {β : Type} : ∀ (a : List (β × β)), pairs (unpairs a) = a
  | [] => rfl
  | (x, y) :: r => by simp only [unpairs, pairs, pairs_unpairs r]

theorem unpairs_get {β : Type} : ∀ (a : List (β × β)) (v : Nat) (p : β × β), a[v]? = some p →
    (unpairs a)[v * 2]? = some p.1 ∧ (unpairs a)[v * 2 + 1]? = some p.2
  | [], _, _, h => by simp at h
  | (x, y) :: r, 0, p, h => by
      simp at h
      subst h
      simp [unpairs]
  | (x, y) :: r, v + 1, p, h => by
      have ih := unpairs_get r v p (by simpa using h)
      have e1 : (v + 1) * 2 = v * 2 + 1 + 1 := by omega
      simp only [unpairs]
      rw [e1]
      simpa using ih

theorem tbl_unpairs {β : Type} (a : List (β × β)) : ∀ (vs : List Nat) (r : List (β × β)),
    tbl a vs = some r →
      tbl (unpairs a) (vs.flatMap (fun v => [v * 2, v * 2 + 1])) = some (unpairs r)
  | [], r, h => by
      simp [tbl] at h
      subst h
      rfl
  | v :: vs, r, h => by
      rw [tbl, List.mapM_cons] at h
      cases hv : a[v]? with
      | none => rw [hv] at h; cases h
      | some p =>
        rw [hv] at h
        cases hr : vs.mapM (fun v => a[v]?) with
        | none => rw [hr] at h; cases h
        | some q =>
          rw [hr] at h
          have h' : p :: q = r := by simpa using h
          subst h'
          have ih := tbl_unpairs a vs q hr
          obtain ⟨h1, h2⟩ := unpairs_get a v p hv
          rw [tbl] at ih ⊢
          simp only [List.flatMap_cons, List.cons_append, List.nil_append, List.mapM_cons, h1, h2,
            ih]
          rfl

/-! ## Interleaving -/

/-- The numbers of the lanes of an interleaving, the lanes of the second vector having the numbers
from `n` on. -/
def pick (n : Nat) : Nat → List Nat → List Nat
  | _, [] => []
  | j, v :: vs => (if v = 0 then j else j + n) :: pick n (j + 1) vs

theorem pick_get (n : Nat) : ∀ (vs : List Nat) (i j v : Nat), vs[j]? = some v →
    (pick n i vs)[j]? = some (if v = 0 then i + j else i + j + n)
  | [], _, _, _, h => by simp at h
  | u :: vs, i, 0, v, h => by
      simp at h
      subst h
      simp [pick]
  | u :: vs, i, j + 1, v, h => by
      have := pick_get n vs (i + 1) j v (by simpa using h)
      simp only [pick, List.getElem?_cons_succ, this]
      have e : i + 1 + j = i + (j + 1) := by omega
      rw [e]

theorem pick_length (n : Nat) : ∀ (vs : List Nat) (i : Nat), (pick n i vs).length = vs.length
  | [], _ => rfl
  | _ :: vs, i => by simp only [pick, List.length_cons, pick_length n vs (i + 1)]

theorem interleaves_of_index {α : Type} {n : Nat} (hp : 0 < n)
    {F : List α → List α → List Nat → Option (List α)}
    {F' : List Nat → List Nat → List Nat → Option (List Nat)}
    (hF : ∀ (f : Nat → α) a b vs, F (a.map f) (b.map f) vs = (F' a b vs).map (List.map f))
    (hI : ∀ vs : List Nat, vs.length = n → (∀ v ∈ vs, v < 2) →
      F' (List.range n) (List.range' n n) vs = some (pick n 0 vs))
    (hbad : ∀ a b (vs : List Nat), (∃ v ∈ vs, 2 ≤ v) → F a b vs = none) : Interleaves n F := by
  intro a b vs ha hb hvs
  refine ⟨fun hv => ?_, hbad a b vs⟩
  obtain ⟨f, hfa, hfb, hai, hbi⟩ := exists_lanes a b ha hb hp
  refine ⟨(pick n 0 vs).map f, ?_, by simp [pick_length], ?_⟩
  · rw [hfa, hfb, hF, hI vs hvs hv]; rfl
  · intro j v hj
    have hlt : j < n := by
      rw [← hvs]; exact (List.getElem?_eq_some_iff.mp hj).1
    rw [List.getElem?_map, pick_get n vs 0 j v hj, Option.map_some, hai j hlt, hbi j hlt,
      Nat.zero_add]
    split <;> rfl

theorem interleaveBy_bad {α : Type} {t : List (Nat × Case)}
    {half : List (α × α) → List (α × α) → List Nat → Option (List (α × α))}
    {rest : List α → List α → List Nat → Option (List α)} (a b : List α) (vs : List Nat)
    (h : ∃ v ∈ vs, 2 ≤ v) : interleaveBy t half rest a b vs = none := by
  obtain ⟨v, hv, hle⟩ := h
  rw [interleaveBy, if_neg]
  intro hall
  have := List.all_eq_true.mp hall v hv
  simp at this
  omega

/-- A function right for every value of its switch is right. -/
theorem index_of_all {n : Nat} {F' : List Nat → List Nat → List Nat → Option (List Nat)}
    (H : ∀ k, k < 2 ^ n →
      F' (List.range n) (List.range' n n) (digits 1 n k) = some (pick n 0 (digits 1 n k))) :
    ∀ vs : List Nat, vs.length = n → (∀ v ∈ vs, v < 2) →
      F' (List.range n) (List.range' n n) vs = some (pick n 0 vs) := by
  intro vs hl hv
  have h := H (key 1 vs) (by have := key_lt 1 n vs hl (by simpa using hv); simpa using this)
  rw [digits_key 1 n vs hl (by simpa using hv)] at h
  exact h

theorem copyLanes_index (n : Nat) : ∀ (vs pre : List Nat), pre.length + vs.length = n →
    copyLanes (List.range' n n) (pre ++ List.range' pre.length vs.length) pre.length vs =
      some (pre ++ pick n pre.length vs)
  | [], pre, _ => by simp [copyLanes, pick]
  | v :: vs, pre, h => by
      simp only [List.length_cons] at h
      have hlt : pre.length < n := by omega
      rw [copyLanes, pick, List.length_cons, List.range'_succ]
      by_cases hv : v = 0
      · have ih := copyLanes_index n vs (pre ++ [pre.length]) (by simp; omega)
        simp only [List.length_append, List.length_cons, List.length_nil, Nat.zero_add,
          List.append_assoc, List.cons_append, List.nil_append] at ih
        simp only [hv, ne_eq, not_true_eq_false, if_false, Option.bind_eq_bind, Option.bind_some,
          if_true]
        exact ih
      · have ih := copyLanes_index n vs (pre ++ [pre.length + n]) (by simp; omega)
        simp only [List.length_append, List.length_cons, List.length_nil, Nat.zero_add,
          List.append_assoc, List.cons_append, List.nil_append] at ih
        have hc : copy (pre ++ pre.length :: List.range' (pre.length + 1) vs.length) pre.length
            (List.range' n n) pre.length =
            some (pre ++ (pre.length + n) :: List.range' (pre.length + 1) vs.length) := by
          rw [copy, if_pos (by simp), List.getElem?_range' hlt, Option.map_some,
            List.set_append_right _ _ (Nat.le_refl _), Nat.sub_self, Nat.one_mul,
            Nat.add_comm n]
          rfl
        simp only [ne_eq, hv, not_false_eq_true, if_true, if_false, hc, Option.bind_eq_bind,
          Option.bind_some]
        exact ih

/-- A function right for every case of its table, with the lanes replaced one by one when there is
no case, is right. -/
theorem index_of_table {n : Nat} {t : List (Nat × Case)}
    {half : List (Nat × Nat) → List (Nat × Nat) → List Nat → Option (List (Nat × Nat))}
    (H : ∀ p ∈ t, interleaveBy t half (fun a b vs => copyLanes b a 0 vs) (List.range n)
      (List.range' n n) (digits 1 n p.1) = some (pick n 0 (digits 1 n p.1))) :
    ∀ vs : List Nat, vs.length = n → (∀ v ∈ vs, v < 2) →
      interleaveBy t half (fun a b vs => copyLanes b a 0 vs) (List.range n) (List.range' n n) vs =
        some (pick n 0 vs) := by
  intro vs hl hv
  cases hk : t.lookup (key 1 vs) with
  | some c =>
    have h := H _ (lookup_mem _ _ _ hk)
    rw [digits_key 1 n vs hl (by simpa using hv)] at h
    exact h
  | none =>
    have hall : vs.all (fun v => decide (v < 2)) = true := by
      rw [List.all_eq_true]; intro v h; simpa using hv v h
    rw [interleaveBy, if_pos hall, hk]
    have := copyLanes_index n vs [] (by simpa using hl)
    simpa [hl, List.range_eq_range'] using this

/-! ## Merging -/

/-- The number of the lane an argument of a merge names, the lanes of the second vector having the
numbers from `n` on. -/
def mergeIndex (n v : Nat) : Nat := if v < 16 then v else v - 16 + n

theorem foldl_or_and (m : Nat) : ∀ (vs : List Nat) (x : Nat),
    vs.foldl (· ||| ·) x &&& m = vs.foldl (· ||| ·) x ↔
      x &&& m = x ∧ ∀ v ∈ vs, v &&& m = v
  | [], x => by simp
  | v :: vs, x => by
      rw [List.foldl_cons, foldl_or_and m vs (x ||| v)]
      have h : (x ||| v) &&& m = x ||| v ↔ x &&& m = x ∧ v &&& m = v := by
        constructor
        · intro h
          constructor <;>
          · apply Nat.eq_of_testBit_eq
            intro i
            have := congrArg (fun y => y.testBit i) h
            simp only [Nat.testBit_and, Nat.testBit_or] at this ⊢
            revert this
            cases x.testBit i <;> cases v.testBit i <;> cases m.testBit i <;> simp
        · rintro ⟨h1, h2⟩
          rw [Nat.and_or_distrib_right, h1, h2]
      rw [h]
      simp [and_assoc]

theorem merges_of {α : Type} {n mask : Nat} {t : List (Nat × E)}
    {swz : List α → List Nat → Option (List α)}
    {ilv : List α → List α → List Nat → Option (List α)}
    (hp : 0 < n) (hn : n ≤ 16) (hS : Swizzles n swz) (hI : Interleaves n ilv)
    (hmask : ∀ v, v < 32 → ((v &&& mask = v ∧ v &&& 15 < n) ↔ (v < n ∨ (16 ≤ v ∧ v < 16 + n))))
    (hm : mask < 32)
    (hlow : ∀ v, v < 32 → (v < n ∨ (16 ≤ v ∧ v < 16 + n)) →
      v &&& (n - 1) = v % 16 ∧ v >>> 4 = v / 16)
    (hT : ∀ p ∈ t, p.2.eval (List.range n) (List.range' n n) =
      some ((digits 5 n p.1).map (mergeIndex n))) :
    Merges n (mergeBy n mask t swz ilv) := by
  intro a b vs ha hb hvs
  have hcond : (vs.all (fun v => decide ((v &&& 15) < n)) = true ∧
      vs.foldl (· ||| ·) 0 &&& mask = vs.foldl (· ||| ·) 0) ↔ ∀ v ∈ vs, NamesLane n v := by
    rw [foldl_or_and, List.all_eq_true]
    constructor
    · rintro ⟨h1, -, h2⟩ v hv
      have hle : v < 32 := by
        have := h2 v hv
        have : v ≤ mask := by rw [← this]; exact Nat.and_le_right
        omega
      exact (hmask v hle).mp ⟨h2 v hv, by simpa using h1 v hv⟩
    · intro h
      have h' : ∀ v ∈ vs, v &&& mask = v ∧ v &&& 15 < n := by
        intro v hv
        have hx := h v hv
        have hle : v < 32 := by
          rcases hx with h | h <;> omega
        exact (hmask v hle).mpr hx
      exact ⟨fun v hv => by simpa using (h' v hv).2, Nat.zero_and mask, fun v hv => (h' v hv).1⟩
  constructor
  · intro hv
    have hlt : ∀ v ∈ vs, v < 32 := by
      intro v hx
      rcases hv v hx with h | h <;> omega
    rw [mergeBy, if_pos (hcond.mpr hv)]
    cases hk : t.lookup (key 5 vs) with
    | some e =>
      have h := hT _ (lookup_mem _ _ _ hk)
      dsimp only at h
      rw [digits_key 5 n vs hvs (by simpa using hlt)] at h
      obtain ⟨f, hfa, hfb, hai, hbi⟩ := exists_lanes a b ha hb hp
      refine ⟨(vs.map (mergeIndex n)).map f, ?_, by simp, ?_⟩
      · dsimp only
        rw [hfa, hfb, eval_map, h]; rfl
      · intro j v hj
        rw [List.getElem?_map, List.getElem?_map, hj, Option.map_some, Option.map_some, mergeIndex]
        have hx := hv v (List.mem_of_getElem? hj)
        by_cases h16 : v < 16
        · rw [if_pos h16, if_pos h16]
          exact (hai v (by rcases hx with h | h <;> omega)).symm
        · rw [if_neg h16, if_neg h16]
          exact (hbi (v - 16) (by rcases hx with h | h <;> omega)).symm
    | none =>
      have hand : ∀ u ∈ vs.map (· &&& (n - 1)), u < n := by
        intro u hu
        obtain ⟨v, hvm, rfl⟩ := List.mem_map.mp hu
        have := @Nat.and_le_right v (n - 1)
        omega
      obtain ⟨x, hx, hxl, hxs⟩ := (hS a (vs.map (· &&& (n - 1))) ha (by simpa using hvs)).1 hand
      obtain ⟨y, hy, hyl, hys⟩ := (hS b (vs.map (· &&& (n - 1))) hb (by simpa using hvs)).1 hand
      have hsh : ∀ u ∈ vs.map (· >>> 4), u < 2 := by
        intro u hu
        obtain ⟨v, hvm, rfl⟩ := List.mem_map.mp hu
        have := hlt v hvm
        rw [(hlow v this (hv v hvm)).2]
        omega
      obtain ⟨r, hr, hrl, hrs⟩ := (hI x y (vs.map (· >>> 4)) (by simpa [hvs] using hxl)
        (by simpa [hvs] using hyl) (by simpa using hvs)).1 hsh
      refine ⟨r, ?_, by simpa using hrl, ?_⟩
      · simp only [hx, hy, Option.bind_eq_bind, Option.bind_some]
        exact hr
      · intro j v hj
        have hvm := List.mem_of_getElem? hj
        obtain ⟨hl1, hl2⟩ := hlow v (hlt v hvm) (hv v hvm)
        rw [hrs j (v >>> 4) (by rw [List.getElem?_map, hj]; rfl), hl2,
          hxs j (v &&& (n - 1)) (by rw [List.getElem?_map, hj]; rfl),
          hys j (v &&& (n - 1)) (by rw [List.getElem?_map, hj]; rfl), hl1]
        have := hlt v hvm
        by_cases h16 : v < 16
        · rw [if_pos h16, if_pos (by omega), Nat.mod_eq_of_lt h16]
        · rw [if_neg h16, if_neg (by omega)]
          congr 1
          omega
  · rintro ⟨v, hv, hbad⟩
    rw [mergeBy, if_neg]
    intro h
    exact hbad (hcond.mp h v hv)

end Verif.SimdShuffle
