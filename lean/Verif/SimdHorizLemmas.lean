import Verif.SimdHoriz
import Verif.SimdHorizSpec
import Verif.SimdShuffleProps
import Verif.BitTricksProps

/-! # Lemmas for C95 -/
namespace Verif.SimdHoriz
open Verif.SimdShuffle Verif.SimdShuffle.Spec Spec

variable {w : Nat}

theorem length_two {α : Type} {l : List α} (h : l.length = 2) : ∃ x y, l = [x, y] := by
  match l, h with
  | [x, y], _ => exact ⟨x, y, rfl⟩

theorem eq_of_get {α : Type} {r : List α} {x y : α} (hl : r.length = 2) (h0 : r[0]? = some x)
    (h1 : r[1]? = some y) : r = [x, y] := by
  obtain ⟨p, q, rfl⟩ := length_two hl
  cases h0; cases h1; rfl

theorem swz_eval {α : Type} {f : List α → List Nat → Option (List α)} (h : Swizzles 2 f) (x y : α) :
    f [x, y] [0, 0] = some [x, x] ∧ f [x, y] [1, 1] = some [y, y] ∧ f [x, y] [1, 0] = some [y, x] := by
  refine ⟨?_, ?_, ?_⟩
  · obtain ⟨r, hr, hl, hg⟩ := (h [x, y] [0, 0] rfl rfl).1 (by decide)
    rw [hr, eq_of_get hl (hg 0 _ rfl) (hg 1 _ rfl)]
  · obtain ⟨r, hr, hl, hg⟩ := (h [x, y] [1, 1] rfl rfl).1 (by decide)
    rw [hr, eq_of_get hl (hg 0 _ rfl) (hg 1 _ rfl)]
  · obtain ⟨r, hr, hl, hg⟩ := (h [x, y] [1, 0] rfl rfl).1 (by decide)
    rw [hr, eq_of_get hl (hg 0 _ rfl) (hg 1 _ rfl)]

theorem itl_eval {α : Type} {f : List α → List α → List Nat → Option (List α)}
    (h : Interleaves 2 f) (x y p q : α) :
    f [x, y] [p, q] [0, 1] = some [x, q] ∧ f [x, y] [p, q] [1, 0] = some [p, y] := by
  refine ⟨?_, ?_⟩
  · obtain ⟨r, hr, hl, hg⟩ := (h [x, y] [p, q] [0, 1] rfl rfl rfl).1 (by decide)
    rw [hr, eq_of_get hl (hg 0 _ rfl) (hg 1 _ rfl)]
  · obtain ⟨r, hr, hl, hg⟩ := (h [x, y] [p, q] [1, 0] rfl rfl rfl).1 (by decide)
    rw [hr, eq_of_get hl (hg 0 _ rfl) (hg 1 _ rfl)]

theorem le3 {v : Nat} (h : v < 2 ^ 2) : v = 0 ∨ v = 1 ∨ v = 2 ∨ v = 3 := by omega

theorem sel2 {α : Type} (x y : α) : selected [x, y] 1 = [x] ∧ selected [x, y] 2 = [y] ∧
    selected [x, y] 3 = [x, y] := by
  refine ⟨?_, ?_, ?_⟩ <;> simp [selected, show List.range 2 = [0, 1] from rfl, List.filterMap_cons,
    Nat.testBit]

theorem added2 (x y : BitVec w) : Added [x, y] 1 x ∧ Added [x, y] 2 y ∧ Added [x, y] 3 (x + y) ∧
    Added [x, y] 3 (y + x) := by
  simp [Added, sel2, BitVec.add_comm]

theorem subtracted2 (x y : BitVec w) : Subtracted [x, y] 1 x ∧ Subtracted [x, y] 2 y ∧
    Subtracted [x, y] 3 (x - y) := by
  refine ⟨⟨x, [], by simp [sel2]⟩, ⟨y, [], by simp [sel2]⟩, ⟨x, [y], by simp [sel2]⟩⟩

theorem lanes2 {what : List (BitVec w) → Nat → BitVec w → Prop} {a : List (BitVec w)}
    {v0 v1 : Nat} {p q : BitVec w} (h0 : v0 ≠ 0 → what a v0 p) (h1 : v1 ≠ 0 → what a v1 q) :
    Lanes what a [v0, v1] [p, q] := by
  refine ⟨rfl, fun j v hv hne => ?_⟩
  match j with
  | 0 => cases hv; exact ⟨p, rfl, h0 hne⟩
  | 1 => cases hv; exact ⟨q, rfl, h1 hne⟩
  | j + 2 => simp at hv

theorem horizontal2 {what : List (BitVec w) → Nat → BitVec w → Prop}
    {f : List (BitVec w) → Nat → Nat → Option (List (BitVec w))}
    (h1 : ∀ x y v0 v1, v0 < 2 ^ 2 → v1 < 2 ^ 2 → ∃ p q, f [x, y] v0 v1 = some [p, q] ∧
      (v0 ≠ 0 → what [x, y] v0 p) ∧ (v1 ≠ 0 → what [x, y] v1 q))
    (h2 : ∀ a v0 v1, ¬ (v0 ≤ 3 ∧ v1 ≤ 3) → f a v0 v1 = none) :
    Horizontal what 2 (fun a vs => match vs with | [v0, v1] => f a v0 v1 | _ => none) := by
  intro a vs ha hvs
  obtain ⟨x, y, rfl⟩ := length_two ha
  obtain ⟨v0, v1, rfl⟩ := length_two hvs
  constructor
  · intro h
    obtain ⟨p, q, hf, hp, hq⟩ := h1 x y v0 v1 (h v0 (by simp)) (h v1 (by simp))
    exact ⟨_, hf, lanes2 hp hq⟩
  · rintro ⟨v, hv, hge⟩
    refine h2 _ _ _ fun h => ?_
    simp at hv
    rcases hv with rfl | rfl <;> omega

theorem hadd2_spec {swz : Swz w} {itl : Mrg w} (hs : Swizzles 2 swz) (hi : Interleaves 2 itl) :
    Horizontal Added 2
      (fun a vs => match vs with | [v0, v1] => hadd2 swz itl a v0 v1 | _ => none) := by
  refine horizontal2 (fun x y v0 v1 h0 h1 => ?_) fun a v0 v1 h => by unfold hadd2; exact if_neg h
  obtain ⟨s1, s2, s3⟩ := swz_eval hs x y
  obtain ⟨a1, a2, a3, a4⟩ := added2 x y
  have i := itl_eval hi
  rcases le3 h0 with rfl | rfl | rfl | rfl <;> rcases le3 h1 with rfl | rfl | rfl | rfl <;>
    simp [hadd2, s1, s2, s3, add, i] <;>
    first
    | exact ⟨_, _, ⟨rfl, rfl⟩, by simp [a1, a2, a3, a4]⟩
    | assumption

theorem hsub2_spec {swz : Swz w} {itl : Mrg w} (hs : Swizzles 2 swz) (hi : Interleaves 2 itl) :
    Horizontal Subtracted 2
      (fun a vs => match vs with | [v0, v1] => hsub2 swz itl a v0 v1 | _ => none) := by
  refine horizontal2 (fun x y v0 v1 h0 h1 => ?_) fun a v0 v1 h => by unfold hsub2; exact if_neg h
  obtain ⟨s1, s2, s3⟩ := swz_eval hs x y
  obtain ⟨a1, a2, a3⟩ := subtracted2 x y
  have i := itl_eval hi
  rcases le3 h0 with rfl | rfl | rfl | rfl <;> rcases le3 h1 with rfl | rfl | rfl | rfl <;>
    simp [hsub2, s1, s2, s3, sub, i] <;>
    first
    | exact ⟨_, _, ⟨rfl, rfl⟩, by simp [a1, a2, a3]⟩
    | assumption

theorem dot2_spec {swz : Swz w} {itl : Mrg w} (hs : Swizzles 2 swz) (hi : Interleaves 2 itl)
    {a b : Vec w} {v0 v1 : Nat} (ha : a.length = 2) (hb : b.length = 2) :
    (v0 < 2 ^ 2 → v1 < 2 ^ 2 → ∃ r, dot2 swz itl a b v0 v1 = some r ∧
      Lanes Added (products a b) [v0, v1] r) ∧
    (2 ^ 2 ≤ v0 ∨ 2 ^ 2 ≤ v1 → dot2 swz itl a b v0 v1 = none) := by
  obtain ⟨x, y, rfl⟩ := length_two ha
  obtain ⟨p, q, rfl⟩ := length_two hb
  refine ⟨fun h0 h1 => ?_, fun h => by unfold dot2; exact if_neg (by omega)⟩
  obtain ⟨s1, s2, s3⟩ := swz_eval hs (x * p) (y * q)
  obtain ⟨a1, a2, a3, a4⟩ := added2 (x * p) (y * q)
  have i := itl_eval hi
  suffices h : ∃ p' q', dot2 swz itl [x, y] [p, q] v0 v1 = some [p', q'] ∧
      (v0 ≠ 0 → Added [x * p, y * q] v0 p') ∧ (v1 ≠ 0 → Added [x * p, y * q] v1 q') by
    obtain ⟨p', q', hf, hp, hq⟩ := h
    exact ⟨_, hf, lanes2 hp hq⟩
  rcases le3 h0 with rfl | rfl | rfl | rfl <;> rcases le3 h1 with rfl | rfl | rfl | rfl <;>
    simp [dot2, hadd2, mul, s1, s2, s3, add, i] <;>
    first
    | exact ⟨_, _, ⟨rfl, rfl⟩, by simp [a1, a2, a3, a4]⟩
    | assumption

/-! ## Vectors of 4 and 8 lanes -/

theorem pick_eq : ∀ k < 8, ∀ v < 256, pick k v = if v.testBit k then 16 + k else k := by
  decide +kernel

theorem adjust_eq : ∀ v < 256, v ≠ 0 → adjust v < 8 ∧ v.testBit (adjust v) = true ∧
    (∀ k < adjust v, v.testBit k = false) := by
  decide +kernel

theorem adjust_zero : adjust 0 = 64 := by decide

theorem pickSub_eq : ∀ k < 8, ∀ v < 256, v ≠ 0 → pickSub k (adjust v, v >>> adjust v) =
    if v.testBit (k + adjust v) then 16 + (k + adjust v) else k := by
  decide +kernel

theorem testBit_lt {n v k : Nat} (hv : v < 2 ^ n) (h : v.testBit k = true) : k < n := by
  rcases Nat.lt_or_ge k n with h' | h'
  · exact h'
  · rw [Nat.testBit_lt_two_pow (Nat.lt_of_lt_of_le hv (Nat.pow_le_pow_right (by decide) h'))] at h
    cases h

/-- Merging a vector with zero. -/
theorem merge_zero {n : Nat} (hn16 : n ≤ 16) {mg : Mrg w} (hm : Merges n mg) {a : Vec w} (ha : a.length = n)
    {us : List Nat} (hu : us.length = n) (hn : ∀ u ∈ us, NamesLane n u) :
    ∃ r, mg (List.replicate n 0) a us = some r ∧ r.length = n ∧
      ∀ (j u : Nat), us[j]? = some u → r[j]? = some (if u < 16 then 0 else a.getD (u - 16) 0) := by
  obtain ⟨r, hr, hl, hg⟩ := (hm (List.replicate n 0) a us (by simp) ha hu).1 hn
  refine ⟨r, hr, by omega, fun j u hj => ?_⟩
  rw [hg j u hj]
  have hmem := hn u (List.mem_of_getElem? hj)
  by_cases h : u < 16
  · rw [if_pos h, if_pos h]
    have : u < n := by rcases hmem with h' | h' <;> omega
    rw [List.getElem?_replicate, if_pos this]
  · rw [if_neg h, if_neg h]
    rcases hmem with h' | h'
    · omega
    · rw [List.getD_eq_getElem?_getD, List.getElem?_eq_getElem (by omega)]; rfl

/-- The lane at `k` if the mask has its bit, else zero. -/
def gate (a : Vec w) (v k : Nat) : BitVec w := if v.testBit k then a.getD k 0 else 0

theorem gate_hi {a : Vec w} {n v k : Nat} (hv : v < 2 ^ n) (hk : n ≤ k) : gate a v k = 0 := by
  rw [gate, if_neg]
  intro h
  have := testBit_lt hv h
  omega

/-- The vector of lanes `k` of a horizontal addition. -/
theorem hadd_layer {n : Nat} (hn8 : n ≤ 8) {mg : Mrg w} (hm : Merges n mg) {a : Vec w}
    (ha : a.length = n) {vs : List Nat} (hv : vs.length = n) (hlt : ∀ v ∈ vs, v < 2 ^ n) {k : Nat}
    (hk : k < n) :
    ∃ r, mg (List.replicate n 0) a (vs.map (pick k)) = some r ∧ r.length = n ∧
      ∀ (j v : Nat), vs[j]? = some v → r[j]? = some (gate a v k) := by
  have hp : (2 : Nat) ^ n ≤ 2 ^ 8 := Nat.pow_le_pow_right (by decide) hn8
  have hpk : ∀ v ∈ vs, pick k v = if v.testBit k then 16 + k else k := fun v h =>
    pick_eq k (by omega) v (Nat.lt_of_lt_of_le (hlt v h) hp)
  obtain ⟨r, hr, hl, hg⟩ := merge_zero (by omega) hm ha (us := vs.map (pick k)) (by simpa using hv)
    (by
      intro u hu
      obtain ⟨v, h, rfl⟩ := List.mem_map.1 hu
      rw [hpk v h]
      unfold NamesLane
      split <;> omega)
  refine ⟨r, hr, hl, fun j v hj => ?_⟩
  rw [hg j (pick k v) (by simp [hj]), hpk v (List.mem_of_getElem? hj), gate]
  by_cases h : v.testBit k
  · rw [if_pos h, if_pos h, if_neg (by omega), Nat.add_sub_cancel_left]
  · rw [if_neg h, if_neg h, if_pos (by omega)]

/-- The vector of lanes `k` past the first selected one of a horizontal subtraction. -/
theorem hsub_layer {n : Nat} (hn8 : n ≤ 8) {mg : Mrg w} (hm : Merges n mg) {a : Vec w}
    (ha : a.length = n) {vs : List Nat} (hv : vs.length = n) (hlt : ∀ v ∈ vs, v < 2 ^ n)
    (hne : ∀ v ∈ vs, v ≠ 0) {k : Nat} (hk : k < n) :
    ∃ r, mg (List.replicate n 0) a
        ((vs.map fun v => (adjust v, v >>> adjust v)).map (pickSub k)) = some r ∧ r.length = n ∧
      ∀ (j v : Nat), vs[j]? = some v → r[j]? = some (gate a v (k + adjust v)) := by
  have hp : (2 : Nat) ^ n ≤ 2 ^ 8 := Nat.pow_le_pow_right (by decide) hn8
  have hpk : ∀ v ∈ vs, pickSub k (adjust v, v >>> adjust v) =
      if v.testBit (k + adjust v) then 16 + (k + adjust v) else k := fun v h =>
    pickSub_eq k (by omega) v (Nat.lt_of_lt_of_le (hlt v h) hp) (hne v h)
  obtain ⟨r, hr, hl, hg⟩ := merge_zero (by omega) hm ha
    (us := (vs.map fun v => (adjust v, v >>> adjust v)).map (pickSub k)) (by simpa using hv)
    (by
      intro u hu
      obtain ⟨_, h', rfl⟩ := List.mem_map.1 hu
      obtain ⟨v, h, rfl⟩ := List.mem_map.1 h'
      rw [hpk v h]
      unfold NamesLane
      split
      · rename_i hb
        have := testBit_lt (hlt v h) hb
        omega
      · omega)
  refine ⟨r, hr, hl, fun j v hj => ?_⟩
  rw [hg j (pickSub k (adjust v, v >>> adjust v)) (by simp [hj]), hpk v (List.mem_of_getElem? hj),
    gate]
  by_cases h : v.testBit (k + adjust v)
  · rw [if_pos h, if_pos h, if_neg (by omega), Nat.add_sub_cancel_left]
  · rw [if_neg h, if_neg h, if_pos (by omega)]

theorem sum_filterMap (a : Vec w) (v : Nat) (l : List Nat) (hl : ∀ k ∈ l, k < a.length) :
    (l.filterMap fun k => if v.testBit k then a[k]? else none).sum = (l.map (gate a v)).sum := by
  induction l with
  | nil => rfl
  | cons k l ih =>
    have hk := hl k (by simp)
    have ih := ih fun k h => hl k (by simp [h])
    rw [List.filterMap_cons, List.map_cons, List.sum_cons, gate]
    by_cases h : v.testBit k
    · rw [if_pos h, if_pos h, List.getElem?_eq_getElem hk]
      simp only [List.sum_cons, ih, List.getD_eq_getElem?_getD, List.getElem?_eq_getElem hk,
        Option.getD_some]
    · rw [if_neg h, if_neg h]
      simpa using ih

theorem added_gate (a : Vec w) (v : Nat) :
    Added a v (((List.range a.length).map (gate a v)).sum) := by
  rw [Added, selected, sum_filterMap a v _ (by simp)]

theorem sum_range_extend (f : Nat → BitVec w) {m n : Nat} (hmn : m ≤ n) (h : ∀ k ≥ m, f k = 0) :
    ((List.range n).map f).sum = ((List.range m).map f).sum := by
  induction n with
  | zero => rw [show m = 0 by omega]
  | succ n ih =>
    rcases Nat.lt_or_ge n m with h' | h'
    · rw [show m = n + 1 by omega]
    · rw [List.range_succ, List.map_append, List.sum_append, ih h']
      simp [h n h']

theorem subtracted_gate {n : Nat} {a : Vec w} (ha : a.length = n) {v : Nat} (hv : v < 2 ^ n) {t : Nat}
    (ht : v.testBit t = true) (hlow : ∀ k < t, v.testBit k = false) :
    Subtracted a v (gate a v t -
      ((List.range (n - 1)).map fun k => gate a v (k + 1 + t)).sum) := by
  have htn := testBit_lt hv ht
  refine ⟨a.getD t 0, ((List.range (n - t - 1)).map (· + (t + 1))).filterMap fun k =>
    if v.testBit k then a[k]? else none, ?_, ?_⟩
  · rw [selected, ha]
    have hr : List.range n = List.range t ++ t :: (List.range (n - t - 1)).map (· + (t + 1)) := by
      have h1 : n = (t + 1) + (n - t - 1) := by omega
      conv => lhs; rw [h1]
      rw [List.range_add, List.range_succ, List.append_assoc]
      simp [Nat.add_comm]
    rw [hr, List.filterMap_append, List.filterMap_cons, if_pos ht,
      List.getElem?_eq_getElem (by omega)]
    have : (List.range t).filterMap (fun k => if v.testBit k then a[k]? else none) = [] := by
      rw [List.filterMap_eq_nil_iff]
      intro k hk
      rw [if_neg (by simp [hlow k (List.mem_range.1 hk)])]
    rw [this]
    simp [List.getElem?_eq_getElem (show t < a.length by omega)]
  · rw [sum_filterMap a v _ (by simp; omega), List.map_map]
    rw [gate, if_pos ht]
    congr 1
    rw [sum_range_extend (fun k => gate a v (k + 1 + t)) (m := n - t - 1) (by omega)
      fun k hk => gate_hi hv (by omega)]
    congr 1
    apply List.map_congr_left
    intro k _
    simp only [Function.comp_apply]
    congr 1
    omega

theorem get_zip {f : BitVec w → BitVec w → BitVec w} {a b : Vec w} {j : Nat} {x y : BitVec w}
    (hx : a[j]? = some x) (hy : b[j]? = some y) : (List.zipWith f a b)[j]? = some (f x y) := by
  rw [List.getElem?_zipWith, hx, hy]

theorem all_le {vs : List Nat} {m : Nat} :
    (vs.all (· ≤ m)) = true ↔ ∀ v ∈ vs, v < m + 1 := by
  simp [List.all_eq_true, Nat.lt_succ_iff]

theorem not_all_le {vs : List Nat} {m : Nat} (h : ∃ v ∈ vs, m + 1 ≤ v) :
    ¬ (vs.all (· ≤ m)) = true := by
  rw [all_le]
  obtain ⟨v, hv, hm⟩ := h
  intro h
  have := h v hv
  omega

theorem hadd4_spec {mg : Mrg w} (hm : Merges 4 mg) : Horizontal Added 4 (hadd4 mg) := by
  intro a vs ha hv
  refine ⟨fun h => ?_, fun h => by rw [hadd4, if_neg (not_all_le h)]⟩
  have ly := fun k (hk : k < 4) => hadd_layer (by decide) hm ha hv h hk
  obtain ⟨l0, e0, n0, g0⟩ := ly 0 (by decide)
  obtain ⟨l1, e1, n1, g1⟩ := ly 1 (by decide)
  obtain ⟨l2, e2, n2, g2⟩ := ly 2 (by decide)
  obtain ⟨l3, e3, n3, g3⟩ := ly 3 (by decide)
  refine ⟨add (add l0 l1) (add l2 l3), ?_, ?_, fun j v hj _ => ⟨_, get_zip
    (get_zip (g0 j v hj) (g1 j v hj)) (get_zip (g2 j v hj) (g3 j v hj)), ?_⟩⟩
  · rw [hadd4, if_pos (all_le.2 h)]
    simp only [e0, e1, e2, e3, Option.bind_eq_bind, Option.bind_some, Option.pure_def]
  · simp [add, n0, n1, n2, n3, hv]
  · have := added_gate a v
    rw [ha] at this
    simp only [show List.range 4 = [0, 1, 2, 3] from rfl, List.map_cons, List.map_nil, List.sum_cons,
      List.sum_nil] at this
    rw [Added] at this ⊢
    rw [← this]
    grind

theorem hadd8_spec {mg : Mrg w} (hm : Merges 8 mg) : Horizontal Added 8 (hadd8 mg) := by
  intro a vs ha hv
  refine ⟨fun h => ?_, fun h => by rw [hadd8, if_neg (not_all_le h)]⟩
  have ly := fun k (hk : k < 8) => hadd_layer (by decide) hm ha hv h hk
  obtain ⟨l0, e0, n0, g0⟩ := ly 0 (by decide)
  obtain ⟨l1, e1, n1, g1⟩ := ly 1 (by decide)
  obtain ⟨l2, e2, n2, g2⟩ := ly 2 (by decide)
  obtain ⟨l3, e3, n3, g3⟩ := ly 3 (by decide)
  obtain ⟨l4, e4, n4, g4⟩ := ly 4 (by decide)
  obtain ⟨l5, e5, n5, g5⟩ := ly 5 (by decide)
  obtain ⟨l6, e6, n6, g6⟩ := ly 6 (by decide)
  obtain ⟨l7, e7, n7, g7⟩ := ly 7 (by decide)
  refine ⟨add (add (add l0 l1) (add l2 l3)) (add (add l4 l5) (add l6 l7)), ?_, ?_,
    fun j v hj _ => ⟨_, get_zip
      (get_zip (get_zip (g0 j v hj) (g1 j v hj)) (get_zip (g2 j v hj) (g3 j v hj)))
      (get_zip (get_zip (g4 j v hj) (g5 j v hj)) (get_zip (g6 j v hj) (g7 j v hj))), ?_⟩⟩
  · rw [hadd8, if_pos (all_le.2 h)]
    simp only [e0, e1, e2, e3, e4, e5, e6, e7, Option.bind_eq_bind, Option.bind_some,
      Option.pure_def]
  · simp [add, n0, n1, n2, n3, n4, n5, n6, n7, hv]
  · have := added_gate a v
    rw [ha] at this
    simp only [show List.range 8 = [0, 1, 2, 3, 4, 5, 6, 7] from rfl, List.map_cons, List.map_nil,
      List.sum_cons, List.sum_nil] at this
    rw [Added] at this ⊢
    rw [← this]
    grind

theorem dot4_spec {mg : Mrg w} (hm : Merges 4 mg) {b : Vec w} (hb : b.length = 4) {a : Vec w}
    (ha : a.length = 4) {vs : List Nat} (hv : vs.length = 4) :
    ((∀ v ∈ vs, v < 2 ^ 4) → ∃ r, dot4 mg a b vs = some r ∧ Lanes Added (products a b) vs r) ∧
    ((∃ v ∈ vs, 2 ^ 4 ≤ v) → dot4 mg a b vs = none) := by
  have h := hadd4_spec hm (products a b) vs (by simp [products, ha, hb]) hv
  refine ⟨fun hl => ?_, fun h => by rw [dot4, if_neg (not_all_le h)]⟩
  obtain ⟨r, hr, hlanes⟩ := h.1 hl
  exact ⟨r, by rw [dot4, if_pos (all_le.2 hl)]; exact hr, hlanes⟩

theorem dot8_spec {mg : Mrg w} (hm : Merges 8 mg) {b : Vec w} (hb : b.length = 8) {a : Vec w}
    (ha : a.length = 8) {vs : List Nat} (hv : vs.length = 8) :
    ((∀ v ∈ vs, v < 2 ^ 8) → ∃ r, dot8 mg a b vs = some r ∧ Lanes Added (products a b) vs r) ∧
    ((∃ v ∈ vs, 2 ^ 8 ≤ v) → dot8 mg a b vs = none) := by
  have h := hadd8_spec hm (products a b) vs (by simp [products, ha, hb]) hv
  refine ⟨fun hl => ?_, fun h => by rw [dot8, if_neg (not_all_le h)]⟩
  obtain ⟨r, hr, hlanes⟩ := h.1 hl
  exact ⟨r, by rw [dot8, if_pos (all_le.2 hl)]; exact hr, hlanes⟩

theorem adjustAll_eq {vs : List Nat} (h : ∀ v ∈ vs, v < 256) (hne : ∀ v ∈ vs, v ≠ 0) :
    adjustAll vs = some (vs.map fun v => (adjust v, v >>> adjust v)) := by
  induction vs with
  | nil => rfl
  | cons v vs ih =>
    have ih := ih (fun v hv => h v (by simp [hv])) (fun v hv => hne v (by simp [hv]))
    have ha := (adjust_eq v (h v (by simp)) (hne v (by simp))).1
    rw [adjustAll] at ih ⊢
    rw [List.mapM_cons, ih, adjusted, if_pos (by omega)]
    rfl

theorem adjustAll_zero {vs : List Nat} (h : 0 ∈ vs) : adjustAll vs = none := by
  induction vs with
  | nil => cases h
  | cons v vs ih =>
    rw [adjustAll, List.mapM_cons]
    rcases List.mem_cons.1 h with rfl | h
    · rw [adjusted, adjust_zero]; rfl
    · have ih := ih h
      rw [adjustAll] at ih
      rw [ih]
      cases Option.map (fun s => (adjust v, s)) (adjusted v) <;> rfl

theorem hsub4_spec {mg : Mrg w} (hm : Merges 4 mg) {a : Vec w} (ha : a.length = 4) {vs : List Nat}
    (hv : vs.length = 4) :
    ((∀ v ∈ vs, v < 2 ^ 4) → (∀ v ∈ vs, v ≠ 0) → ∃ r, hsub4 mg a vs = some r ∧
      Lanes Subtracted a vs r) ∧
    ((∃ v ∈ vs, 2 ^ 4 ≤ v ∨ v = 0) → hsub4 mg a vs = none) := by
  constructor
  · intro h hne
    have ly := fun k (hk : k < 4) => hsub_layer (by decide) hm ha hv h hne hk
    obtain ⟨l0, e0, n0, g0⟩ := ly 0 (by decide)
    obtain ⟨l1, e1, n1, g1⟩ := ly 1 (by decide)
    obtain ⟨l2, e2, n2, g2⟩ := ly 2 (by decide)
    obtain ⟨l3, e3, n3, g3⟩ := ly 3 (by decide)
    refine ⟨sub (sub l0 l1) (add l2 l3), ?_, ?_, fun j v hj hv0 => ⟨_, get_zip
      (get_zip (g0 j v hj) (g1 j v hj)) (get_zip (g2 j v hj) (g3 j v hj)), ?_⟩⟩
    · rw [hsub4, if_pos (all_le.2 h), adjustAll_eq (fun v hv => by have := h v hv; omega) hne]
      simp only [e0, e1, e2, e3, Option.bind_eq_bind, Option.bind_some, Option.pure_def]
    · simp [add, sub, n0, n1, n2, n3, hv]
    · have hmem := List.mem_of_getElem? hj
      obtain ⟨_, h2, h3⟩ := adjust_eq v (by have := h v hmem; omega) hv0
      have := subtracted_gate ha (h v hmem) h2 h3
      simp only [show List.range (4 - 1) = [0, 1, 2] from rfl, List.map_cons, List.map_nil,
        List.sum_cons, List.sum_nil, Nat.reduceAdd, Nat.zero_add] at this ⊢
      obtain ⟨f, r, hs, he⟩ := this
      refine ⟨f, r, hs, ?_⟩
      rw [← he]
      grind
  · rintro ⟨v, hv, h | rfl⟩
    · rw [hsub4, if_neg (not_all_le ⟨v, hv, h⟩)]
    · rw [hsub4]
      split
      · rw [adjustAll_zero hv]; rfl
      · rfl

theorem hsub8_spec {mg : Mrg w} (hm : Merges 8 mg) {a : Vec w} (ha : a.length = 8) {vs : List Nat}
    (hv : vs.length = 8) :
    ((∀ v ∈ vs, v < 2 ^ 8) → (∀ v ∈ vs, v ≠ 0) → ∃ r, hsub8 mg a vs = some r ∧
      Lanes Subtracted a vs r) ∧
    ((∃ v ∈ vs, 2 ^ 8 ≤ v ∨ v = 0) → hsub8 mg a vs = none) := by
  constructor
  · intro h hne
    have ly := fun k (hk : k < 8) => hsub_layer (by decide) hm ha hv h hne hk
    obtain ⟨l0, e0, n0, g0⟩ := ly 0 (by decide)
    obtain ⟨l1, e1, n1, g1⟩ := ly 1 (by decide)
    obtain ⟨l2, e2, n2, g2⟩ := ly 2 (by decide)
    obtain ⟨l3, e3, n3, g3⟩ := ly 3 (by decide)
    obtain ⟨l4, e4, n4, g4⟩ := ly 4 (by decide)
    obtain ⟨l5, e5, n5, g5⟩ := ly 5 (by decide)
    obtain ⟨l6, e6, n6, g6⟩ := ly 6 (by decide)
    obtain ⟨l7, e7, n7, g7⟩ := ly 7 (by decide)
    refine ⟨sub (sub (sub l0 l1) (add l2 l3)) (add (add l4 l5) (add l6 l7)), ?_, ?_,
      fun j v hj hv0 => ⟨_, get_zip
      (get_zip (get_zip (g0 j v hj) (g1 j v hj)) (get_zip (g2 j v hj) (g3 j v hj)))
      (get_zip (get_zip (g4 j v hj) (g5 j v hj)) (get_zip (g6 j v hj) (g7 j v hj))), ?_⟩⟩
    · rw [hsub8, if_pos (all_le.2 h), adjustAll_eq (fun v hv => by have := h v hv; omega) hne]
      simp only [e0, e1, e2, e3, e4, e5, e6, e7, Option.bind_eq_bind, Option.bind_some,
        Option.pure_def]
    · simp [add, sub, n0, n1, n2, n3, n4, n5, n6, n7, hv]
    · have hmem := List.mem_of_getElem? hj
      obtain ⟨_, h2, h3⟩ := adjust_eq v (by have := h v hmem; omega) hv0
      have := subtracted_gate ha (h v hmem) h2 h3
      simp only [show List.range (8 - 1) = [0, 1, 2, 3, 4, 5, 6] from rfl, List.map_cons,
        List.map_nil, List.sum_cons, List.sum_nil, Nat.reduceAdd, Nat.zero_add] at this ⊢
      obtain ⟨f, r, hs, he⟩ := this
      refine ⟨f, r, hs, ?_⟩
      rw [← he]
      grind
  · rintro ⟨v, hv, h | rfl⟩
    · rw [hsub8, if_neg (not_all_le ⟨v, hv, h⟩)]
    · rw [hsub8]
      split
      · rw [adjustAll_zero hv]; rfl
      · rfl

theorem merge8x16_spec : Merges 8 merge8x16 := by
  intro a b vs ha hb hv
  have h := Q.merge8_spec (β := BitVec 8)
    (a.map fun (x : BitVec 16) => (x.setWidth 8, (x >>> 8).setWidth 8))
    (b.map fun (x : BitVec 16) => (x.setWidth 8, (x >>> 8).setWidth 8)) vs (by simpa using ha) (by simpa using hb) hv
  have hj : ∀ x : BitVec 16, ((x >>> 8).setWidth 8 ++ x.setWidth 8 : BitVec (8 + 8)) = x := by
    intro x
    apply BitVec.eq_of_getLsbD_eq
    intro i hi
    simp only [BitVec.getLsbD_append, BitVec.getLsbD_setWidth, BitVec.getLsbD_ushiftRight]
    by_cases h8 : i < 8
    · simp [h8]
    · simp [h8, show i - 8 < 8 by omega, show 8 + (i - 8) = i by omega]
  refine ⟨fun hn => ?_, fun hn => ?_⟩
  · obtain ⟨r, hr, hl, hg⟩ := h.1 hn
    refine ⟨r.map fun p => p.2 ++ p.1, by simp only [merge8x16, hr, Option.map_some],
      by simpa using hl, fun j v hjv => ?_⟩
    rw [List.getElem?_map, hg j v hjv]
    split
    · rw [List.getElem?_map]
      cases a[v]? with
      | none => rfl
      | some x => simp only [Option.map_some, hj]
    · rw [List.getElem?_map]
      cases b[v - 16]? with
      | none => rfl
      | some x => simp only [Option.map_some, hj]
  · simp only [merge8x16, h.2 hn, Option.map_none]

end Verif.SimdHoriz
