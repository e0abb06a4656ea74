import Verif.Range
/-!
# C44: ranges and clamping
-/
namespace Verif.Range

/-- The points of a range: both ends belong to it (as in RangeTests.m). -/
def Rng.points (r : Rng) (x : Int) : Prop := r.start ≤ x ∧ x ≤ r.start + r.length

/-- A range whose fields and end are values of the type, with non-negative length. -/
def Rng.wf (t : Ty) (r : Rng) : Prop := t.has r.start ∧ t.has r.length ∧ t.has (r.start + r.length) ∧ 0 ≤ r.length

theorem wrap_has {t : Ty} {v : Int} (h : t.has v) : t.wrap v = some v := by
  unfold Ty.wrap
  by_cases hs : t.signed = true
  · rw [if_pos hs, if_pos h]
  · rw [if_neg hs]
    simp only [Ty.has, Ty.lo, Ty.hi, if_neg hs] at h
    congr 1
    have h1 : (0:Int) ≤ v := h.1
    have h2 : v ≤ ((2 ^ t.bits : Nat) : Int) - 1 := h.2
    exact Int.emod_eq_of_lt h1 (by omega)

/-- Clamp: within the limits, unchanged when already inside, otherwise the nearest limit. -/
theorem C44_clamp (v lo hi : Int) (h : lo ≤ hi) :
    lo ≤ clamp v lo hi ∧ clamp v lo hi ≤ hi ∧ (lo ≤ v → v ≤ hi → clamp v lo hi = v) ∧ (v < lo → clamp v lo hi = lo) ∧ (hi < v → clamp v lo hi = hi) := by
  simp only [clamp, min, max]; split <;> split <;> omega

/-- Min and max select one of the arguments, and the right one. -/
theorem C44_min_max (a b : Int) : (min a b = a ∨ min a b = b) ∧ min a b ≤ a ∧ min a b ≤ b ∧ (max a b = a ∨ max a b = b) ∧ a ≤ max a b ∧ b ≤ max a b := by
  simp only [min, max]; split <;> split <;> omega

/-- **C44 (partial)**: for every integer type and all ranges whose ends are representable and whose length is not negative:
containment is inclusion of the point sets, "intersects" says whether a common point exists, and the
intersection of intersecting ranges denotes exactly the common points.
Missing: the intersection of disjoint ranges, and ranges whose end is not representable, where the code gives wrong answers (see the refutations). -/
theorem C44_ranges_partial (t : Ty) (a b : Rng) (ha : a.wf t) (hb : b.wf t) :
    (∃ r, contains t a b = some r ∧ (r = true ↔ ∀ x, b.points x → a.points x)) ∧
    (∃ r, intersects t a b = some r ∧ (r = true ↔ ∃ x, a.points x ∧ b.points x)) ∧
    ((∃ x, a.points x ∧ b.points x) → ∃ r, getIntersection t a b = some r ∧ r.wf t ∧ ∀ x, r.points x ↔ a.points x ∧ b.points x) := by
  obtain ⟨a1, a2, a3, a4⟩ := ha
  obtain ⟨b1, b2, b3, b4⟩ := hb
  have ea : add t a.start a.length = some (a.start + a.length) := wrap_has a3
  have eb : add t b.start b.length = some (b.start + b.length) := wrap_has b3
  refine ⟨?_, ?_, ?_⟩
  · by_cases h : a.start ≤ b.start
    · refine ⟨decide (a.start + a.length ≥ b.start + b.length), ?_, ?_⟩
      · simp [contains, h, ea, eb]
      · simp only [decide_eq_true_eq, Rng.points]
        constructor
        · intro h1 x hx; omega
        · intro h1; have := h1 (b.start + b.length) (by omega); omega
    · refine ⟨false, by simp [contains, h], ?_⟩
      simp only [Rng.points]
      constructor
      · intro h; cases h
      · intro h1; have := h1 b.start (by omega); omega
  · by_cases h : a.start ≤ b.start + b.length
    · refine ⟨decide (a.start + a.length ≥ b.start), ?_, ?_⟩
      · simp [intersects, h, ea, eb]
      · simp only [decide_eq_true_eq, Rng.points]
        constructor
        · intro h1
          by_cases h2 : a.start ≤ b.start
          · exact ⟨b.start, by omega⟩
          · exact ⟨a.start, by omega⟩
        · rintro ⟨x, hx⟩; omega
    · refine ⟨false, by simp [intersects, h, eb], ?_⟩
      simp only [Rng.points]
      constructor
      · intro h; cases h
      · rintro ⟨x, hx⟩; omega
  · rintro ⟨x, hx1, hx2⟩
    simp only [Rng.points] at hx1 hx2
    have hlen : t.has (min (a.start + a.length) (b.start + b.length) - max a.start b.start) := by
      have h0 : 0 ≤ min (a.start + a.length) (b.start + b.length) - max a.start b.start := by
        simp only [min, max]; split <;> split <;> omega
      have h1 : min (a.start + a.length) (b.start + b.length) - max a.start b.start ≤ a.length := by
        simp only [min, max]; split <;> split <;> omega
      simp only [Ty.has] at *
      have hlo : t.lo ≤ 0 := by
        simp only [Ty.lo]
        split
        · exact Int.neg_nonpos_of_nonneg (Int.natCast_nonneg _)
        · exact Int.le_refl 0
      omega
    refine ⟨⟨max a.start b.start, min (a.start + a.length) (b.start + b.length) - max a.start b.start⟩, ?_, ⟨?_, hlen, ?_, ?_⟩, ?_⟩
    · have : sub t (min (a.start + a.length) (b.start + b.length)) (max a.start b.start) = some _ := wrap_has hlen
      simp [getIntersection, ea, eb, this]
    · show t.has (max a.start b.start)
      simp only [max]; split <;> assumption
    · show t.has (max a.start b.start + (min (a.start + a.length) (b.start + b.length) - max a.start b.start))
      rw [show max a.start b.start + (min (a.start + a.length) (b.start + b.length) - max a.start b.start) = min (a.start + a.length) (b.start + b.length) by omega]
      simp only [min]; split <;> assumption
    · show 0 ≤ min (a.start + a.length) (b.start + b.length) - max a.start b.start
      simp only [min, max]; split <;> split <;> omega
    · intro y; simp only [Rng.points, min, max]; split <;> split <;> omega

/-- The full claim fails for disjoint ranges of an unsigned type: the "intersection" of [0,1] and [5,6] claims to contain points of neither. -/
theorem C44_disjoint_intersection_refuted :
    ¬ ∀ (t : Ty) (a b : Rng), a.wf t → b.wf t → ∀ r, getIntersection t a b = some r → ∀ x, r.points x → a.points x ∧ b.points x := by
  intro h
  have := h ⟨32, false⟩ ⟨0, 1⟩ ⟨5, 1⟩ ⟨by decide, by decide, by decide, by decide⟩ ⟨by decide, by decide, by decide, by decide⟩ ⟨5, 4294967292⟩ rfl 5
    ⟨by decide, by decide⟩
  have h2 := this.1.2
  simp at h2

/-- And for unsigned ranges reaching past the end of the type the test wraps: [10, 10 + 250] of 8 bits is said not to contain [11, 12]. -/
theorem C44_wrapping_contains_refuted :
    ¬ ∀ (t : Ty) (a b : Rng), t.has a.start → t.has a.length → b.wf t → ∀ r, contains t a b = some r → (r = true ↔ ∀ x, b.points x → a.points x) := by
  intro h
  have := (h ⟨8, false⟩ ⟨10, 250⟩ ⟨11, 1⟩ (by decide) (by decide) ⟨by decide, by decide, by decide, by decide⟩ false (by decide)).2
    (fun x hx => by simp only [Rng.points] at *; omega)
  cases this

/-- The types of the statements: the values of an integer type of `n + 1` bits with and without sign, and what an addition in it gives. -/
theorem C44_types (n : Nat) (a b v : Int) :
    ((⟨n + 1, true⟩ : Ty).has v ↔ -2 ^ n ≤ v ∧ v < 2 ^ n) ∧ ((⟨n + 1, false⟩ : Ty).has v ↔ 0 ≤ v ∧ v < 2 ^ (n + 1)) ∧
    (add ⟨n + 1, true⟩ a b = some v ↔ v = a + b ∧ -2 ^ n ≤ v ∧ v < 2 ^ n) ∧ (sub ⟨n + 1, true⟩ a b = some v ↔ v = a - b ∧ -2 ^ n ≤ v ∧ v < 2 ^ n) ∧
    (add ⟨n + 1, false⟩ a b = some v ↔ v = (a + b) % 2 ^ (n + 1)) ∧ (sub ⟨n + 1, false⟩ a b = some v ↔ v = (a - b) % 2 ^ (n + 1)) := by
  have s : ∀ v : Int, (⟨n + 1, true⟩ : Ty).has v ↔ -2 ^ n ≤ v ∧ v < 2 ^ n := by
    intro v; simp [Ty.has, Ty.lo, Ty.hi]; omega
  have u : (⟨n + 1, false⟩ : Ty).has v ↔ 0 ≤ v ∧ v < 2 ^ (n + 1) := by
    simp [Ty.has, Ty.lo, Ty.hi]; omega
  have w : ∀ x : Int, (⟨n + 1, true⟩ : Ty).wrap x = some v ↔ v = x ∧ -2 ^ n ≤ v ∧ v < 2 ^ n := by
    intro x
    simp only [Ty.wrap, if_true]
    by_cases h : (⟨n + 1, true⟩ : Ty).has x
    · rw [if_pos h, Option.some.injEq]
      constructor
      · rintro rfl; exact ⟨rfl, (s _).1 h⟩
      · intro q; exact q.1.symm
    · rw [if_neg h]
      constructor
      · intro q; cases q
      · rintro ⟨rfl, q⟩; exact absurd ((s _).2 q) h
  refine ⟨s v, u, w _, w _, ?_, ?_⟩ <;> simp [add, sub, Ty.wrap, eq_comm]

/-- Non-vacuity. -/
example : (⟨4, 2⟩ : Rng).wf ⟨32, true⟩ ∧ (⟨5, 7⟩ : Rng).wf ⟨32, true⟩ ∧ ∃ x, (⟨4, 2⟩ : Rng).points x ∧ (⟨5, 7⟩ : Rng).points x :=
  ⟨⟨by decide, by decide, by decide, by decide⟩, ⟨by decide, by decide, by decide, by decide⟩, 5, ⟨by decide, by decide⟩, by decide, by decide⟩

#print axioms C44_clamp
#print axioms C44_types
#print axioms C44_min_max
#print axioms C44_ranges_partial
#print axioms C44_disjoint_intersection_refuted
#print axioms C44_wrapping_contains_refuted
end Verif.Range
