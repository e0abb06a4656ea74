import Verif.ReflectSpec
import Verif.RleProps
/-!
# Lemmas for C76, C77
-/
namespace Verif.Reflect

open Verif.Rle (le ofLe)

/-! ## Memory -/

theorem bytes_length (m : Mem) (a n : Nat) : (bytes m a n).length = n := by simp [bytes]

theorem bytes_congr {m m' : Mem} {a a' n : Nat} (h : ∀ i, i < n → m (a + i) = m' (a' + i)) : bytes m a n = bytes m' a' n := by
  unfold bytes
  apply List.map_congr_left
  intro i hi
  exact h i (List.mem_range.1 hi)

theorem store_out (m : Mem) (a : Nat) (xs : List UInt8) (x : Nat) (h : ¬(a ≤ x ∧ x < a + xs.length)) : store m a xs x = m x :=
  if_neg h

theorem store_in (m : Mem) (a : Nat) (xs : List UInt8) (i : Nat) (h : i < xs.length) : store m a xs (a + i) = xs[i] := by
  rw [store, if_pos (by omega), Nat.add_sub_cancel_left, List.getD_eq_getElem?_getD, List.getElem?_eq_getElem h]
  rfl

theorem bytes_store (m : Mem) (a : Nat) (xs : List UInt8) (n : Nat) (hn : n = xs.length) : bytes (store m a xs) a n = xs := by
  subst hn
  apply List.ext_getElem
  · simp [bytes]
  · intro i h1 h2
    simp only [bytes, List.getElem_map, List.getElem_range]
    exact store_in m a xs i h2

theorem ptr_congr {m m' : Mem} {a a' : Nat} (h : ∀ i, i < 8 → m (a + i) = m' (a' + i)) : ptr m a = ptr m' a' := by
  rw [ptr, ptr, bytes_congr h]

theorem ptr_store (m : Mem) (a q : Nat) (h : q < 2 ^ 64) : ptr (store m a (le 8 q)) a = q := by
  rw [ptr, bytes_store _ _ _ _ (Rle.le_length 8 q).symm, Rle.ofLe_le]
  exact Nat.mod_eq_of_lt h

/-! ## Sizes -/

theorem Sized.unique {env : Env} {t s s' : Nat} (h : Sized env t s) (h' : Sized env t s') : s = s' := by
  induction h generalizing s' with
  | void h1 => cases h' <;> simp_all
  | pointer h1 => cases h' <;> simp_all
  | integer h1 => cases h' <;> simp_all
  | float h1 => cases h' <;> simp_all
  | struct h1 => cases h' <;> simp_all
  | array h1 _ ih => cases h' with
    | array h2 h3 =>
      rw [h1] at h2
      simp only [Option.some.injEq, Ty.array.injEq] at h2
      rw [← h2.1] at h3
      rw [ih h3, h2.2]
    | _ => simp_all
  | validator h1 _ ih => cases h' with
    | validator h2 h3 =>
      rw [h1] at h2
      simp only [Option.some.injEq, Ty.validator.injEq] at h2
      rw [← h2] at h3
      exact ih h3
    | _ => simp_all

theorem typeSize_sized {env : Env} {t s : Nat} (h : Sized env t s) : ∃ K, ∀ k, K ≤ k → typeSize env k t = .ok s := by
  induction h with
  | void h1 => exact ⟨1, fun k hk => by obtain ⟨k, rfl⟩ := Nat.exists_eq_add_of_le' hk; simp [typeSize, h1]⟩
  | pointer h1 => exact ⟨1, fun k hk => by obtain ⟨k, rfl⟩ := Nat.exists_eq_add_of_le' hk; simp [typeSize, h1]⟩
  | integer h1 => exact ⟨1, fun k hk => by obtain ⟨k, rfl⟩ := Nat.exists_eq_add_of_le' hk; simp [typeSize, h1]⟩
  | float h1 => exact ⟨1, fun k hk => by obtain ⟨k, rfl⟩ := Nat.exists_eq_add_of_le' hk; simp [typeSize, h1]⟩
  | struct h1 => exact ⟨1, fun k hk => by obtain ⟨k, rfl⟩ := Nat.exists_eq_add_of_le' hk; simp [typeSize, h1]⟩
  | array h1 _ ih =>
    obtain ⟨K, hK⟩ := ih
    refine ⟨K + 1, fun k hk => ?_⟩
    obtain ⟨k, rfl⟩ := Nat.exists_eq_add_of_le' (Nat.le_trans (Nat.le_add_left 1 K) hk)
    simp [typeSize, h1, hK k (by omega)]
  | validator h1 _ ih =>
    obtain ⟨K, hK⟩ := ih
    refine ⟨K + 1, fun k hk => ?_⟩
    obtain ⟨k, rfl⟩ := Nat.exists_eq_add_of_le' (Nat.le_trans (Nat.le_add_left 1 K) hk)
    simp [typeSize, h1, hK k (by omega)]

/-! ## Running -/

/-- A computation that puts data like that at `a` in `m` to `dst`, taking `out` from the stream and retaining `rs`. -/
def Good (env : Env) (keep : Nat → Ownership → Bool) (m : Mem) (Q : Nat → Prop)
    (c : St × List UInt8 → Except Err (St × List UInt8)) (t a dst s : Nat) (out : List UInt8) (rs : List Nat) : Prop :=
  ∀ st rest, dst + s ≤ st.brk → (∀ x, Q x → st.mem x = m x ∧ x < st.brk ∧ ¬(dst ≤ x ∧ x < dst + s)) →
    c (st, out ++ rest) = .error .oom ∨
    ∃ st', c (st, out ++ rest) = .ok (st', rest) ∧ Put env keep m t a dst s st st' ∧ st'.retained = st.retained ++ rs

/-- The byte is in one of the parts. -/
def InParts (env : Env) (ps : List (Nat × Nat)) (dst x : Nat) : Prop :=
  ∃ p ∈ ps, ∃ s, Sized env p.2 s ∧ dst + p.1 ≤ x ∧ x < dst + p.1 + s

/-- `Put` for several parts. -/
structure PutParts (env : Env) (keep : Nat → Ownership → Bool) (m : Mem) (ps : List (Nat × Nat)) (a dst : Nat) (st st' : St) :
    Prop where
  grows : st.brk ≤ st'.brk
  frame : ∀ x, ¬InParts env ps dst x → ¬(st.brk ≤ x ∧ x < st'.brk) → st'.mem x = st.mem x
  like : ∀ m', (∀ x, InParts env ps dst x ∨ (st.brk ≤ x ∧ x < st'.brk) → m' x = st'.mem x) →
    ∀ p ∈ ps, Like env keep m m' p.2 (a + p.1) (dst + p.1)

/-- `Good` for several parts. -/
def PartsGood (env : Env) (keep : Nat → Ownership → Bool) (m : Mem) (Q : Nat → Prop)
    (c : St × List UInt8 → Except Err (St × List UInt8)) (ps : List (Nat × Nat)) (a dst S : Nat) (out : List UInt8)
    (rs : List Nat) : Prop :=
  ∀ st rest, dst + S ≤ st.brk → (∀ x, Q x → st.mem x = m x ∧ x < st.brk ∧ ¬(dst ≤ x ∧ x < dst + S)) →
    c (st, out ++ rest) = .error .oom ∨
    ∃ st', c (st, out ++ rest) = .ok (st', rest) ∧ PutParts env keep m ps a dst st st' ∧ st'.retained = st.retained ++ rs

/-- The parts lie within `S` bytes and do not overlap. -/
def Fits (env : Env) (ps : List (Nat × Nat)) (S : Nat) : Prop :=
  (∀ p ∈ ps, ∃ s, Sized env p.2 s ∧ p.1 + s ≤ S) ∧
  ps.Pairwise fun p q => ∀ s r, Sized env p.2 s → Sized env q.2 r → p.1 + s ≤ q.1 ∨ q.1 + r ≤ p.1

theorem InParts.lt {env : Env} {ps : List (Nat × Nat)} {S dst x : Nat} (h : Fits env ps S) (hx : InParts env ps dst x) :
    dst ≤ x ∧ x < dst + S := by
  obtain ⟨p, hp, s, hs, h1, h2⟩ := hx
  obtain ⟨s', hs', h3⟩ := h.1 p hp
  have := hs.unique hs'
  omega

theorem parts_nil (env : Env) (keep : Nat → Ownership → Bool) (m : Mem) (Q : Nat → Prop)
    (f : Nat → Nat → Nat → St × List UInt8 → Except Err (St × List UInt8)) (src a dst S : Nat) :
    PartsGood env keep m Q (eachPart f dst src []) [] a dst S [] [] := by
  intro st rest _ _
  exact Or.inr ⟨st, rfl, ⟨Nat.le_refl _, fun _ _ _ => rfl, fun _ _ p hp => by simp at hp⟩, by simp⟩

theorem parts_cons {env : Env} {keep : Nat → Ownership → Bool} {m : Mem} {Q : Nat → Prop}
    {f : Nat → Nat → Nat → St × List UInt8 → Except Err (St × List UInt8)} {src a dst S : Nat} {p : Nat × Nat}
    {ps : List (Nat × Nat)} {s : Nat} {out outs : List UInt8} {rs rss : List Nat} (hf : Fits env (p :: ps) S)
    (hs : Sized env p.2 s)
    (h1 : Good env keep m Q (f p.2 (dst + p.1) (src + p.1)) p.2 (a + p.1) (dst + p.1) s out rs)
    (h2 : PartsGood env keep m Q (eachPart f dst src ps) ps a dst S outs rss) :
    PartsGood env keep m Q (eachPart f dst src (p :: ps)) (p :: ps) a dst S (out ++ outs) (rs ++ rss) := by
  intro st rest hb hq
  obtain ⟨s', hs', hS⟩ := hf.1 p (by simp)
  have hss := hs.unique hs'
  subst hss
  have hf2 : Fits env ps S := ⟨fun q hq => hf.1 q (List.mem_cons_of_mem _ hq), (List.pairwise_cons.1 hf.2).2⟩
  rw [eachPart, List.append_assoc]
  rcases h1 st (outs ++ rest) (by omega) (fun x hx => ⟨(hq x hx).1, (hq x hx).2.1, by have := (hq x hx).2.2; omega⟩) with h | ⟨st1, e1, p1, r1⟩
  · rw [h]; exact Or.inl rfl
  rw [e1]
  rcases h2 st1 rest (Nat.le_trans hb p1.grows) (fun x hx => by
    obtain ⟨hx1, hx2, hx3⟩ := hq x hx
    refine ⟨?_, Nat.lt_of_lt_of_le hx2 p1.grows, hx3⟩
    rw [p1.frame x (by omega) (by omega), hx1]) with h | ⟨st2, e2, p2, r2⟩
  · exact Or.inl h
  refine Or.inr ⟨st2, e2, ⟨Nat.le_trans p1.grows p2.grows, ?_, ?_⟩, by rw [r2, r1, List.append_assoc]⟩
  · intro x hx1 hx2
    have hp : ¬(dst + p.1 ≤ x ∧ x < dst + p.1 + s) := fun h => hx1 ⟨p, by simp, s, hs, h⟩
    have hps : ¬InParts env ps dst x := fun ⟨q, hq, h⟩ => hx1 ⟨q, List.mem_cons_of_mem _ hq, h⟩
    have g1 := p1.grows
    have g2 := p2.grows
    rw [p2.frame x hps (by omega), p1.frame x hp (by omega)]
  · intro m' hm q hq
    have g1 := p1.grows
    have g2 := p2.grows
    rcases List.mem_cons.1 hq with rfl | hq
    · refine p1.like m' fun x hx => ?_
      rw [hm x (by
        rcases hx with hx | hx
        · exact Or.inl ⟨q, by simp, s, hs, hx⟩
        · exact Or.inr (by omega))]
      refine p2.frame x ?_ ?_
      · intro hin
        rcases hx with hx | hx
        · obtain ⟨r, hr, sr, hsr, h3, h4⟩ := hin
          have := (List.pairwise_cons.1 hf.2).1 r hr s sr hs hsr
          omega
        · have := hin.lt hf2
          omega
      · rcases hx with hx | hx <;> omega
    · refine p2.like m' (fun x hx => ?_) q hq
      apply hm
      rcases hx with ⟨r, hr, h⟩ | hx
      · exact Or.inl ⟨r, List.mem_cons_of_mem _ hr, h⟩
      · exact Or.inr (by omega)

/-- From the parts to the whole. -/
theorem parts_whole {env : Env} {keep : Nat → Ownership → Bool} {m : Mem} {Q : Nat → Prop}
    {c : St × List UInt8 → Except Err (St × List UInt8)} {ps : List (Nat × Nat)} {t a dst S : Nat} {out : List UInt8}
    {rs : List Nat} (hf : Fits env ps S) (h : PartsGood env keep m Q c ps a dst S out rs)
    (hl : ∀ m', (∀ p ∈ ps, Like env keep m m' p.2 (a + p.1) (dst + p.1)) → Like env keep m m' t a dst) :
    Good env keep m Q c t a dst S out rs := by
  intro st rest hb hq
  rcases h st rest hb hq with h | ⟨st', e, p, r⟩
  · exact Or.inl h
  refine Or.inr ⟨st', e, ⟨p.grows, ?_, ?_⟩, r⟩
  · intro x h1 h2
    exact p.frame x (fun hx => h1 (hx.lt hf)) h2
  · intro m' hm
    refine hl m' (p.like m' fun x hx => hm x ?_)
    rcases hx with hx | hx
    · exact Or.inl (hx.lt hf)
    · exact Or.inr hx

theorem fits_struct {env : Env} (hl : Layout env) {t n : Nat} {fs : List (Nat × Nat)} (h : env.ty t = some (.struct n fs)) :
    Fits env fs n := hl t n fs h

theorem fits_elements {env : Env} {e s : Nat} (hs : Sized env e s) (c : Nat) : Fits env (elements s e c) (s * c) := by
  constructor
  · intro p hp
    obtain ⟨i, hi, rfl⟩ := List.mem_map.1 hp
    have hi := List.mem_range.1 hi
    refine ⟨s, hs, ?_⟩
    have : s * (i + 1) ≤ s * c := Nat.mul_le_mul_left s hi
    simp only [Nat.mul_add, Nat.mul_one] at this
    exact this
  · rw [elements, List.pairwise_map]
    refine List.Pairwise.imp ?_ (List.pairwise_lt_range (n := c))
    intro i j hij s1 s2 h1 h2
    have e1 := h1.unique hs
    have e2 := h2.unique hs
    refine Or.inl ?_
    have : s * (i + 1) ≤ s * j := Nat.mul_le_mul_left s hij
    rw [e1]
    simpa only [Nat.mul_add, Nat.mul_one] using this

theorem mem_elements {s e c : Nat} {p : Nat × Nat} : p ∈ elements s e c ↔ ∃ i, i < c ∧ p = (s * i, e) := by
  simp only [elements, List.mem_map, List.mem_range]
  exact ⟨fun ⟨i, h1, h2⟩ => ⟨i, h1, h2.symm⟩, fun ⟨i, h1, h2⟩ => ⟨i, h1, h2.symm⟩⟩

/-- Storing bytes. -/
theorem put_store {env : Env} {keep : Nat → Ownership → Bool} {m : Mem} {t a dst s : Nat} {st : St} {xs : List UInt8}
    (hx : xs.length = s) (hl : ∀ m', bytes m' dst s = xs → Like env keep m m' t a dst) :
    Put env keep m t a dst s st { st with mem := store st.mem dst xs } := by
  refine ⟨Nat.le_refl _, ?_, ?_⟩
  · intro x h1 _
    exact store_out _ _ _ _ (by rw [hx]; exact h1)
  · intro m' hm
    refine hl m' ?_
    rw [← bytes_store st.mem dst xs s hx.symm]
    exact bytes_congr fun i hi => hm (dst + i) (Or.inl (by omega))

/-- A pointer to newly allocated data. -/
theorem put_deep {env : Env} {keep : Nat → Ownership → Bool} {m : Mem} {t g a dst s : Nat} {o : Ownership} {st st2 : St} (mem1 : Mem)
    (ht : env.ty t = some (.pointer g o)) (hk : keep g o = false) (h0 : dst ≠ 0) (hb : dst + 8 ≤ st.brk)
    (hq : st.brk + s + 1 ≤ 2 ^ 64) (hp : ptr m a ≠ 0) (hm1 : ∀ x, ¬(dst ≤ x ∧ x < dst + 8) → mem1 x = st.mem x)
    (p : Put env keep m g (ptr m a) st.brk s { st with mem := mem1, brk := st.brk + s + 1 } st2) :
    Put env keep m t a dst 8 st { st2 with mem := store st2.mem dst (le 8 st.brk) } := by
  have g1 : st.brk + s + 1 ≤ st2.brk := p.grows
  refine ⟨show st.brk ≤ st2.brk by omega, ?_, ?_⟩
  · intro x h1 h2
    have h2 : ¬(st.brk ≤ x ∧ x < st2.brk) := h2
    have hf := p.frame x (by omega) (by dsimp only; omega)
    show store st2.mem dst (le 8 st.brk) x = st.mem x
    rw [store_out _ _ _ _ (by rw [Rle.le_length]; exact h1), hf]
    exact hm1 x h1
  · intro m' hm
    have hm : ∀ x, (dst ≤ x ∧ x < dst + 8) ∨ (st.brk ≤ x ∧ x < st2.brk) → m' x = store st2.mem dst (le 8 st.brk) x := hm
    have hpt : ptr m' dst = st.brk := by
      rw [ptr_congr (m' := store st2.mem dst (le 8 st.brk)) (a' := dst) fun i hi => hm (dst + i) (Or.inl (by omega))]
      exact ptr_store _ _ _ (by omega)
    refine Like.deep ht hk hp (by rw [hpt]; omega) ?_
    rw [hpt]
    refine p.like m' fun x hx => ?_
    have hx : (st.brk ≤ x ∧ x < st.brk + s) ∨ (st.brk + s + 1 ≤ x ∧ x < st2.brk) := hx
    rw [hm x (Or.inr (by omega)), store_out _ _ _ _ (by rw [Rle.le_length]; omega)]

end Verif.Reflect
