import Verif.TypeGraphSpec

/-!
# C84: descriptions of types are read back
-/
namespace Verif.TypeGraph

open Verif.VarInt

/-! ## Numbers -/

theorem bytes8_length (n : Nat) : (bytes8 n).length = 8 := by simp [bytes8]

theorem value_bytes8 {n : Nat} (h : n < 2 ^ 64) : value (bytes8 n) = n := by
  simp only [bytes8, List.range, List.range.loop, List.map, value, UInt8.toNat_ofNat', Nat.reducePow]
  omega

theorem getNat_put {n : Nat} (h : n < 2 ^ 56) : ∃ a, putNat n = some a ∧ ∀ rest, getNat (a ++ rest) = some (n, rest) := by
  have hl := bytes8_length n
  obtain ⟨out, h1, h2⟩ := C75_unsigned_partial .native (bytes8 n) (by intro h'; rw [h'] at hl; simp at hl) (by omega)
    (by rw [show view .native (bytes8 n) = bytes8 n from rfl, value_bytes8 (by omega)]; exact h)
  refine ⟨out, h1, fun rest => ?_⟩
  have := h2 .native rest
  rw [hl] at this
  rw [getNat, this]
  simp only [Option.map_some, view, Endian.low, if_true]
  rw [value_bytes8 (by omega)]

theorem getSigned_put {n : Nat} (h : n < 2 ^ 48 ∨ 2 ^ 64 - 2 ^ 48 ≤ n ∧ n < 2 ^ 64) :
    ∃ a, putSigned n = some a ∧ ∀ rest, getSigned (a ++ rest) = some (n, rest) := by
  have hl := bytes8_length n
  have hv : value (bytes8 n) = n := value_bytes8 (by omega)
  obtain ⟨out, h1, h2⟩ := C75_signed_partial .native (bytes8 n) (by intro h'; rw [h'] at hl; simp at hl) (by omega) (by
    rw [show view .native (bytes8 n) = bytes8 n from rfl, signedValue, hv, hl]
    split <;> omega)
  refine ⟨out, h1, fun rest => ?_⟩
  have := h2 .native rest
  rw [hl] at this
  rw [getSigned, this]
  simp only [Option.map_some, view, Endian.low, if_true]
  rw [hv]

/-! ## The first byte -/

/-- **C84.** Every lookup ID up to 154 has a byte of its own, from which it is found again; the others have none. -/
theorem C84_lookup_codes (id : Nat) : (id ≤ 154 → ∃ b < 256, lookupByte id = some b ∧ lookupID b = some id) ∧ (154 < id → lookupByte id = none) := by
  constructor
  · intro h
    have : ∀ i : Fin 155, ∃ b < 256, lookupByte i = some b ∧ lookupID b = some i.1 := by decide +kernel
    exact this ⟨id, by omega⟩
  · intro h
    unfold lookupByte
    rw [if_neg (by omega), if_neg (by omega), if_neg (by omega), if_neg (by omega), if_neg (by omega)]

/-- What the first byte of a description is. -/
def Desc.head {X α : Type} : Desc X α → Nat
  | .pointer s o _ _ _ => 0 <<< 4 ||| s <<< 2 ||| o
  | .integer s f e _ => 1 <<< 4 ||| s.toNat <<< 3 ||| f.toNat <<< 2 ||| e
  | .float e _ => 2 <<< 4 ||| e
  | .struct _ _ => 3 <<< 4
  | .opaque _ _ => 4 <<< 4
  | .array _ _ => 5 <<< 4
  | .validator => 6 <<< 4
  | .enumerable _ _ => 7 <<< 4

/-- **C84.** No description starts with a byte of a type that is looked up. -/
theorem C84_head {X α : Type} (d : Desc X α) (h : d.Ok) : d.head < 256 ∧ lookupID d.head = none := by
  cases d with
  | pointer s o t c x =>
    have : ∀ (s : Fin 2) (o : Fin 3), (0 <<< 4 ||| s.1 <<< 2 ||| o.1) < 256 ∧ lookupID (0 <<< 4 ||| s.1 <<< 2 ||| o.1) = none := by decide +kernel
    exact this ⟨s, by have := h.1; omega⟩ ⟨o, by have := h.2.1; omega⟩
  | integer s f e n =>
    have : ∀ (s f : Bool) (e : Fin 3), (1 <<< 4 ||| s.toNat <<< 3 ||| f.toNat <<< 2 ||| e.1) < 256 ∧
      lookupID (1 <<< 4 ||| s.toNat <<< 3 ||| f.toNat <<< 2 ||| e.1) = none := by decide +kernel
    exact this s f ⟨e, by have := h.1; omega⟩
  | float e n =>
    have : ∀ (e : Fin 3), (2 <<< 4 ||| e.1) < 256 ∧ lookupID (2 <<< 4 ||| e.1) = none := by decide +kernel
    exact this ⟨e, by have := h.1; omega⟩
  | struct | «opaque» | array | validator | enumerable => exact ⟨by simp only [Desc.head]; decide, by simp only [Desc.head]; decide⟩

/-! ## Writing and reading the graph -/

section Graph
variable {N X : Type} [DecidableEq N]

/-- Where the type `t` is. -/
def at' (seen : List N) (types : List (Ref N)) (t : N) : Ref N := types.getD (seen.idxOf t) (.fresh 0)

/-- The type `s` was read as `r`. -/
def Good (g : N → Desc X N) (known : N → Prop) (seen : List N) (z : Zone N X) (s : N) (r : Ref N) : Prop :=
  (known s → r = .known s) ∧
  (¬known s → (∀ t ∈ (g s).refs, t ∈ seen) ∧ ∃ k, r = .fresh k ∧ z.heap[k]? = some (some ((g s).image (at' seen z.types))))

theorem at_append {seen new : List N} {types tnew : List (Ref N)} (h : types.length = seen.length) {t : N} (ht : t ∈ seen) :
    at' (seen ++ new) (types ++ tnew) t = at' seen types t := by
  have h1 : (seen ++ new).idxOf t = seen.idxOf t := by rw [List.idxOf_append, if_pos ht]
  have h2 : seen.idxOf t < types.length := by rw [h]; exact List.idxOf_lt_length_of_mem ht
  unfold at'
  rw [h1, List.getD_eq_getElem?_getD, List.getD_eq_getElem?_getD, List.getElem?_append_left h2]

theorem image_congr {α β : Type} {d : Desc X α} {φ ψ : α → β} (h : ∀ t ∈ d.refs, φ t = ψ t) : d.image φ = d.image ψ := by
  cases d <;> simp_all [Desc.image, Desc.refs]

/-- What is read stays as it is when more is read. -/
theorem Good.mono {g : N → Desc X N} {known : N → Prop} {seen new : List N} {z z' : Zone N X} {tnew : List (Ref N)} {s : N} {r : Ref N}
    (h : Good g known seen z s r) (hl : z.types.length = seen.length) (ht : z'.types = z.types ++ tnew)
    (hh : ∀ (k : Nat) d, z.heap[k]? = some (some d) → z'.heap[k]? = some (some d)) : Good g known (seen ++ new) z' s r := by
  refine ⟨h.1, fun hk => ?_⟩
  obtain ⟨h1, k, h2, h3⟩ := h.2 hk
  refine ⟨fun t h' => List.mem_append_left _ (h1 t h'), k, h2, ?_⟩
  rw [hh _ _ h3]
  congr 2
  apply image_congr
  intro t h'
  rw [ht, at_append hl (h1 t h')]

/-- What writing the types `new` and reading them does: `n` is the number of descriptors that are there before. -/
structure Ext (g : N → Desc X N) (known : N → Prop) (seen : List N) (z : Zone N X) (seen' : List N) (z' : Zone N X) : Prop where
  ext : ∃ new tnew hnew, seen' = seen ++ new ∧ z'.types = z.types ++ tnew ∧ z'.heap = z.heap ++ hnew ∧ tnew.length = new.length ∧
    (∀ (j : Nat) s, new[j]? = some s → ∃ r, tnew[j]? = some r ∧ Good g known seen' z' s r) ∧
    (∀ (j k : Nat), tnew[j]? = some (.fresh k) → z.heap.length ≤ k ∧ k < z'.heap.length) ∧
    (∀ (i j k : Nat), tnew[i]? = some (.fresh k) → tnew[j]? = some (.fresh k) → i = j)

theorem Ext.refl (g : N → Desc X N) (known : N → Prop) (seen : List N) (z : Zone N X) : Ext g known seen z seen z :=
  ⟨[], [], [], by simp⟩

theorem Ext.trans {g : N → Desc X N} {known : N → Prop} {s0 s1 s2 : List N} {z0 z1 z2 : Zone N X} (h1 : Ext g known s0 z0 s1 z1)
    (h2 : Ext g known s1 z1 s2 z2) (hl : z0.types.length = s0.length) : Ext g known s0 z0 s2 z2 := by
  obtain ⟨n1, t1, p1, a1, b1, c1, d1, e1, f1, i1⟩ := h1
  obtain ⟨n2, t2, p2, a2, b2, c2, d2, e2, f2, i2⟩ := h2
  have hl1 : z1.types.length = s1.length := by rw [a1, b1]; simp [hl, d1]
  refine ⟨n1 ++ n2, t1 ++ t2, p1 ++ p2, by rw [a2, a1, List.append_assoc], by rw [b2, b1, List.append_assoc],
    by rw [c2, c1, List.append_assoc], by simp [d1, d2], ?_, ?_, ?_⟩
  · intro j s hj
    by_cases hlt : j < n1.length
    · rw [List.getElem?_append_left hlt] at hj
      obtain ⟨r, hr, hg⟩ := e1 j s hj
      refine ⟨r, by rw [List.getElem?_append_left (by omega)]; exact hr, ?_⟩
      rw [a2]
      refine hg.mono hl1 b2 ?_
      intro k d hk
      have : k < z1.heap.length := (List.getElem?_eq_some_iff.mp hk).1
      rw [c2, List.getElem?_append_left this]
      exact hk
    · rw [List.getElem?_append_right (by omega)] at hj
      obtain ⟨r, hr, hg⟩ := e2 _ s hj
      exact ⟨r, by rw [List.getElem?_append_right (by omega), d1]; exact hr, hg⟩
  · intro j k hj
    have hz1 : z1.heap.length = z0.heap.length + p1.length := by rw [c1]; simp
    have hz2 : z2.heap.length = z1.heap.length + p2.length := by rw [c2]; simp
    by_cases hlt : j < t1.length
    · rw [List.getElem?_append_left hlt] at hj
      have := f1 j k hj
      omega
    · rw [List.getElem?_append_right (by omega)] at hj
      have := f2 _ k hj
      omega
  · intro i j k hi hj
    by_cases hi' : i < t1.length <;> by_cases hj' : j < t1.length
    · rw [List.getElem?_append_left hi'] at hi
      rw [List.getElem?_append_left hj'] at hj
      exact i1 i j k hi hj
    · rw [List.getElem?_append_left hi'] at hi
      rw [List.getElem?_append_right (by omega)] at hj
      have := f1 _ _ hi
      have := f2 _ _ hj
      omega
    · rw [List.getElem?_append_right (by omega)] at hi
      rw [List.getElem?_append_left hj'] at hj
      have := f2 _ _ hi
      have := f1 _ _ hj
      omega
    · rw [List.getElem?_append_right (by omega)] at hi
      rw [List.getElem?_append_right (by omega)] at hj
      have := i2 _ _ k hi hj
      omega

/-- Completing a descriptor whose parts are read. -/
theorem Ext.finish {g : N → Desc X N} {known : N → Prop} {seen seen' : List N} {z z1 : Zone N X} {t : N} (hl : z.types.length = seen.length)
    (ht : t ∉ seen) (hk : ¬known t) (h : Ext g known (seen ++ [t]) (alloc z) seen' z1) (hr : ∀ c ∈ (g t).refs, c ∈ seen') :
    Ext g known seen z seen' (TypeGraph.finish z.heap.length ((g t).image (at' seen' z1.types)) z1) ∧ at' seen' z1.types t = .fresh z.heap.length := by
  obtain ⟨n1, t1, p1, a1, b1, c1, d1, e1, f1, i1⟩ := h
  simp only [alloc] at b1 c1 f1
  have hk' : z1.heap[z.heap.length]? = some none := by rw [c1]; simp
  have hlen : z.heap.length < z1.heap.length := by rw [c1]; simp
  constructor
  · refine ⟨t :: n1, .fresh z.heap.length :: t1, some ((g t).image (at' seen' z1.types)) :: p1, by rw [a1]; simp, ?_, ?_, by simp [d1], ?_, ?_, ?_⟩
    · simp [TypeGraph.finish, b1]
    · simp only [TypeGraph.finish, c1]
      simp
    · intro j s hj
      cases j with
      | zero =>
        simp only [List.getElem?_cons_zero, Option.some.injEq] at hj
        subst hj
        refine ⟨_, rfl, fun h => absurd h hk, fun _ => ⟨hr, _, rfl, ?_⟩⟩
        simp [TypeGraph.finish, hlen]
      | succ j =>
        simp only [List.getElem?_cons_succ] at hj ⊢
        obtain ⟨r, h1, h2⟩ := e1 j s hj
        refine ⟨r, h1, h2.1, fun h => ?_⟩
        obtain ⟨h3, k, h4, h5⟩ := h2.2 h
        refine ⟨h3, k, h4, ?_⟩
        simp only [TypeGraph.finish]
        rw [List.getElem?_set_ne]
        · exact h5
        · intro he
          rw [← he, hk'] at h5
          simp at h5
    · intro j k hj
      cases j with
      | zero =>
        simp only [List.getElem?_cons_zero, Option.some.injEq, Ref.fresh.injEq] at hj
        subst hj
        simp [TypeGraph.finish, hlen]
      | succ j =>
        simp only [List.getElem?_cons_succ] at hj
        have := f1 j k hj
        simp [TypeGraph.finish] at this ⊢
        omega
    · intro i j k hi hj
      cases i with
      | zero =>
        cases j with
        | zero => rfl
        | succ j =>
          simp only [List.getElem?_cons_zero, Option.some.injEq, Ref.fresh.injEq, List.getElem?_cons_succ] at hi hj
          have := f1 j k hj
          simp at this
          omega
      | succ i =>
        cases j with
        | zero =>
          simp only [List.getElem?_cons_zero, Option.some.injEq, Ref.fresh.injEq, List.getElem?_cons_succ] at hi hj
          have := f1 i k hi
          simp at this
          omega
        | succ j =>
          simp only [List.getElem?_cons_succ] at hi hj
          rw [i1 i j k hi hj]
  · rw [a1, b1, at_append (by simp [hl]) (by simp)]
    unfold at'
    rw [List.idxOf_append, if_neg ht]
    simp [← hl]

/-- The types that are numbered are met, once each. -/
structure Inv (g : N → Desc X N) (known : N → Prop) (root : N) (seen : List N) : Prop where
  nodup : seen.Nodup
  reach : ∀ s ∈ seen, Reach g known root s

/-- What `w` writes, `r` reads. -/
def Reads {A : Type} (g : N → Desc X N) (known : N → Prop) (root : N) (seen : List N) (w : Option (List UInt8 × List N))
    (r : Zone N X → List UInt8 → Option (A × Zone N X × List UInt8)) (post : List N → Zone N X → A → Prop) : Prop :=
  ∃ bs new, w = some (bs, seen ++ new) ∧ Inv g known root (seen ++ new) ∧
    ∀ z : Zone N X, z.types.length = seen.length → ∀ rest, ∃ a z', r z (bs ++ rest) = some (a, z', rest) ∧ Ext g known seen z (seen ++ new) z' ∧
      post (seen ++ new) z' a

theorem Ext.length {g : N → Desc X N} {known : N → Prop} {seen seen' : List N} {z z' : Zone N X} (h : Ext g known seen z seen' z')
    (hl : z.types.length = seen.length) : z'.types.length = seen'.length := by
  obtain ⟨n1, t1, p1, a1, b1, c1, d1, -⟩ := h
  rw [a1, b1]
  simp [hl, d1]

theorem Ext.at {g : N → Desc X N} {known : N → Prop} {seen seen' : List N} {z z' : Zone N X} (h : Ext g known seen z seen' z')
    (hl : z.types.length = seen.length) {t : N} (ht : t ∈ seen) : at' seen' z'.types t = at' seen z.types t := by
  obtain ⟨n1, t1, p1, a1, b1, -⟩ := h
  rw [a1, b1, at_append hl ht]

/-- How many of the types are not numbered. -/
def unseen (nodes seen : List N) : Nat := (nodes.filter (· ∉ seen)).length

theorem unseen_le (nodes seen new : List N) : unseen nodes (seen ++ new) ≤ unseen nodes seen := by
  unfold unseen
  induction nodes with
  | nil => simp
  | cons x xs ih =>
    simp only [List.filter_cons, List.mem_append]
    by_cases h1 : x ∈ seen
    · simpa [h1] using ih
    · by_cases h2 : x ∈ new
      · simp [h1, h2] at ih ⊢
        omega
      · simpa [h1, h2] using ih

theorem unseen_lt {nodes seen : List N} {t : N} (h : t ∈ nodes) (ht : t ∉ seen) : unseen nodes (seen ++ [t]) < unseen nodes seen := by
  induction nodes with
  | nil => simp at h
  | cons x xs ih =>
    have hle := unseen_le xs seen [t]
    unfold unseen at *
    simp only [List.filter_cons, List.mem_append, List.mem_singleton]
    by_cases hx : x = t
    · subst hx
      simp [ht] at hle ⊢
      omega
    · have h' : t ∈ xs := by
        rcases List.mem_cons.mp h with h | h
        · exact absurd h.symm hx
        · exact h
      have := ih h'
      by_cases hs : x ∈ seen
      · simpa [hs] using this
      · simpa [hs, hx] using this

theorem nodup_length_le : ∀ (seen nodes : List N), seen.Nodup → (∀ s ∈ seen, s ∈ nodes) → seen.length ≤ nodes.length
  | [], nodes, _, _ => by simp
  | x :: xs, nodes, hd, hs => by
    have hx : x ∈ nodes := hs x (by simp)
    have h := nodup_length_le xs (nodes.erase x) (List.nodup_cons.mp hd).2 (fun s h => by
      have hne : s ≠ x := fun h' => (List.nodup_cons.mp hd).1 (h' ▸ h)
      exact (List.mem_erase_of_ne hne).mpr (hs s (List.mem_cons_of_mem _ h)))
    rw [List.length_erase_of_mem hx] at h
    have : 0 < nodes.length := List.length_pos_of_mem hx
    simp only [List.length_cons]
    omega

section Parts
variable {g : N → Desc X N} {known : N → Prop} {root : N} {nodes : List N} {n : Nat}
  {w : List N → N → Option (List UInt8 × List N)} {r : Zone N X → List UInt8 → Option (Ref N × Zone N X × List UInt8)}

/-- A reference. -/
theorem reads_ref (hn : ∀ s, Reach g known root s → s ∈ nodes) (hb : nodes.length < 2 ^ 56)
    (rec : ∀ seen t, Reach g known root t → t ∉ seen → Inv g known root seen → unseen nodes seen ≤ n →
      Reads g known root seen (w seen t) r fun seen' z' a => t ∈ seen' ∧ at' seen' z'.types t = a)
    (seen : List N) (t : N) (ht : Reach g known root t) (hi : Inv g known root seen) (hu : unseen nodes seen ≤ n) :
    Reads g known root seen (putRef w seen t) (getRef r) fun seen' z' a => t ∈ seen' ∧ at' seen' z'.types t = a := by
  have hlen : seen.length ≤ nodes.length := nodup_length_le _ _ hi.nodup fun s h => hn s (hi.reach s h)
  by_cases h : t ∈ seen
  · have hlt := List.idxOf_lt_length_of_mem h
    obtain ⟨a, h1, h2⟩ := getNat_put (n := seen.idxOf t) (by omega)
    refine ⟨a, [], by simp [putRef, h, h1], by simpa using hi, fun z hz rest => ?_⟩
    refine ⟨at' seen z.types t, z, ?_, by simpa using Ext.refl g known seen z, by simpa using h, by simp⟩
    rw [getRef, h2]
    have hlt' : seen.idxOf t < z.types.length := by omega
    simp only [Option.bind_eq_bind, Option.bind_some, List.getElem?_eq_getElem hlt', at', List.getD_eq_getElem?_getD, Option.getD_some]
  · obtain ⟨a, h1, h2⟩ := getNat_put (n := seen.length) (by omega)
    obtain ⟨bs, new, h3, h4, h5⟩ := rec seen t ht h hi hu
    refine ⟨a ++ bs, new, by simp [putRef, h, h1, h3], h4, fun z hz rest => ?_⟩
    obtain ⟨b, z', h6, h7, h8⟩ := h5 z hz rest
    refine ⟨b, z', ?_, h7, h8⟩
    rw [getRef, List.append_assoc, h2]
    simp only [Option.bind_eq_bind, Option.bind_some]
    rw [List.getElem?_eq_none (by omega)]
    exact h6

/-- The fields. -/
theorem reads_fields (hn : ∀ s, Reach g known root s → s ∈ nodes) (hb : nodes.length < 2 ^ 56)
    (rec : ∀ seen t, Reach g known root t → t ∉ seen → Inv g known root seen → unseen nodes seen ≤ n →
      Reads g known root seen (w seen t) r fun seen' z' a => t ∈ seen' ∧ at' seen' z'.types t = a) :
    ∀ (fs : List (Field N)) (seen : List N), (∀ f ∈ fs, Reach g known root f.type ∧ f.offset < 2 ^ 56) → Inv g known root seen →
      unseen nodes seen ≤ n →
      Reads g known root seen (putFields w fs seen) (getFields r fs.length) fun seen' z' a =>
        (∀ f ∈ fs, f.type ∈ seen') ∧ a = fs.map fun f => ⟨0, f.offset, at' seen' z'.types f.type⟩
  | [], seen, _, hi, _ => ⟨[], [], by simp [putFields], by simpa using hi, fun z _ rest =>
      ⟨[], z, by simp [getFields], by simpa using Ext.refl g known seen z, by simp, by simp⟩⟩
  | f :: fs, seen, hf, hi, hu => by
    obtain ⟨a, h1, h2⟩ := getNat_put (hf f (by simp)).2
    obtain ⟨bs, new, h3, h4, h5⟩ := reads_ref hn hb rec seen f.type (hf f (by simp)).1 hi hu
    obtain ⟨cs, new', h6, h7, h8⟩ := reads_fields hn hb rec fs (seen ++ new) (fun f h => hf f (List.mem_cons_of_mem _ h)) h4
      (Nat.le_trans (unseen_le _ _ _) hu)
    refine ⟨a ++ bs ++ cs, new ++ new', by simp [putFields, h1, h3, h6], by rw [← List.append_assoc]; exact h7, fun z hz rest => ?_⟩
    obtain ⟨b, z1, i1, i2, i3, i4⟩ := h5 z hz (cs ++ rest)
    obtain ⟨c, z2, j1, j2, j3, j4⟩ := h8 z1 (i2.length hz) rest
    refine ⟨⟨0, f.offset, b⟩ :: c, z2, ?_, ?_, ?_, ?_⟩
    · rw [List.length_cons, getFields, List.append_assoc, List.append_assoc, h2]
      simp only [Option.bind_eq_bind, Option.bind_some]
      rw [i1]
      simp only [Option.bind_some]
      rw [j1]
      rfl
    · rw [← List.append_assoc]
      exact i2.trans j2 hz
    · intro f' h'
      rw [← List.append_assoc]
      rcases List.mem_cons.mp h' with h' | h'
      · subst h'
        exact List.mem_append_left _ i3
      · exact j3 f' h'
    · rw [← List.append_assoc, List.map_cons, j4, j2.at (i2.length hz) i3, i4]

end Parts

/-- The writer's and the reader's lookups are of one mind. -/
def Agree (lw : Option (N → Nat)) (lr : Option (Nat → Option N)) : Prop :=
  ∀ f t, lw = some f → f t ≤ 154 → ∃ h, lr = some h ∧ h (f t) = some t

/-- The types that the writer looks up. -/
def Known (lw : Option (N → Nat)) (t : N) : Prop := ∃ f, lw = some f ∧ f t ≤ 154

theorem lookedUp_none {lw : Option (N → Nat)} {t : N} (h : ¬Known lw t) : lookedUp lw t = none := by
  cases lw with
  | none => rfl
  | some f =>
    show lookupByte (f t) = none
    exact (C84_lookup_codes (f t)).2 (by
      have : ¬f t ≤ 154 := fun h' => h ⟨f, rfl, h'⟩
      omega)

/-- The first byte of a description is not looked up. -/
theorem get_head (lr : Option (Nat → Option N)) (dec : List UInt8 → Option (X × List UInt8)) (n : Nat) (z : Zone N X) {α : Type} (d : Desc X α)
    (hd : d.Ok) (inp : List UInt8) :
    get lr dec (n + 1) z (UInt8.ofNat d.head :: inp) = getDesc dec (get lr dec n) d.head z inp := by
  obtain ⟨h1, h2⟩ := C84_head d hd
  have h3 : (UInt8.ofNat d.head).toNat = d.head := by simpa using h1
  cases lr with
  | none => simp only [get, h3]
  | some f => simp only [get, h3, h2]

theorem head_pointer {s o : Nat} (hs : s ≤ 1) (ho : o ≤ 2) :
    (0 <<< 4 ||| s <<< 2 ||| o) >>> 4 = 0 ∧ ((0 <<< 4 ||| s <<< 2 ||| o) &&& 4) >>> 2 = s ∧ (0 <<< 4 ||| s <<< 2 ||| o) &&& 3 = o := by
  have : ∀ (s : Fin 2) (o : Fin 3), (0 <<< 4 ||| s.1 <<< 2 ||| o.1) >>> 4 = 0 ∧ ((0 <<< 4 ||| s.1 <<< 2 ||| o.1) &&& 4) >>> 2 = s.1 ∧
    (0 <<< 4 ||| s.1 <<< 2 ||| o.1) &&& 3 = o.1 := by decide +kernel
  exact this ⟨s, by omega⟩ ⟨o, by omega⟩

theorem head_integer (s f : Bool) {e : Nat} (he : e ≤ 2) (b : Nat) (hb : b = (1 <<< 4 ||| s.toNat <<< 3 ||| f.toNat <<< 2 ||| e)) :
    b >>> 4 = 1 ∧ (b &&& 8 != 0) = s ∧ (b &&& 4 != 0) = f ∧ b &&& 3 = e := by
  subst hb
  have : ∀ (s f : Bool) (e : Fin 3), (1 <<< 4 ||| s.toNat <<< 3 ||| f.toNat <<< 2 ||| e.1) >>> 4 = 1 ∧
    ((1 <<< 4 ||| s.toNat <<< 3 ||| f.toNat <<< 2 ||| e.1) &&& 8 != 0) = s ∧
    ((1 <<< 4 ||| s.toNat <<< 3 ||| f.toNat <<< 2 ||| e.1) &&& 4 != 0) = f ∧ (1 <<< 4 ||| s.toNat <<< 3 ||| f.toNat <<< 2 ||| e.1) &&& 3 = e.1 := by
    decide +kernel
  exact this s f ⟨e, by omega⟩

theorem head_float {e : Nat} (he : e ≤ 2) : (2 <<< 4 ||| e) >>> 4 = 2 ∧ (2 <<< 4 ||| e) &&& 3 = e := by
  have : ∀ e : Fin 3, (2 <<< 4 ||| e.1) >>> 4 = 2 ∧ (2 <<< 4 ||| e.1) &&& 3 = e.1 := by decide +kernel
  exact this ⟨e, by omega⟩

/-- What a description is read as, once its parts are. -/
theorem reads_desc {g : N → Desc X N} {known : N → Prop} {root : N} {nodes : List N} {n : Nat} {lw : Option (N → Nat)} {lr : Option (Nat → Option N)}
    {enc : X → List UInt8} {dec : List UInt8 → Option (X × List UInt8)} (hx : ∀ x rest, dec (enc x ++ rest) = some (x, rest))
    (hn : ∀ s, Reach g known root s → s ∈ nodes) (hb : nodes.length < 2 ^ 56)
    (rec : ∀ seen t, Reach g known root t → t ∉ seen → Inv g known root seen → unseen nodes seen ≤ n →
      Reads g known root seen (put g lw enc n seen t) (get lr dec n) fun seen' z' a => t ∈ seen' ∧ at' seen' z'.types t = a)
    (seen : List N) (t : N) (ht : Reach g known root t) (hk : ¬known t) (hok : (g t).Ok) (hts : t ∉ seen)
    (hi : Inv g known root (seen ++ [t])) (hu : unseen nodes (seen ++ [t]) ≤ n) :
    ∃ bs new, putDesc enc (put g lw enc n) (seen ++ [t]) (g t) = some (UInt8.ofNat (g t).head :: bs, seen ++ [t] ++ new) ∧
      Inv g known root (seen ++ [t] ++ new) ∧
      ∀ z : Zone N X, z.types.length = seen.length → ∀ rest, ∃ z1, Ext g known (seen ++ [t]) (alloc z) (seen ++ [t] ++ new) z1 ∧
        (∀ c ∈ (g t).refs, c ∈ seen ++ [t] ++ new) ∧
        getDesc dec (get lr dec n) (g t).head z (bs ++ rest) =
          some (.fresh z.heap.length, finish z.heap.length ((g t).image (at' (seen ++ [t] ++ new) z1.types)) z1, rest) := by
  have hreach : ∀ c ∈ (g t).refs, Reach g known root c := fun c hc => .ref ht hk hc
  have hal : ∀ z : Zone N X, z.types.length = seen.length → (alloc z).types.length = (seen ++ [t]).length := by
    intro z hz
    simp [alloc, hz]
  revert hok hreach
  generalize g t = d
  intro hok hreach
  cases d with
  | pointer s o c cu x =>
    obtain ⟨hs, ho, hc⟩ := hok
    subst hc
    obtain ⟨bs, new, h1, h2, h3⟩ := reads_ref hn hb rec (seen ++ [t]) c (hreach c (by simp [Desc.refs])) hi hu
    refine ⟨bs ++ enc x, new, ?_, h2, fun z hz rest => ?_⟩
    · simp only [putDesc, h1, Option.bind_eq_bind, Option.bind_some, Bool.false_eq_true, and_false, if_false, Desc.head, List.cons_append]
    · obtain ⟨a, z1, i1, i2, i3, i4⟩ := h3 (alloc z) (hal z hz) (enc x ++ rest)
      refine ⟨z1, i2, by simpa [Desc.refs] using i3, ?_⟩
      obtain ⟨e1, e2, e3⟩ := head_pointer hs ho
      simp only [getDesc, Desc.head, e1, e2, e3, List.append_assoc, Option.bind_eq_bind]
      rw [i1]
      simp only [Option.bind_some]
      rw [hx]
      simp only [Option.bind_some, Desc.image]
      rw [← i4, List.append_assoc]
  | integer s f e m =>
    obtain ⟨he, hm⟩ := hok
    obtain ⟨a, h1, h2⟩ := getNat_put hm
    refine ⟨a, [], ?_, by simpa using hi, fun z hz rest => ?_⟩
    · simp only [putDesc, h1, Option.bind_eq_bind, Option.bind_some, Desc.head, List.append_nil]
    · refine ⟨alloc z, by simpa using Ext.refl g known (seen ++ [t]) (alloc z), by simp [Desc.refs], ?_⟩
      obtain ⟨e1, e2, e3, e4⟩ := head_integer s f he _ rfl
      simp only [getDesc, Desc.head, e1, e2, e3, e4, Option.bind_eq_bind]
      rw [h2]
      rfl
  | float e m =>
    obtain ⟨he, hm⟩ := hok
    obtain ⟨a, h1, h2⟩ := getNat_put hm
    refine ⟨a, [], ?_, by simpa using hi, fun z hz rest => ?_⟩
    · simp only [putDesc, h1, Option.bind_eq_bind, Option.bind_some, Desc.head, List.append_nil]
    · refine ⟨alloc z, by simpa using Ext.refl g known (seen ++ [t]) (alloc z), by simp [Desc.refs], ?_⟩
      obtain ⟨e1, e2⟩ := head_float he
      simp only [getDesc, Desc.head, e1, e2, Option.bind_eq_bind]
      rw [h2]
      rfl
  | struct m fs =>
    obtain ⟨hm, hf, ho⟩ := hok
    obtain ⟨a, h1, h2⟩ := getNat_put hm
    obtain ⟨b, h3, h4⟩ := getNat_put hf
    obtain ⟨bs, new, h5, h6, h7⟩ := reads_fields hn hb rec fs (seen ++ [t])
      (fun f h => ⟨hreach f.type (by simp only [Desc.refs, List.mem_map]; exact ⟨f, h, rfl⟩), ho f h⟩) hi hu
    refine ⟨a ++ b ++ bs, new, ?_, h6, fun z hz rest => ?_⟩
    · simp only [putDesc, h1, h3, h5, Option.bind_eq_bind, Option.bind_some, Desc.head, List.cons_append]
    · obtain ⟨c, z1, i1, i2, i3, i4⟩ := h7 (alloc z) (hal z hz) rest
      refine ⟨z1, i2, ?_, ?_⟩
      · intro c hc
        simp only [Desc.refs, List.mem_map] at hc
        obtain ⟨f, h, rfl⟩ := hc
        exact i3 f h
      · simp only [getDesc, Desc.head, show (3 <<< 4) >>> 4 = 3 from rfl, List.append_assoc, Option.bind_eq_bind]
        rw [h2]
        simp only [Option.bind_some]
        rw [h4]
        simp only [Option.bind_some]
        rw [i1]
        simp only [Option.bind_some, Desc.image]
        rw [i4, List.append_assoc]
  | «opaque» m x =>
    obtain ⟨a, h1, h2⟩ := getNat_put hok
    refine ⟨a ++ enc x, [], ?_, by simpa using hi, fun z hz rest => ?_⟩
    · simp only [putDesc, h1, Option.bind_eq_bind, Option.bind_some, Desc.head, List.append_nil, List.cons_append]
    · refine ⟨alloc z, by simpa using Ext.refl g known (seen ++ [t]) (alloc z), by simp [Desc.refs], ?_⟩
      simp only [getDesc, Desc.head, show (4 <<< 4) >>> 4 = 4 from rfl, List.append_assoc, Option.bind_eq_bind]
      rw [h2]
      simp only [Option.bind_some]
      rw [hx]
      rfl
  | array m c =>
    obtain ⟨a, h1, h2⟩ := getNat_put hok
    obtain ⟨bs, new, h3, h4, h5⟩ := reads_ref hn hb rec (seen ++ [t]) c (hreach c (by simp [Desc.refs])) hi hu
    refine ⟨a ++ bs, new, ?_, h4, fun z hz rest => ?_⟩
    · simp only [putDesc, h1, h3, Option.bind_eq_bind, Option.bind_some, Desc.head, List.cons_append]
    · obtain ⟨b, z1, i1, i2, i3, i4⟩ := h5 (alloc z) (hal z hz) rest
      refine ⟨z1, i2, by simpa [Desc.refs] using i3, ?_⟩
      simp only [getDesc, Desc.head, show (5 <<< 4) >>> 4 = 5 from rfl, List.append_assoc, Option.bind_eq_bind]
      rw [h2]
      simp only [Option.bind_some]
      rw [i1]
      simp only [Option.bind_some, Desc.image]
      rw [← i4, List.append_assoc]
  | validator => exact absurd hok id
  | enumerable m c =>
    obtain ⟨a, h1, h2⟩ := getSigned_put hok
    obtain ⟨bs, new, h3, h4, h5⟩ := reads_ref hn hb rec (seen ++ [t]) c (hreach c (by simp [Desc.refs])) hi hu
    refine ⟨a ++ bs, new, ?_, h4, fun z hz rest => ?_⟩
    · simp only [putDesc, h1, h3, Option.bind_eq_bind, Option.bind_some, Desc.head, List.cons_append]
    · obtain ⟨b, z1, i1, i2, i3, i4⟩ := h5 (alloc z) (hal z hz) rest
      refine ⟨z1, i2, by simpa [Desc.refs] using i3, ?_⟩
      simp only [getDesc, Desc.head, show (7 <<< 4) >>> 4 = 7 from rfl, List.append_assoc, Option.bind_eq_bind]
      rw [h2]
      simp only [Option.bind_some]
      rw [i1]
      simp only [Option.bind_some, Desc.image]
      rw [← i4, List.append_assoc]

/-- Every type that is met is written and read. -/
theorem reads_type {g : N → Desc X N} {root : N} {nodes : List N} {lw : Option (N → Nat)} {lr : Option (Nat → Option N)}
    {enc : X → List UInt8} {dec : List UInt8 → Option (X × List UInt8)} (hx : ∀ x rest, dec (enc x ++ rest) = some (x, rest))
    (ha : Agree lw lr) (hn : ∀ s, Reach g (Known lw) root s → s ∈ nodes) (hb : nodes.length < 2 ^ 56)
    (hok : ∀ s, Reach g (Known lw) root s → ¬Known lw s → (g s).Ok) :
    ∀ (n : Nat) (seen : List N) (t : N), Reach g (Known lw) root t → t ∉ seen → Inv g (Known lw) root seen → unseen nodes seen ≤ n →
      Reads g (Known lw) root seen (put g lw enc n seen t) (get lr dec n) fun seen' z' a => t ∈ seen' ∧ at' seen' z'.types t = a := by
  intro n
  induction n with
  | zero =>
    intro seen t ht hts hi hu
    have := unseen_lt (hn t ht) hts
    omega
  | succ n ih =>
    intro seen t ht hts hi hu
    have hi' : Inv g (Known lw) root (seen ++ [t]) := by
      refine ⟨?_, ?_⟩
      · rw [List.nodup_append]
        refine ⟨hi.nodup, by simp, ?_⟩
        intro a h b hb
        rw [List.mem_singleton] at hb
        subst hb
        exact fun h' => hts (h' ▸ h)
      · intro s hs
        rcases List.mem_append.mp hs with hs | hs
        · exact hi.reach s hs
        · rw [List.mem_singleton] at hs
          exact hs ▸ ht
    have hu' : unseen nodes (seen ++ [t]) ≤ n := by
      have := unseen_lt (hn t ht) hts
      omega
    by_cases hk : Known lw t
    · obtain ⟨f, hf, hft⟩ := hk
      obtain ⟨h, hr, hh⟩ := ha f t hf hft
      obtain ⟨b, hb1, hb2, hb3⟩ := (C84_lookup_codes (f t)).1 hft
      refine ⟨[UInt8.ofNat b], [t], ?_, hi', fun z hz rest => ?_⟩
      · rw [put]
        have : lookedUp lw t = some b := by rw [hf]; exact hb2
        rw [this]
      · have hbt : (UInt8.ofNat b).toNat = b := by simpa using hb1
        have hat : at' (seen ++ [t]) (z.types ++ [.known t]) t = .known t := by
          unfold at'
          rw [List.idxOf_append, if_neg hts]
          simp [← hz]
        refine ⟨.known t, ⟨z.types ++ [.known t], z.heap⟩, ?_, ?_, by simp, hat⟩
        · subst hr
          simp only [List.singleton_append, get, hbt, hb3, hh, Option.map_some]
        · refine ⟨[t], [.known t], [], rfl, rfl, by simp, rfl, ?_, ?_, ?_⟩
          · intro j s hj
            have hlt := (List.getElem?_eq_some_iff.mp hj).1
            have hj0 : j = 0 := by simpa using hlt
            subst hj0
            simp only [List.getElem?_cons_zero, Option.some.injEq] at hj
            subst hj
            exact ⟨_, rfl, fun _ => rfl, fun h' => absurd ⟨f, hf, hft⟩ h'⟩
          · intro j k hj
            have hlt := (List.getElem?_eq_some_iff.mp hj).1
            have hj0 : j = 0 := by simpa using hlt
            subst hj0
            simp at hj
          · intro i j k h1 h2
            have hlt := (List.getElem?_eq_some_iff.mp h1).1
            have hlt' := (List.getElem?_eq_some_iff.mp h2).1
            simp at hlt hlt'
            omega
    · obtain ⟨bs, new, h1, h2, h3⟩ := reads_desc hx hn hb ih seen t ht hk (hok t ht hk) hts hi' hu'
      refine ⟨UInt8.ofNat (g t).head :: bs, t :: new, ?_, by simpa using h2, fun z hz rest => ?_⟩
      · rw [put, lookedUp_none hk]
        simpa using h1
      · obtain ⟨z1, i1, i2, i3⟩ := h3 z hz rest
        obtain ⟨j1, j2⟩ := i1.finish hz hts hk i2
        have he : seen ++ [t] ++ new = seen ++ t :: new := by simp
        rw [he] at i2 i3 j1 j2
        refine ⟨.fresh z.heap.length, finish z.heap.length ((g t).image (at' (seen ++ t :: new) z1.types)) z1, ?_, j1, by simp, j2⟩
        rw [List.cons_append, get_head lr dec n z (g t) (hok t ht hk)]
        exact i3

/-- **C84.** A description of a type is read back as it was written, as a graph: with the sharing and the cycles that it has.  `φ` says where
each type that is met was read to; different types are at different places, the ones looked up are the ones they were, and the
descriptor of every other type is the same but for the places of the types it refers to (and the names of the fields, which
are not written).  Nothing of what follows in the stream is read.  Given: there are finitely many types, with numbers in the ranges of
`Desc.Ok`; the lookups are of one mind; and the values of the members that are of type `X` are read back. -/
theorem C84_types {g : N → Desc X N} {root : N} {nodes : List N} {lw : Option (N → Nat)} {lr : Option (Nat → Option N)}
    {enc : X → List UInt8} {dec : List UInt8 → Option (X × List UInt8)} (hx : ∀ x rest, dec (enc x ++ rest) = some (x, rest))
    (ha : Agree lw lr) (hn : ∀ s, Reach g (Known lw) root s → s ∈ nodes) (hb : nodes.length < 2 ^ 56)
    (hok : ∀ s, Reach g (Known lw) root s → ¬Known lw s → (g s).Ok) (fuel : Nat) (hf : nodes.length ≤ fuel) :
    ∃ bs seen, put g lw enc fuel [] root = some (bs, seen) ∧ ∀ rest, ∃ r z, get lr dec fuel ⟨[], []⟩ (bs ++ rest) = some (r, z, rest) ∧
      ∃ φ : N → Ref N, φ root = r ∧
        (∀ s t, Reach g (Known lw) root s → Reach g (Known lw) root t → φ s = φ t → s = t) ∧
        (∀ t, Reach g (Known lw) root t → Known lw t → φ t = .known t) ∧
        (∀ t, Reach g (Known lw) root t → ¬Known lw t → ∃ k, φ t = .fresh k ∧ z.heap[k]? = some (some ((g t).image φ))) := by
  have hu : unseen nodes [] ≤ fuel := by
    unfold unseen
    exact Nat.le_trans (List.length_filter_le _ _) hf
  obtain ⟨bs, new, h1, h2, h3⟩ := reads_type hx ha hn hb hok fuel [] root .root (by simp) ⟨by simp, by simp⟩ hu
  rw [List.nil_append] at h1 h2 h3
  refine ⟨bs, new, h1, fun rest => ?_⟩
  obtain ⟨r, z, i1, i2, i3, i4⟩ := h3 ⟨[], []⟩ rfl rest
  have hlen := i2.length rfl
  obtain ⟨n1, t1, p1, a1, b1, c1, d1, e1, f1, j1⟩ := i2
  rw [List.nil_append] at a1
  simp only [List.nil_append] at b1 c1
  subst a1
  refine ⟨r, z, i1, at' new z.types, i4, ?_⟩
  have hgood : ∀ t ∈ new, Good g (Known lw) new z t (at' new z.types t) := by
    intro t ht
    have hlt := List.idxOf_lt_length_of_mem ht
    obtain ⟨r, hr, hg⟩ := e1 (new.idxOf t) t (by rw [List.getElem?_eq_getElem hlt, List.getElem_idxOf])
    have : at' new z.types t = r := by
      unfold at'
      rw [b1, List.getD_eq_getElem?_getD, hr]
      rfl
    rw [this]
    exact hg
  have hall : ∀ t, Reach g (Known lw) root t → t ∈ new := by
    intro t ht
    induction ht with
    | root => exact i3
    | ref _ hk hc ih => exact ((hgood _ ih).2 hk).1 _ hc
  refine ⟨?_, fun t ht => (hgood t (hall t ht)).1, fun t ht hk => ((hgood t (hall t ht)).2 hk).2⟩
  intro s t hs ht he
  by_cases hk : Known lw s
  · have h4 := (hgood s (hall s hs)).1 hk
    by_cases hk' : Known lw t
    · have h5 := (hgood t (hall t ht)).1 hk'
      rw [h4, h5] at he
      exact Ref.known.inj he
    · obtain ⟨_, k, h5, _⟩ := (hgood t (hall t ht)).2 hk'
      rw [h4, h5] at he
      simp at he
  · obtain ⟨_, k, h4, _⟩ := (hgood s (hall s hs)).2 hk
    have hls := List.idxOf_lt_length_of_mem (hall s hs)
    have hlt := List.idxOf_lt_length_of_mem (hall t ht)
    have e : ∀ u, u ∈ new → at' new z.types u = .fresh k → t1[new.idxOf u]? = some (.fresh k) := by
      intro u hu h'
      have hl := List.idxOf_lt_length_of_mem hu
      unfold at' at h'
      rw [b1, List.getD_eq_getElem?_getD, List.getElem?_eq_getElem (by omega), Option.getD_some] at h'
      rw [List.getElem?_eq_getElem (by omega), h']
    have := j1 _ _ k (e s (hall s hs) h4) (e t (hall t ht) (he ▸ h4))
    calc s = new[new.idxOf s] := (List.getElem_idxOf hls).symm
      _ = new[new.idxOf t] := by simp only [this]
      _ = t := List.getElem_idxOf hlt

/-- **C84.** Each type is written once: the types in the order of their numbers. -/
theorem C84_once {g : N → Desc X N} {root : N} {nodes : List N} {lw : Option (N → Nat)} {lr : Option (Nat → Option N)}
    {enc : X → List UInt8} {dec : List UInt8 → Option (X × List UInt8)} (hx : ∀ x rest, dec (enc x ++ rest) = some (x, rest))
    (ha : Agree lw lr) (hn : ∀ s, Reach g (Known lw) root s → s ∈ nodes) (hb : nodes.length < 2 ^ 56)
    (hok : ∀ s, Reach g (Known lw) root s → ¬Known lw s → (g s).Ok) :
    ∃ bs seen, put g lw enc nodes.length [] root = some (bs, seen) ∧ seen.Nodup ∧ ∀ t ∈ seen, Reach g (Known lw) root t := by
  have hu : unseen nodes [] ≤ nodes.length := List.length_filter_le _ _
  obtain ⟨bs, new, h1, h2, -⟩ := reads_type hx ha hn hb hok nodes.length [] root .root (by simp) ⟨by simp, by simp⟩ hu
  exact ⟨bs, new, by simpa using h1, by simpa using h2.nodup, by simpa using h2.reach⟩

/-- **C84.** A validator is an assertion, as is a dynamic pointer with an allocator of its own, whatever the fuel. -/
theorem C84_assert (g : N → Desc X N) (lw : Option (N → Nat)) (enc : X → List UInt8) (fuel : Nat) (seen : List N) (t : N) (hk : ¬Known lw t)
    (h : g t = .validator ∨ ∃ s o c x, g t = .pointer s o c true x ∧ s ≠ 0) : put g lw enc fuel seen t = none := by
  cases fuel with
  | zero => rfl
  | succ n =>
    rw [put, lookedUp_none hk]
    rcases h with h | ⟨s, o, c, x, h, hs⟩
    · simp only [h, putDesc]
    · simp only [h, putDesc]
      cases putRef (put g lw enc n) (seen ++ [t]) c with
      | none => rfl
      | some p => simp [hs]

end Graph

/-! ## Strings -/

/-- **C84.** A string is read back, and nothing of what follows it. -/
theorem C84_string (s : List UInt8) (h : s.length < 2 ^ 56) : ∃ bs, putString s = some bs ∧ ∀ rest, getString (bs ++ rest) = some (s, rest) := by
  obtain ⟨a, h1, h2⟩ := getNat_put h
  refine ⟨a ++ s, by simp [putString, h1], fun rest => ?_⟩
  rw [getString, List.append_assoc, h2]
  simp only [Option.bind_eq_bind, Option.bind_some]
  rw [if_pos (by simp)]
  simp

/-! ## The default lookups -/

/-- **C84.** Without offset the default lookups are of one mind. -/
theorem C84_defaults (i : Nat) (h : i < defaultsCount) : defaultsWrite (some i) 0 ≤ 154 ∧ defaultsRead (defaultsWrite (some i) 0) 0 = some (some i) := by
  have hc : defaultsCount = 53 := rfl
  have h1 : defaultsWrite (some i) 0 = i := by
    simp only [defaultsWrite]
    rw [if_pos (by omega), if_pos (by omega)]
    rfl
  rw [h1]
  refine ⟨by omega, ?_⟩
  simp only [defaultsRead]
  rw [if_pos (by omega), if_pos (by omega), Nat.mod_eq_of_lt (by omega)]
  rfl

/-- **C84, refuted for the offset of the default lookups.** The reader adds the offset that the writer has added already: with an offset, no type that has a
lookup ID is found again (but for the offset 128, which added twice is none). -/
theorem C84_defaults_exact (i offset : Nat) (h : i < defaultsCount) (ho : defaultsWrite (some i) offset ≠ 255) :
    defaultsRead (defaultsWrite (some i) offset) offset = some (some i) ↔ offset = 0 ∨ offset = 128 := by
  have hc : defaultsCount = 53 := rfl
  simp only [defaultsWrite] at ho ⊢
  by_cases h1 : offset < 255
  · rw [if_pos h1] at ho ⊢
    by_cases h2 : i + offset < 255
    · rw [if_pos h2]
      simp only [defaultsRead]
      rw [if_pos ⟨h1, h2⟩]
      split
      · simp only [Option.some.injEq]
        omega
      · simp only [reduceCtorEq, false_iff]
        omega
    · rw [if_neg h2] at ho
      exact absurd rfl ho
  · rw [if_neg h1] at ho
    exact absurd rfl ho

/-- With an offset of 4 the type with the number 0 is read as the one with the number 8. -/
theorem C84_defaults_refuted : defaultsWrite (some 0) 4 = 4 ∧ defaultsRead 4 4 = some (some 8) := by decide

/-! The hypotheses can be met: a list (a struct with a number and a pointer to the list itself) beside a type that is looked up. -/

/-- 0: the list; 1: the number; 2: the pointer; 3: looked up. -/
def exGraph : Nat → Desc Unit Nat
  | 0 => .struct 24 [⟨7, 0, 1⟩, ⟨8, 8, 2⟩, ⟨9, 16, 3⟩, ⟨10, 20, 1⟩]
  | 1 => .integer true false 0 8
  | 2 => .pointer 1 1 0 false ()
  | _ => .validator

def exLook : Nat → Nat := fun t => if t = 3 then 130 else 255

example : put exGraph (some exLook) (fun _ => []) 4 [] 0 = some ([0x30, 24, 4, 0, 1, 0x18, 8, 8, 2, 5, 0, 16, 3, 10, 20, 1], [0, 1, 2, 3]) := by
  decide +kernel

example : (get (X := Unit) (some fun i => if i = 130 then some 3 else none) (fun inp => some ((), inp)) 4 ⟨[], []⟩
      [0x30, 24, 4, 0, 1, 0x18, 8, 8, 2, 5, 0, 16, 3, 10, 20, 1, 77]).map (fun r => (r.1, r.2.1.heap, r.2.2)) =
    some (.fresh 0, [some (.struct 24 [⟨0, 0, .fresh 1⟩, ⟨0, 8, .fresh 2⟩, ⟨0, 16, .known 3⟩, ⟨0, 20, .fresh 1⟩]), some (.integer true false 0 8),
      some (.pointer 1 1 (.fresh 0) false ())], [77]) := by
  rfl

example : Agree (some exLook) (some fun i => if i = 130 then some 3 else none) := by
  intro f t hf ht
  cases hf
  refine ⟨_, rfl, ?_⟩
  unfold exLook at *
  split at ht
  · subst_vars
    rfl
  · omega

example : ∀ s, Reach exGraph (Known (some exLook)) 0 s → s ∈ [0, 1, 2, 3] ∧ (¬Known (some exLook) s → (exGraph s).Ok) := by
  have hk : Known (some exLook) 3 := ⟨exLook, rfl, by decide⟩
  have hm : ∀ s, Reach exGraph (Known (some exLook)) 0 s → s ∈ [0, 1, 2, 3] := by
    intro s h
    induction h with
    | root => decide
    | ref h1 h2 h3 ih =>
      simp only [List.mem_cons, List.not_mem_nil, or_false] at ih
      rcases ih with rfl | rfl | rfl | rfl
      · revert h3
        simp [exGraph, Desc.refs]
        omega
      · simp [exGraph, Desc.refs] at h3
      · revert h3
        simp [exGraph, Desc.refs]
        omega
      · exact absurd hk h2
  intro s h
  refine ⟨hm s h, fun h2 => ?_⟩
  have := hm s h
  simp only [List.mem_cons, List.not_mem_nil, or_false] at this
  rcases this with rfl | rfl | rfl | rfl
  · simp [exGraph, Desc.Ok]
  · simp [exGraph, Desc.Ok]
  · simp [exGraph, Desc.Ok]
  · exact absurd hk h2

#print axioms C84_types
#print axioms C84_once
#print axioms C84_assert
#print axioms C84_lookup_codes
#print axioms C84_head
#print axioms C84_string
#print axioms C84_defaults
#print axioms C84_defaults_exact
#print axioms C84_defaults_refuted

end Verif.TypeGraph
