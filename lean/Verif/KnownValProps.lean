import Verif.KnownVal

/-!
# C122: values written as numbers or names are read back
-/
namespace Verif.KnownVal

namespace Spec

/-- A value is written by its number and read. -/
def viaNumber {α : Type} [DecidableEq α] (bits base : Nat) (known : List α) (v : α) : Option α :=
  (mapNumber bits base known v).bind fun n => unmapNumber bits base known (.integer (bits / 8) n)

/-- A value is written by its name and read. -/
def viaName {α : Type} [DecidableEq α] (name : α → List UInt8) (known : List α) (v : α) : Option α :=
  (mapName name known v).bind fun b => unmapName name known (.bytes b)

/-- The descriptor `t` at `r` is written, and read into memory that has `dest` in it. -/
def viaOpaque {V : Type} [DecidableEq V] (w : World V) (lib : String → Mem V) (d : V) (dest : Mem V) (r : Ref) (t : Mem V) : Option (Mem V) :=
  (mapOpaque w r t).bind (unmapOpaque w lib d dest)

/-- The bytes agree with the name as far as both go, the name being ended by a zero. -/
def Agree (b name : List UInt8) : Prop := b <+: name ++ [0] ∨ name ++ [0] <+: b

/-- The characters of a name, as bytes. -/
def chars (s : String) : List UInt8 := s.toList.map fun c => UInt8.ofNat c.toNat

end Spec

open Verif.KnownVal.Spec

/-! ## Numbers -/

variable {α : Type} [DecidableEq α]

theorem mapFrom_mem (bits base : Nat) (v : α) : ∀ (known : List α) (i : Nat), v ∈ known →
    mapFrom bits base i known v = some ((i + known.idxOf v + base) % 2 ^ bits)
  | [], _, h => by simp at h
  | k :: ks, i, h => by
    rw [mapFrom]
    by_cases hk : v = k
    · subst hk; simp
    · rw [if_neg hk, mapFrom_mem bits base v ks (i + 1) (by simpa [hk] using h), List.idxOf_cons]
      have : (k == v) = false := by simpa using fun e => hk e.symm
      rw [this]
      simp only [cond_false]
      congr 2
      omega

theorem mapFrom_not_mem (bits base : Nat) (v : α) : ∀ (known : List α) (i : Nat), v ∉ known → mapFrom bits base i known v = none
  | [], _, _ => rfl
  | k :: ks, i, h => by
    have hk : v ≠ k := fun e => h (e ▸ List.mem_cons_self)
    rw [mapFrom, if_neg hk, mapFrom_not_mem bits base v ks (i + 1) (fun e => h (List.mem_cons_of_mem _ e))]

theorem unmapFrom_eq {β : Type} (base : Nat) (n : Nat) : ∀ (known : List β) (i : Nat),
    unmapFrom base i known n = if i + base ≤ n then known[n - (i + base)]? else none
  | [], i => by simp [unmapFrom]
  | k :: ks, i => by
    rw [unmapFrom, unmapFrom_eq base n ks (i + 1)]
    by_cases h : n = i + base
    · subst h; simp
    · rw [if_neg h]
      by_cases h2 : i + base ≤ n
      · rw [if_pos h2, if_pos (by omega), show n - (i + base) = (n - (i + 1 + base)) + 1 by omega, List.getElem?_cons_succ]
      · rw [if_neg h2, if_neg (by omega)]

theorem idxOf_first (v : α) : ∀ (known : List α) (j : Nat) (hj : j < known.length), j < known.idxOf v → known[j] ≠ v
  | [], _, hj, _ => by simp at hj
  | k :: ks, j, hj, h => by
    rw [List.idxOf_cons] at h
    by_cases hk : k = v
    · simp [hk] at h
    · have : (k == v) = false := by simpa using hk
      rw [this] at h
      simp only [cond_false] at h
      cases j with
      | zero => simpa using hk
      | succ j =>
        simp only [List.getElem_cons_succ]
        exact idxOf_first v ks j (by simpa using hj) (by omega)

/-- A value of the list is read back exactly when its (first) number, with the base, fits the type of the numbers. -/
theorem C122_number_exact (bits base : Nat) (known : List α) (v : α) (h : v ∈ known) :
    viaNumber bits base known v = some v ↔ known.idxOf v + base < 2 ^ bits := by
  rw [viaNumber, mapNumber, mapFrom_mem _ _ _ _ _ h]
  simp only [Option.bind_some, unmapNumber, if_true, unmapFrom_eq, Nat.zero_add]
  have hl := List.idxOf_lt_length_iff.2 h
  constructor
  · intro e
    rcases Nat.lt_or_ge (known.idxOf v + base) (2 ^ bits) with hb | hb
    · exact hb
    · exfalso
      split at e
      · rename_i hle
        have hlt : (known.idxOf v + base) % 2 ^ bits < 2 ^ bits := Nat.mod_lt _ (Nat.two_pow_pos _)
        have hx : (known.idxOf v + base) % 2 ^ bits - base < known.idxOf v := by omega
        rw [List.getElem?_eq_some_iff] at e
        obtain ⟨hn, e⟩ := e
        exact idxOf_first v known _ hn hx e
      · cases e
  · intro hb
    rw [Nat.mod_eq_of_lt hb, if_pos (by omega), Nat.add_sub_cancel, List.getElem?_eq_getElem hl]
    simp

/-- With up to 256 values and no base, as by default, every value of the list is read back. -/
theorem C122_number_partial (known : List α) (v : α) (h : v ∈ known) (hl : known.length ≤ 256) : viaNumber 8 0 known v = some v :=
  (C122_number_exact 8 0 known v h).2 (by have := List.idxOf_lt_length_iff.2 h; omega)

/-- With more, or with a base, a value may be read as another. -/
theorem C122_number_refuted : (∃ v ∈ List.range 257, ∃ u, viaNumber 8 0 (List.range 257) v = some u ∧ u ≠ v) ∧
    (∃ v ∈ [10, 11], viaNumber 8 255 [10, 11] v = none) := by
  constructor
  · exact ⟨256, by simp, 0, by decide +kernel, by decide⟩
  · exact ⟨11, by simp, by decide⟩

/-- What is written for a value: nothing but for those of the list (the assertion fails). -/
theorem C122_unknown (bits base : Nat) (known : List α) (v : α) : mapNumber bits base known v = none ↔ v ∉ known := by
  constructor
  · intro e h
    rw [mapNumber, mapFrom_mem _ _ _ _ _ h] at e
    cases e
  · exact mapFrom_not_mem _ _ _ _ _

/-- What is read for a number of whatever size: the value with that number if the size is that of the type of the numbers, and nothing (the assertion
fails) for other numbers and sizes. -/
theorem C122_read (bits base : Nat) (known : List α) (size n : Nat) (v : α) :
    unmapNumber bits base known (.integer size n) = some v ↔ size = bits / 8 ∧ base ≤ n ∧ known[n - base]? = some v := by
  rw [unmapNumber, unmapFrom_eq, Nat.zero_add]
  by_cases h1 : size = bits / 8 <;> by_cases h2 : base ≤ n <;> simp [h1, h2]

/-- Every destructor, comparator, hasher, mapper, ... the library knows is read back, none is taken for another, and no others are written. -/
theorem C122_defaults (l : List String) (hl : l ∈ defaults) (v : String) :
    (v ∈ l → viaNumber 8 0 l v = some v) ∧ (v ∉ l → mapNumber 8 0 l v = none) := by
  refine ⟨fun h => C122_number_partial l v h ?_, (C122_unknown 8 0 l v).2⟩
  have : ∀ l ∈ defaults, l.length ≤ 256 := by decide
  exact this l hl

/-! ## Names -/

/-- Two zero-ended strings: `strncmp` never reads past their ends. -/
theorem strncmp0_spec : ∀ (b name : List UInt8), (0 : UInt8) ∉ name →
    ∃ r, strncmp0 b.length b (name ++ [0]) = some r ∧ (r = true ↔ Agree b name)
  | [], name, _ => ⟨true, rfl, by simp [Agree]⟩
  | a :: as, [], _ => by
    refine ⟨decide (a = 0), ?_, ?_⟩
    · simp only [List.length_cons, List.nil_append, strncmp0]
      by_cases h : a = 0 <;> simp [h]
    · simp only [decide_eq_true_eq, Agree, List.nil_append, List.cons_prefix_cons]
      constructor
      · intro h; exact Or.inr ⟨h.symm, List.nil_prefix⟩
      · rintro (h | h)
        · exact h.1
        · exact h.1.symm
  | a :: as, n :: ns, h0 => by
    obtain ⟨r, hr, hs⟩ := strncmp0_spec as ns (fun e => h0 (List.mem_cons_of_mem _ e))
    have hn : n ≠ 0 := fun e => h0 (e ▸ List.mem_cons_self)
    by_cases h : a = n
    · subst h
      refine ⟨r, ?_, ?_⟩
      · simp only [List.length_cons, List.cons_append, strncmp0]
        simp only [ne_eq, not_true_eq_false, if_false, hn, hr]
      · rw [hs]; simp [Agree, List.cons_prefix_cons]
    · refine ⟨false, ?_, ?_⟩
      · simp [strncmp0, h]
      · have h' : ¬ n = a := fun e => h e.symm
        simp [Agree, List.cons_prefix_cons, h, h']

open Classical in
/-- What is read for an array of bytes: the first value whose name agrees with it; with `strncmp` never past the ends. -/
theorem C122_name_exact (name : α → List UInt8) (known : List α) (h0 : ∀ k ∈ known, (0 : UInt8) ∉ name k) (b : List UInt8) :
    unmapName name known (.bytes b) = known.find? (fun k => decide (Agree b (name k))) := by
  rw [unmapName]
  induction known with
  | nil => rfl
  | cons k ks ih =>
    obtain ⟨r, hr, hs⟩ := strncmp0_spec b (name k) (h0 k List.mem_cons_self)
    rw [unmapNames, hr, List.find?_cons]
    cases r with
    | true => simp [hs.1 rfl]
    | false =>
      have : ¬ Agree b (name k) := fun e => by simpa using hs.2 e
      simp only [this, decide_false]
      exact ih (fun k' hk => h0 k' (List.mem_cons_of_mem _ hk))

theorem agree_self (a b : List UInt8) (ha : (0 : UInt8) ∉ a) (hb : (0 : UInt8) ∉ b) (h : Agree (a ++ [0]) b) : a = b := by
  induction a generalizing b with
  | nil =>
    cases b with
    | nil => rfl
    | cons y ys =>
      exfalso
      simp only [Agree, List.nil_append, List.cons_append, List.cons_prefix_cons] at h
      rcases h with h | h
      · exact hb (h.1 ▸ List.mem_cons_self)
      · exact hb (h.1 ▸ List.mem_cons_self)
  | cons x xs ih =>
    cases b with
    | nil =>
      exfalso
      simp only [Agree, List.nil_append, List.cons_append, List.cons_prefix_cons] at h
      rcases h with h | h
      · exact ha (h.1 ▸ List.mem_cons_self)
      · exact ha (h.1 ▸ List.mem_cons_self)
    | cons y ys =>
      simp only [Agree, List.cons_append, List.cons_prefix_cons] at h
      have hxy : x = y := h.elim (·.1) (·.1.symm)
      subst hxy
      rw [ih ys (fun e => ha (List.mem_cons_of_mem _ e)) (fun e => hb (List.mem_cons_of_mem _ e)) (h.imp (·.2) (·.2))]

theorem mapName_mem (name : α → List UInt8) (v : α) : ∀ known : List α, v ∈ known → mapName name known v = some (name v ++ [0])
  | [], h => by simp at h
  | k :: ks, h => by
    rw [mapName]
    by_cases hk : v = k
    · rw [if_pos hk, hk]
    · rw [if_neg hk, mapName_mem name v ks (by simpa [hk] using h)]

/-- Values written by their names are read back, if the names differ (and have no zeros in them). -/
theorem C122_name (name : α → List UInt8) (known : List α) (h0 : ∀ k ∈ known, (0 : UInt8) ∉ name k)
    (hi : ∀ k ∈ known, ∀ k' ∈ known, name k = name k' → k = k') (v : α) (h : v ∈ known) : viaName name known v = some v := by
  classical
  rw [viaName, mapName_mem name v known h, Option.bind_some, C122_name_exact name known h0]
  have key : ∀ k ∈ known, Agree (name v ++ [0]) (name k) → k = v := fun k hk e =>
    hi k hk v h (agree_self _ _ (h0 v h) (h0 k hk) e).symm
  have self : Agree (name v ++ [0]) (name v) := Or.inl (List.prefix_refl _)
  rcases hf : known.find? (fun k => decide (Agree (name v ++ [0]) (name k))) with _ | u
  · rw [List.find?_eq_none] at hf
    exact absurd self (by simpa using hf v h)
  · have h1 := List.find?_some hf
    rw [key u (List.mem_of_find?_eq_some hf) (by simpa using h1)]

/-- But more than whole names is accepted: part of a name is read as the first value whose name starts with it, and no bytes at all as the first. -/
theorem C122_name_refuted :
    (∃ b, (∀ v ∈ destructors, b ≠ chars v ++ [0] ∧ b ≠ chars v) ∧ unmapName chars destructors (.bytes b) = some "CCBigIntDestroy") ∧
    unmapName chars destructors (.bytes []) = some "CCStringDestroy" := by
  exact ⟨⟨[67, 67, 66, 105, 103], by decide +kernel, by decide +kernel⟩, by decide +kernel⟩

/-- The names the library has all differ and have no zeros. -/
theorem C122_default_names (l : List String) (hl : l ∈ defaults) (v : String) (h : v ∈ l) : viaName chars l v = some v := by
  have h0 : ∀ l ∈ defaults, ∀ k ∈ l, (0 : UInt8) ∉ chars k := by decide +kernel
  have hi : ∀ l ∈ defaults, ∀ k ∈ l, ∀ k' ∈ l, chars k = chars k' → k = k' := by decide +kernel
  exact C122_name chars l (h0 l hl) (hi l hl) v h

/-! ## Descriptors of opaque types -/

variable {V : Type} [DecidableEq V]

/-- The descriptors without state are read back with all their members. -/
theorem C122_stateless (w : World V) (lib : String → Mem V) (d : V) (dest : Mem V) (name : String)
    (h : name ∈ ["void", "CCReflectType", "CCAllocatorType", "CCString", "CCBigInt", "CCBigIntFast"]) :
    ∃ m, viaOpaque w lib d dest (.known name) (lib name) = some m ∧
      ∀ x ∈ ["id", "size", "typeSize", "map", "unmap"], m x = lib name x := by
  refine ⟨copyMembers opaqueMembers (lib name) dest, ?_, fun x hx => if_pos (show x ∈ opaqueMembers from hx)⟩
  simp only [List.mem_cons, List.not_mem_nil, or_false] at h
  rcases h with rfl | rfl | rfl | rfl | rfl | rfl <;>
    simp [viaOpaque, mapOpaque, mapNumber, mapFrom, opaques, unmapOpaque, unmapFrom]

/-- The mappers of the kinds are different functions. -/
def Distinct (w : World V) : Prop := ∀ k ∈ kinds, ∀ k' ∈ kinds, w.mapper k.1 = w.mapper k'.1 → k = k'

theorem mapStateful_spec (w : World V) (t : Mem V) (k : String × List String) (h1 : t "map" = w.mapper k.1) (h2 : t "unmap" = w.unmapper k.1) :
    ∀ (ks : List (String × List String)) (i : Nat), k ∈ ks → (∀ k' ∈ ks, w.mapper k.1 = w.mapper k'.1 → k = k') →
      mapStateful w t i ks = some (.stateful ((i + ks.idxOf k) % 2 ^ 8) (k.2.map t))
  | [], _, h, _ => by simp at h
  | (n, ms) :: ks, i, h, hd => by
    rw [mapStateful]
    by_cases hk : k = (n, ms)
    · subst hk; simp [h1, h2]
    · have hm : ¬ (t "map" = w.mapper n ∧ t "unmap" = w.unmapper n) := fun e => hk (hd _ List.mem_cons_self (h1.symm.trans e.1))
      rw [if_neg hm, mapStateful_spec w t k h1 h2 ks (i + 1) (by simpa [hk] using h) (fun k' hk' => hd k' (List.mem_cons_of_mem _ hk')),
        List.idxOf_cons]
      have : ((n, ms) == k) = false := by simpa using fun e => hk e.symm
      rw [this]
      simp only [cond_false]
      congr 3
      omega

theorem argument_map (t : Mem V) (x : String) : ∀ ps : List String, x ∈ ps → argument ps (ps.map t) x = some (t x)
  | [], h => by simp at h
  | p :: ps, h => by
    rw [List.map_cons, argument]
    by_cases hp : x = p
    · rw [if_pos hp, hp]
    · rw [if_neg hp, argument_map t x ps (by simpa [hp] using h)]

/-- What is read for the descriptor of a container: the members written, in their places, but `typeSize` is what there was in the memory. -/
theorem C122_container_partial (w : World V) (hw : Distinct w) (lib : String → Mem V) (d : V) (dest : Mem V) (a : Nat) (k : String × List String)
    (hk : k ∈ kinds) (args : List V) :
    ∃ m, viaOpaque w lib d dest (.addr a) (construct w d k.1 args) = some m ∧
      (∀ x ∈ ["id", "size", "map", "unmap"] ++ k.2, m x = construct w d k.1 args x) ∧ m "typeSize" = dest "typeSize" := by
  have h1 : mapNumber 8 0 (opaques.map Ref.known) (.addr a) = none := by
    rw [C122_unknown]; simp
  have hs := mapStateful_spec w (construct w d k.1 args) k (by simp [construct]) (by simp [construct]) kinds 0 hk (hw k hk)
  have hl : kinds.idxOf k < 7 := List.idxOf_lt_length_iff.2 hk
  have hp : ∀ k ∈ kinds, params k.1 = k.2 := by decide
  have hn : ∀ k ∈ kinds, ∀ x ∈ k.2, x ∉ opaqueMembers := by decide
  refine ⟨copyMembers (structMembers ++ k.2) (construct w d k.1 (k.2.map (construct w d k.1 args))) dest, ?_, ?_, ?_⟩
  · rw [viaOpaque, mapOpaque, h1]
    simp only []
    rw [hs, Option.bind_some, unmapOpaque, Nat.zero_add, Nat.mod_eq_of_lt (by omega), unmapFrom_eq]
    rw [if_pos (Nat.zero_le _), List.getElem?_eq_getElem (by simpa using List.idxOf_lt_length_iff.2 hk)]
    simp
  · intro x hx
    rw [copyMembers, if_pos (show x ∈ structMembers ++ k.2 from hx)]
    rcases List.mem_append.1 hx with hx | hx
    · simp only [List.mem_cons, List.not_mem_nil, or_false] at hx
      rcases hx with rfl | rfl | rfl | rfl <;> simp [construct]
    · have hx' := hn k hk x hx
      simp only [opaqueMembers, List.mem_cons, List.not_mem_nil, or_false, not_or] at hx'
      rw [construct]
      simp only [hx', if_false]
      rw [hp k hk, argument_map _ x k.2 hx, Option.getD_some]
  · rw [copyMembers, if_neg]
    intro hx
    rcases List.mem_append.1 hx with hx | hx
    · revert hx; decide
    · exact hn k hk _ hx (by decide)

/-- An example: values are numbers, and the mappers are numbered. -/
def world : World Nat where
  opaqueID := 4
  size := fun _ => 8
  typeSize := fun s => if s = "CCArray" then 64 else 80
  mapper := fun s => 100 + (kinds.map (·.1)).idxOf s
  unmapper := fun s => 200 + (kinds.map (·.1)).idxOf s

/-- So the descriptor of an array that is read has another `typeSize` than the one written, if there was something else in the memory. -/
theorem C122_container_refuted : ∃ (lib : String → Mem Nat) (dest : Mem Nat), ∃ m,
    viaOpaque world lib 0 dest (.addr 1) (construct world 0 "CCArray" [1, 2, 3]) = some m ∧
      m "typeSize" ≠ construct world 0 "CCArray" [1, 2, 3] "typeSize" := by
  have hw : Distinct world := by rw [Distinct]; decide +kernel
  obtain ⟨m, hm, _, ht⟩ := C122_container_partial world hw (fun _ _ => 0) 0 (fun _ => 12345) 1 ("CCArray", ["elementType", "allocator", "chunkSize"])
    (by decide) [1, 2, 3]
  exact ⟨_, _, m, hm, by rw [ht]; decide⟩

/-- Terminated arrays are opaque types of the library, but their descriptors are not written; nor are those of strings, and so on, that have
been read (they are at other addresses than those of the library). -/
theorem C122_others_refuted (w : World V) (lib : String → Mem V) (d : V) (dest : Mem V) (a : Nat) (t : Mem V)
    (h : ∀ k ∈ kinds, t "map" ≠ w.mapper k.1) : viaOpaque w lib d dest (.addr a) t = none := by
  have h1 : mapNumber 8 0 (opaques.map Ref.known) (.addr a) = none := by
    rw [C122_unknown]; simp
  have hs : ∀ (ks : List (String × List String)) (i : Nat), (∀ k ∈ ks, t "map" ≠ w.mapper k.1) → mapStateful w t i ks = none := by
    intro ks
    induction ks with
    | nil => intros; rfl
    | cons k ks ih =>
      intro i hk
      obtain ⟨n, ms⟩ := k
      have h0 : t "map" ≠ w.mapper n := hk (n, ms) List.mem_cons_self
      rw [mapStateful, if_neg (fun e => h0 e.1), ih _ (fun k' hk' => hk k' (List.mem_cons_of_mem _ hk'))]
  rw [viaOpaque, mapOpaque, h1]
  simp only []
  rw [hs _ _ h]
  rfl

/-! ## Examples -/

example : viaNumber 8 0 destructors "CCListDestroy" = some "CCListDestroy" := by decide
example : mapNumber 8 0 destructors "CCListDestroy" = some 5 := by decide
example : mapNumber 8 3 destructors "CCListDestroy" = some 8 := by decide
example : viaNumber 8 0 unmappers "ReflectTypeUnmapper" = some "ReflectTypeUnmapper" := by decide
example : unmapNumber 8 0 destructors (.integer 4 5) = none := by decide
example : ("CCListDestroy" ∈ destructors) ∧ destructors ∈ defaults := by decide
example : (∀ k ∈ destructors, (0 : UInt8) ∉ chars k) ∧ (∀ k ∈ destructors, ∀ k' ∈ destructors, chars k = chars k' → k = k') := by decide +kernel
example : Distinct world := by rw [Distinct]; decide +kernel
example : (viaOpaque world (fun _ _ => 0) 0 (fun _ => 9) (.addr 1) (construct world 0 "CCList" [1, 2, 3, 4])).map
    (fun m => (["id", "size", "typeSize", "map", "unmap", "elementType", "allocator", "chunkSize", "pageSize"]).map m) =
    some [4, 8, 9, 102, 202, 1, 2, 3, 4] := by decide +kernel
example : "CCString" ∈ ["void", "CCReflectType", "CCAllocatorType", "CCString", "CCBigInt", "CCBigIntFast"] := by decide
/-- The mapper of terminated arrays is none of those. -/
example : ∀ k ∈ kinds, (99 : Nat) ≠ world.mapper k.1 := by decide +kernel

#print axioms C122_number_exact
#print axioms C122_number_partial
#print axioms C122_number_refuted
#print axioms C122_unknown
#print axioms C122_read
#print axioms C122_defaults
#print axioms C122_name_exact
#print axioms C122_name
#print axioms C122_name_refuted
#print axioms C122_default_names
#print axioms C122_stateless
#print axioms C122_container_partial
#print axioms C122_container_refuted
#print axioms C122_others_refuted

end Verif.KnownVal
