import Verif.MappedLemmas
import Verif.StrProps
/-!
# C100: strings and big integers are read back as they were serialised

`storeBig`, `storeFast` and `storeStr` are a write followed by a read.  The stream may be followed by anything (`rest`), which is
left for the next reader.  `prefer` is the width up to which the stream has variable-length numbers; the default is the width
of a pointer, so that 64-bit numbers are written with a variable length (C75).
-/
namespace Verif.Mapped

open Verif.BigInt (BI W)
open Verif.BigInt.Spec (nat value Digits Norm)
open Verif.BigIntFast (Fast)
open Verif.VarInt (Endian writeInt readInt)
open Verif.Rle (le ofLe)
open Verif.Mapped.Spec
open Verif.Utf8.Spec (Scalar encode encodeAll)
open Verif.Str (Maps GoodMaps Val Str)

/-! ## Big integers -/

/-- C100.  The array written for a big integer is its magnitude doubled plus one for the sign, in 64-bit digits, and fits in the
buffer that was allocated for it. -/
theorem C100_big_written (b : BI) (hd : ∀ c ∈ b.comps, c < W) :
    nat (mapBig b) = zigzag b.sign (nat b.comps) ∧ (∀ d ∈ mapBig b, d < 2 ^ 64) ∧ (mapBig b).length ≤ mapBuffer b :=
  nat_map b.comps _ (sign_bit b.sign) hd

/-- C100.  Without the stream in between: a big integer in normal form is mapped and unmapped to itself, unless it is zero, which
becomes an integer without any component. -/
theorem C100_big_map_exact (b : BI) (hb : Norm b) :
    unmapBig (mapBig b) = some (if value b = 0 then ⟨false, []⟩ else b) := by
  obtain ⟨sign, comps⟩ := b
  obtain ⟨⟨h0, hd, hl⟩, hz⟩ := hb
  rw [unmapBig_map _ h0 hd]
  dsimp only at *
  by_cases hv : nat comps = 0
  · have hc : comps = [0] := by
      match comps with
      | [] => exact absurd rfl h0
      | [c] => simp only [nat] at hv; congr
      | c :: d :: cs =>
        exfalso
        have h1 := hl (by simp)
        have h2 : ∀ xs : List Nat, nat xs = 0 → ∀ x ∈ xs, x = 0 := by
          intro xs
          induction xs with
          | nil => simp
          | cons y ys ih =>
            intro h x hx
            simp only [nat, W] at h
            rcases List.mem_cons.1 hx with rfl | hx
            · omega
            · exact ih (by omega) x hx
        apply h1
        obtain ⟨y, hy⟩ := Option.isSome_iff_exists.1 (show ((c :: d :: cs).getLast?).isSome by simp)
        rw [hy, h2 _ hv y (List.mem_of_getLast? hy)]
    rw [hz hv, hc]
    simp [back, value, nat]
  · rw [if_neg (by simp only [value]; split <;> omega)]
    congr 2
    rw [back, if_neg]
    intro h
    match comps with
    | [] => exact h0 rfl
    | [c] => simp at h; subst h; simp [nat] at hv
    | c :: d :: cs => exact hl (by simp) h

/-- All digits of what is written are kept by the stream. -/
theorem kept_iff (prefer : Nat) (ds : List Nat) (hd : ∀ d ∈ ds, d < W) :
    ds.map (stored prefer) = ds ↔ ∀ i, Kept prefer (digit (nat ds) i) := by
  constructor
  · intro h i
    rw [digit_nat _ _ hd, ← stored_eq]
    by_cases hi : i < ds.length
    · have := congrArg (·.getD i 0) h
      simpa [List.getD_eq_getElem?_getD, hi] using this
    · rw [List.getD_eq_getElem?_getD, List.getElem?_eq_none (by omega)]
      simp [stored]
  · intro h
    apply List.ext_getElem (by simp)
    intro i h1 h2
    have := h i
    rw [digit_nat _ _ hd, ← stored_eq, List.getD_eq_getElem?_getD, List.getElem?_eq_getElem h2] at this
    simpa using this

/-- The stream in between. -/
theorem storeBig_eq (prefer : Nat) (se : Endian) (b : BI) (hd : ∀ c ∈ b.comps, c < W) (rest : List UInt8) :
    storeBig prefer se b rest = (unmapBig ((mapBig b).map (stored prefer))).map (·, rest) := by
  obtain ⟨-, h2, -⟩ := C100_big_written b hd
  obtain ⟨out, h3, h4⟩ := read_write prefer se (mapBig b) h2
  simp only [storeBig, h3, Option.bind_eq_bind, Option.bind_some, h4]
  cases unmapBig ((mapBig b).map (stored prefer)) <;> rfl

/-- C100.  When a big integer in normal form that was serialised is read back the same: it is not zero, and the 64-bit digits of
its magnitude doubled plus the sign are ones that the stream keeps. -/
theorem C100_big_exact (prefer : Nat) (se : Endian) (b : BI) (hb : Norm b) (rest : List UInt8) :
    storeBig prefer se b rest = some (b, rest) ↔
      value b ≠ 0 ∧ ∀ i, Kept prefer (digit (zigzag b.sign (nat b.comps)) i) := by
  obtain ⟨h1, h2, -⟩ := C100_big_written b hb.1.2.1
  have h3 := C100_big_map_exact b hb
  rw [storeBig_eq prefer se b hb.1.2.1 rest, ← h1, ← kept_iff prefer _ h2]
  have hne : value b = 0 → b ≠ ⟨false, []⟩ := fun _ e => hb.1.1 (by rw [e])
  constructor
  · intro h
    have h4 : unmapBig ((mapBig b).map (stored prefer)) = some b := by
      cases e : unmapBig ((mapBig b).map (stored prefer)) with
      | none => rw [e] at h; cases h
      | some x => rw [e] at h; simp at h; rw [h]
    by_cases hv : value b = 0
    · exfalso
      have hz : nat b.comps = 0 := by simp only [value] at hv; split at hv <;> omega
      rw [hb.2 hz, hz] at h1
      have h5 : ∀ d ∈ mapBig b, d < 2 ^ 56 := by
        intro d hd
        have : ∀ xs : List Nat, nat xs = 0 → ∀ x ∈ xs, x = 0 := by
          intro xs
          induction xs with
          | nil => simp
          | cons y ys ih =>
            intro h x hx
            simp only [nat, W] at h
            rcases List.mem_cons.1 hx with rfl | hx
            · omega
            · exact ih (by omega) x hx
        have := this _ (by rw [h1]; rfl) d hd
        omega
      have h6 : (mapBig b).map (stored prefer) = mapBig b := by
        conv => rhs; rw [← List.map_id (mapBig b)]
        exact List.map_congr_left fun d hd => by rw [stored, if_pos (Or.inr (h5 d hd))]; rfl
      rw [h6, h3, if_pos hv, Option.some.injEq] at h4
      exact hne hv h4.symm
    · rw [if_neg hv] at h3
      exact ⟨hv, unmap_inj _ _ (by simp) (by
        intro d hd
        obtain ⟨x, hx, rfl⟩ := List.mem_map.1 hd
        exact stored_lt prefer x (h2 x hx)) h2 b h4 h3⟩
  · rintro ⟨hv, h⟩
    rw [h, h3, if_neg hv]; rfl

/-- C100 for streams in which 64-bit numbers have a fixed width (a preference of more than 8 bytes): big integers in normal form are
read back, other than zero.  Missing: `C100_big_exact` and `C100_big_zero` say what happens to the others. -/
theorem C100_big_partial (prefer : Nat) (hp : 8 < prefer) (se : Endian) (b : BI) (hb : Norm b) (hv : value b ≠ 0) (rest : List UInt8) :
    storeBig prefer se b rest = some (b, rest) := (C100_big_exact prefer se b hb rest).2 ⟨hv, fun _ => Or.inl hp⟩

/-- C100 for the others: numbers below `2 ^ 55` are read back whatever the stream prefers. -/
theorem C100_big_small_partial (prefer : Nat) (se : Endian) (b : BI) (hb : Norm b) (hv : value b ≠ 0) (hs : nat b.comps < 2 ^ 55)
    (rest : List UInt8) : storeBig prefer se b rest = some (b, rest) := by
  refine (C100_big_exact prefer se b hb rest).2 ⟨hv, fun i => Or.inr (Or.inl ?_)⟩
  have h1 : digit (zigzag b.sign (nat b.comps)) i ≤ zigzag b.sign (nat b.comps) :=
    Nat.le_trans (Nat.mod_le _ _) (Nat.div_le_self _ _)
  have h2 : zigzag b.sign (nat b.comps) < 2 ^ 56 := by rw [zigzag]; split <;> omega
  omega

/-- C100.  Zero is read back as an integer without components, which when it is serialised in turn cannot be read. -/
theorem C100_big_zero (prefer : Nat) (se : Endian) (b : BI) (hb : Norm b) (hv : value b = 0) (rest : List UInt8) :
    storeBig prefer se b rest = some (⟨false, []⟩, rest) ∧ storeBig prefer se ⟨false, []⟩ rest = none := by
  obtain ⟨sign, comps⟩ := b
  have hz : nat comps = 0 := by simp only [value] at hv; split at hv <;> omega
  have h3 := C100_big_map_exact _ hb
  rw [if_pos hv] at h3
  refine ⟨?_, rfl⟩
  rw [storeBig_eq _ _ _ hb.1.2.1]
  obtain ⟨h1, h2, -⟩ := C100_big_written _ hb.1.2.1
  dsimp only at h1
  have hs : sign = false := hb.2 hz
  rw [hs, hz] at h1
  have h6 : (mapBig ⟨sign, comps⟩).map (stored prefer) = mapBig ⟨sign, comps⟩ := by
    rw [kept_iff _ _ h2, hs, h1]
    intro i
    exact Or.inr (Or.inl (by simp [zigzag, digit]))
  rw [h6, h3]; rfl

theorem C100_big_zero_refuted : ∃ b, Norm b ∧ storeBig 8 .native b [] ≠ some (b, []) :=
  ⟨⟨false, [0]⟩, by simp [Norm, Digits, W], by rw [(C100_big_zero 8 .native _ (by simp [Norm, Digits, W]) (by decide) []).1]; decide⟩

/-- With the default preference (the width of a pointer) `2 ^ 55` is read back as `2 ^ 63 - 1`, and negative. -/
theorem C100_big_refuted : ∃ b, Norm b ∧ value b = 2 ^ 55 ∧ storeBig 8 .native b [] = some (⟨true, [2 ^ 63 - 1]⟩, []) :=
  ⟨⟨false, [2 ^ 55]⟩, by simp [Norm, Digits, W], by decide, by decide⟩

/-- C100.  Fast big integers: tagged ones are read back when the stream keeps their word, others like big integers. -/
theorem C100_fast_exact (prefer : Nat) (se : Endian) (rest : List UInt8) :
    (∀ v : Int, -(2 ^ 62) ≤ v → v < 2 ^ 62 → ∀ f, BigIntFast.taggedValue true v = some f →
      (storeFast prefer se f rest = some (f, rest) ↔ 8 < prefer ∨ (0 ≤ v ∧ v < 2 ^ 55) ∨ v = -1)) ∧
    ∀ b, Norm b → (storeFast prefer se (.big b) rest = some (.big b, rest) ↔
      value b ≠ 0 ∧ ∀ i, Kept prefer (digit (zigzag b.sign (nat b.comps)) i)) := by
  constructor
  · intro v h1 h2 f hf
    have hw : ∃ w : BitVec 64, f = .tagged w ∧ w.toNat = (2 * v + 1) % 2 ^ 64 := by
      rw [BigIntFast.taggedValue] at hf
      split at hf
      · cases hf
      · simp only [Option.some.injEq] at hf
        refine ⟨_, hf.symm, ?_⟩
        rw [BitVec.toNat_or, BitVec.toNat_shiftLeft, BitVec.toNat_ofInt]
        have h3 : ((v % (2 ^ 64 : Nat)).toNat <<< 1) % 2 ^ 64 ||| (1#64).toNat = 2 * (v % (2 ^ 64 : Nat)).toNat % W + 1 :=
          low_bit _ 1 (by omega)
        rw [h3]
        simp only [W]; omega
    obtain ⟨w, rfl, hw⟩ := hw
    have hlt := w.isLt
    obtain ⟨out, h3, h4⟩ := read_write prefer se [w.toNat] (by simp; exact hlt)
    have h5 : storeFast prefer se (.tagged w) rest = some (.tagged (BitVec.ofNat 64 (stored prefer w.toNat)), rest) := by
      have h4 := h4 rest
      simp only [List.length_cons, List.length_nil, Nat.zero_add, List.map_cons, List.map_nil] at h4
      simp [storeFast, mapFast, unmapFast, h3, h4]
    rw [h5]
    have h6 : (8 < prefer ∨ (0 ≤ v ∧ v < 2 ^ 55) ∨ v = -1) ↔ Kept prefer w.toNat := by
      simp only [Kept]; omega
    rw [h6, ← stored_eq]
    simp only [Option.some.injEq, Prod.mk.injEq, and_true, Fast.tagged.injEq]
    have h7 : stored prefer w.toNat < 2 ^ 64 := stored_lt prefer w.toNat hlt
    constructor
    · intro h
      have := congrArg BitVec.toNat h
      rwa [BitVec.toNat_ofNat, Nat.mod_eq_of_lt h7] at this
    · intro h; rw [h]; simp
  · intro b hb
    rw [← C100_big_exact prefer se b hb rest]
    have : storeFast prefer se (.big b) rest = (storeBig prefer se b rest).map fun p => (.big p.1, p.2) := by
      simp only [storeFast, mapFast, storeBig]
      cases writeAll 8 true prefer se (mapBig b) with
      | none => rfl
      | some out =>
        simp only [Option.bind_eq_bind, Option.bind_some]
        cases readAll 8 true prefer se (mapBig b).length (out ++ rest) with
        | none => rfl
        | some p =>
          obtain ⟨ds, inp⟩ := p
          simp only [Option.bind_some, unmapFast]
          cases unmapBig ds <;> rfl
    rw [this]
    cases storeBig prefer se b rest with
    | none => simp
    | some p =>
      obtain ⟨x, y⟩ := p
      simp

/-! ## Strings -/

section
variable {M : Maps}

theorem mapStr_eq (hM : GoodMaps M) {s : Str} {l : List Nat} (h : Val M s l) : mapStr M s = some ((encodeAll l).take l.length) := by
  have hlen := h.length hM
  have hle := Utf8.length_le_encodeAll (h.scalar hM)
  have hcp := Str.copyCharacters_eq hM h (off := 0) (n := l.length) (by omega)
  simp only [List.drop_zero, List.take_length] at hcp
  have key : ∀ xs : List Nat, tempBuffer M s = some (encodeAll l ++ xs) → mapStr M s = some ((encodeAll l).take l.length) := by
    intro xs hx
    simp only [mapStr, hx, hlen, Option.bind_eq_bind, Option.bind_some]
    rw [if_pos (by simp; omega), List.take_append_of_le_length hle]
  cases s with
  | tagged w => exact key [0] (by simp [tempBuffer, hlen, hcp])
  | info i =>
    by_cases hu : i.unsafeBuf
    · exact key [0] (by simp [tempBuffer, hu, hlen, hcp])
    · obtain ⟨-, h⟩ := h
      cases he : i.enc <;> rw [he] at h <;> dsimp only at h
      · obtain ⟨x, r, hb, -⟩ := h.bytes
        exact key (x :: r) (by simp [tempBuffer, hu, hb, h.enc])
      · obtain ⟨r, hb⟩ := h.bytes
        exact key (0 :: r) (by simp [tempBuffer, hu, hb])

/-- C100.  What is written of a string are as many of its bytes as it has characters: all of them just when every character is
ASCII. -/
theorem C100_string_written_exact (hM : GoodMaps M) {s : Str} {l : List Nat} (h : Val M s l) :
    mapStr M s = some ((encodeAll l).take l.length) ∧ (mapStr M s = some (encodeAll l) ↔ ∀ c ∈ l, c < 128) := by
  refine ⟨mapStr_eq hM h, ?_⟩
  rw [mapStr_eq hM h, Option.some.injEq]
  constructor
  · intro e
    have := congrArg List.length e
    rw [List.length_take] at this
    exact Str.all_ascii (h.scalar hM) (by omega)
  · intro ha
    rw [Str.encodeAll_ascii ha, List.take_length]

/-- C100.  A string is read back with the characters `p` that the written bytes encode: those of the string itself just when they
are all ASCII.  Missing: what happens when the cut is within a character. -/
theorem C100_string_exact_partial (hM : GoodMaps M) (prefer : Nat) (se : Endian) {s : Str} {l p : List Nat} (h : Val M s l)
    (hp : ∀ c ∈ p, Scalar c) (he : encodeAll p = (encodeAll l).take l.length) (junk : List Nat)
    (hj : (encodeAll p).length + junk.length + 1 < Str.sizeMax) (rest : List UInt8) :
    (∃ s', storeStr M prefer se s junk rest = some (s', rest) ∧ Val M s' p ∧ Str.Safe s') ∧ (p = l ↔ ∀ c ∈ l, c < 128) := by
  constructor
  · obtain ⟨out, h1, h2⟩ := read_write_bytes prefer se (encodeAll p) (by
      intro b hb
      obtain ⟨c, hc, hb⟩ := List.mem_flatMap.1 hb
      have := (Utf8.encode_pos (hp c hc) b hb).2
      omega)
    obtain ⟨s', h3, h4, h5⟩ := Str.C54_create_with_size hM (e := .utf8) (l := p) hp .copy none junk
      (by simp only [Str.bytesOf, List.length_append]; omega) (by simp)
    refine ⟨s', ?_, h4, h5 (Or.inl rfl)⟩
    simp only [Str.bytesOf] at h3
    simp [storeStr, mapStr_eq hM h, ← he, h1, h2, unmapStr, h3]
  · constructor
    · rintro rfl
      have := congrArg List.length he
      rw [List.length_take] at this
      exact Str.all_ascii hp (by omega)
    · intro ha
      refine Str.encodeAll_inj' hp (h.scalar hM) ?_
      rw [he, Str.encodeAll_ascii ha, List.take_length]

/-- C100 for strings all of whose characters are ASCII: they are read back with the same characters. -/
theorem C100_string_partial (hM : GoodMaps M) (prefer : Nat) (se : Endian) {s : Str} {l : List Nat} (h : Val M s l)
    (ha : ∀ c ∈ l, c < 128) (junk : List Nat) (hj : l.length + junk.length + 1 < Str.sizeMax) (rest : List UInt8) :
    ∃ s', storeStr M prefer se s junk rest = some (s', rest) ∧ Val M s' l ∧ Str.Safe s' :=
  (C100_string_exact_partial hM prefer se h (h.scalar hM) (by rw [Str.encodeAll_ascii ha, List.take_length]) junk
    (by rw [Str.encodeAll_ascii ha]; exact hj) rest).1

end

/-- `Grüße`: its five characters have seven bytes, so the last character and a half are not written. -/
theorem C100_string_cut_refuted : Val Str.defaultMaps (Str.constant .utf8 (Str.bytesOf .utf8 [71, 114, 252, 223, 101])) [71, 114, 252, 223, 101] ∧
    mapStr Str.defaultMaps (Str.constant .utf8 (Str.bytesOf .utf8 [71, 114, 252, 223, 101])) = some (encodeAll [71, 114, 252] ++ [0xc3]) :=
  ⟨Str.gruesse, by decide⟩

theorem uu : Val Str.defaultMaps (Str.constant .utf8 (Str.bytesOf .utf8 [252, 252])) [252, 252] :=
  (Str.C54_constant (by simp only [Str.CharOk]; decide) (by decide)).1

/-- The string `üü` is read back as `ü`. -/
theorem C100_string_refuted : ∃ s s', Val Str.defaultMaps s [252, 252] ∧
    storeStr Str.defaultMaps 8 .native s [] [] = some (s', []) ∧ Val Str.defaultMaps s' [252] := by
  obtain ⟨⟨s', h1, h2, -⟩, -⟩ := C100_string_exact_partial Str.goodMaps_default 8 .native uu (p := [252]) (by decide) (by decide) [] (by decide) []
  exact ⟨_, s', uu, h1, h2⟩

/-! ## The hypotheses are met -/

example : storeBig 8 .native ⟨true, [5]⟩ [9] = some (⟨true, [5]⟩, [9]) :=
  C100_big_small_partial 8 .native _ (by simp [Norm, Digits, W, nat]) (by decide) (by decide) [9]

example : storeBig 9 .big ⟨true, [5, 2 ^ 64 - 1]⟩ [9] = some (⟨true, [5, 2 ^ 64 - 1]⟩, [9]) :=
  C100_big_partial 9 (by decide) .big _ (by simp [Norm, Digits, W, nat]) (by decide) [9]

example : nat (mapBig ⟨true, [5, 2 ^ 64 - 1]⟩) = zigzag true (nat [5, 2 ^ 64 - 1]) ∧ mapBig ⟨true, [5, 2 ^ 64 - 1]⟩ = [11, 2 ^ 64 - 2, 1] :=
  ⟨(C100_big_written ⟨true, [5, 2 ^ 64 - 1]⟩ (by simp [W])).1, by decide⟩

example : storeFast 8 .native (.tagged 0#64) [] = some (.tagged 0#64, []) := by decide

example : ∃ f, BigIntFast.taggedValue true (-2) = some f ∧ storeFast 8 .native f [] ≠ some (f, []) ∧ storeFast 9 .native f [] = some (f, []) := by
  refine ⟨_, rfl, fun h => ?_, ?_⟩
  · have := ((C100_fast_exact 8 .native []).1 (-2) (by decide) (by decide) _ rfl).1 h
    omega
  · exact ((C100_fast_exact 9 .native []).1 (-2) (by decide) (by decide) _ rfl).2 (by omega)

example : ∃ s', storeStr Str.defaultMaps 8 .native (.tagged (Str.word 3 [12, 9, 16, 16, 19])) [7] [1] = some (s', [1]) ∧
    Val Str.defaultMaps s' [104, 101, 108, 108, 111] ∧ Str.Safe s' :=
  C100_string_partial Str.goodMaps_default 8 .native Str.hello (by decide) [7] (by decide) [1]

#print axioms C100_big_written
#print axioms C100_big_map_exact
#print axioms C100_big_exact
#print axioms C100_big_partial
#print axioms C100_big_small_partial
#print axioms C100_big_zero
#print axioms C100_big_zero_refuted
#print axioms C100_big_refuted
#print axioms C100_fast_exact
#print axioms C100_string_written_exact
#print axioms C100_string_exact_partial
#print axioms C100_string_partial
#print axioms C100_string_cut_refuted
#print axioms C100_string_refuted

end Verif.Mapped
