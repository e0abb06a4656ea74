import Verif.VarInt
/-!
# C75: the binary encoding of numbers
-/
namespace Verif.VarInt

/-! ## Specification -/

/-- The number that the bytes are, the lowest first. -/
def value : List UInt8 → Nat
  | [] => 0
  | b :: bs => b.toNat + 256 * value bs

/-- The number that the bytes are in two's complement. -/
def signedValue (xs : List UInt8) : Int :=
  if value xs < 2 ^ (8 * xs.length - 1) then value xs else (value xs : Int) - 2 ^ (8 * xs.length)

/-! ## Bytes -/

theorem forall_byte {P : UInt8 → Prop} (h : ∀ n : Fin 256, P (UInt8.ofFin n)) (x : UInt8) : P x := by
  have := h x.toFin
  simpa using this

theorem carry_low (j : Fin 7) : ∀ x : UInt8, ((x &&& ~~~low j) >>> 1) &&& low (j + 1) = 0 :=
  forall_byte (by revert j; decide +kernel)

theorem carry_top (j : Fin 8) : ∀ x : UInt8, ((x &&& ~~~low j) >>> 1) &&& 0x80 = 0 :=
  forall_byte (by revert j; decide +kernel)

theorem carry_back (j : Fin 7) : ∀ x : UInt8, (x &&& low j) ||| ((x &&& ~~~low j) >>> 1) <<< 1 = x :=
  forall_byte (by revert j; decide +kernel)

theorem carry_zero (j : Fin 7) : ∀ x : UInt8, (x &&& ~~~low j) >>> 1 = 0 → x &&& ~~~low j = 0 :=
  forall_byte (by revert j; decide +kernel)

theorem low_top (j : Fin 8) : low j &&& 0x80 = 0 := by revert j; decide

theorem low7 : low 7 = 0 := by decide

theorem or_and_byte (x y m : UInt8) : (x ||| y) &&& m = (x &&& m) ||| (y &&& m) := by
  apply UInt8.toBitVec_inj.1
  simp only [UInt8.toBitVec_and, UInt8.toBitVec_or]
  ext i hi
  simp only [BitVec.getElem_and, BitVec.getElem_or, Bool.and_or_distrib_right]

theorem shift_flag : ∀ x : UInt8, (x ||| 0x80) <<< 1 = x <<< 1 := forall_byte (by decide +kernel)

theorem inverted_eq (s : Bool) (x : UInt8) : inverted s x = if s then ~~~x else x := by
  cases s
  · simp [inverted]
  · revert x; exact forall_byte (by decide +kernel)

/-- What the reader takes out of a byte. -/
theorem byte_low {c x m f : UInt8} (hc : c &&& m = 0) (hf : f &&& m = 0) : (c ||| (x &&& m) ||| f) &&& m = x &&& m := by
  apply UInt8.toBitVec_inj.1
  have hc := congrArg UInt8.toBitVec hc
  have hf := congrArg UInt8.toBitVec hf
  simp only [UInt8.toBitVec_and, UInt8.toBitVec_or] at *
  ext i hi
  have hc := congrArg (fun v => v.getLsbD i) hc
  have hf := congrArg (fun v => v.getLsbD i) hf
  simp at hc hf ⊢
  by_cases h1 : m.toBitVec[i] = true
  · simp_all
  · simp_all

theorem byte_rem {c x m f : UInt8} (hc : c &&& m = 0) (hf : f &&& m = 0) : (c ||| (x &&& m) ||| f) &&& ~~~m = c ||| f := by
  apply UInt8.toBitVec_inj.1
  have hc := congrArg UInt8.toBitVec hc
  have hf := congrArg UInt8.toBitVec hf
  simp only [UInt8.toBitVec_and, UInt8.toBitVec_or, UInt8.toBitVec_not] at *
  ext i hi
  have hc := congrArg (fun v => v.getLsbD i) hc
  have hf := congrArg (fun v => v.getLsbD i) hf
  simp at hc hf ⊢
  by_cases h1 : m.toBitVec[i] = true
  · simp_all
  · simp_all

/-! ## The two loops -/

/-- The bytes with `c` put back into the last. -/
def mend (A : List UInt8) (c : UInt8) : List UInt8 := A.modify (A.length - 1) (· ||| c <<< 1)

theorem mend_length (A : List UInt8) (c : UInt8) : (mend A c).length = A.length := by simp [mend]

theorem mend_snoc (A : List UInt8) (a c : UInt8) : mend (A ++ [a]) c = A ++ [a ||| c <<< 1] := by
  simp only [mend, List.length_append, List.length_singleton, Nat.add_sub_cancel]
  induction A with
  | nil => rfl
  | cons b A ih => simp [ih]

theorem modify_here (A Z : List UInt8) (a : UInt8) (f : UInt8 → UInt8) : (A ++ a :: Z).modify A.length f = A ++ f a :: Z := by
  induction A with
  | nil => rfl
  | cons b A ih => simp [ih]

theorem modify_before (A Z : List UInt8) (i : Nat) (f : UInt8 → UInt8) (h : i < A.length) :
    (A ++ Z).modify i f = A.modify i f ++ Z := by
  induction A generalizing i with
  | nil => simp at h
  | cons b A ih =>
    cases i with
    | zero => rfl
    | succ i => simp only [List.cons_append, List.modify_succ_cons, ih i (by simpa using h)]

/-- One byte of the stream, when there is room for it. -/
theorem decode_byte (n d : Nat) (A inp : List UInt8) (c x f : UInt8) (hA : A.length < n)
    (hc : c &&& low (A.length + d) = 0) (hf : f &&& low (A.length + d) = 0) (hcf : (c ||| f) <<< 1 = c <<< 1)
    (hc8 : c &&& 0x80 = 0) :
    decodeLoop n d (A ++ List.replicate (n - A.length) 0) A.length
        ((c ||| (x &&& low (A.length + d)) ||| f) :: inp)
      = if f &&& 0x80 ≠ 0 then
          decodeLoop n d (mend A c ++ (x &&& low (A.length + d)) :: List.replicate (n - (A.length + 1)) 0) (A.length + 1) inp
        else some (mend A c ++ (x &&& low (A.length + d)) :: List.replicate (n - (A.length + 1)) 0, inp) := by
  have hz : List.replicate (n - A.length) (0 : UInt8) = 0 :: List.replicate (n - (A.length + 1)) 0 := by
    rw [← List.replicate_succ]; congr 1; omega
  rw [decodeLoop]
  simp only [byte_low hc hf, byte_rem hc hf, if_pos hA, hcf]
  rw [hz, modify_here]
  have hor : (0 : UInt8) ||| (x &&& low (A.length + d)) = x &&& low (A.length + d) := UInt8.zero_or
  rw [hor]
  have h80 : (c ||| f) &&& 0x80 = f &&& 0x80 := by
    have : (c ||| f) &&& 0x80 = (c &&& 0x80) ||| (f &&& 0x80) := by
      apply UInt8.toBitVec_inj.1
      simp only [UInt8.toBitVec_and, UInt8.toBitVec_or]
      ext i hi
      simp only [BitVec.getElem_and, BitVec.getElem_or, Bool.and_or_distrib_right]
    rw [this, hc8]; exact UInt8.zero_or
  rw [h80]
  have hm : (if 0 < A.length ∧ A.length - 1 < n then
      (A ++ (x &&& low (A.length + d)) :: List.replicate (n - (A.length + 1)) 0).modify (A.length - 1) (· ||| c <<< 1)
      else A ++ (x &&& low (A.length + d)) :: List.replicate (n - (A.length + 1)) 0)
      = mend A c ++ (x &&& low (A.length + d)) :: List.replicate (n - (A.length + 1)) 0 := by
    by_cases h0 : 0 < A.length
    · rw [if_pos ⟨h0, by omega⟩, modify_before _ _ _ _ (by omega)]; rfl
    · rw [if_neg (by omega)]
      have : A = [] := List.length_eq_zero_iff.1 (by omega)
      subst this; rfl
  rw [hm]
  by_cases hr : c ||| f = 0
  · rw [if_neg (by simpa using hr), if_neg (by omega)]
    have hc0 : c = 0 ∧ f = 0 := by simpa [UInt8.or_eq_zero_iff] using hr
    rw [if_neg (by simp [hc0.2]), hc0.1]
    congr 2
    have : (fun y : UInt8 => y ||| (0 : UInt8) <<< 1) = id := by
      funext y; simp
    rw [mend, this, List.modify_id]
  · rw [if_pos hr]

/-- The bytes before the last. -/
theorem decode_prefix (n d : Nat) (tail rest : List UInt8) (ht : tail ≠ []) :
    ∀ (xs A : List UInt8) (c : UInt8), A.length + d + xs.length ≤ 7 → A.length + xs.length ≤ n →
      c &&& low (A.length + d) = 0 → c &&& 0x80 = 0 →
      ∃ A' c', A'.length = A.length + xs.length ∧ mend A' c' = mend A c ++ xs ∧ c' &&& 0x80 = 0
        ∧ c' &&& low (A.length + xs.length + d) = 0 ∧
        (xs = [] → c' = c) ∧
        decodeLoop n d (A ++ List.replicate (n - A.length) 0) A.length (encodeLoop c (A.length + d) (xs ++ tail) ++ rest)
          = decodeLoop n d (A' ++ List.replicate (n - A'.length) 0) A'.length
              (encodeLoop c' (A'.length + d) tail ++ rest) := by
  intro xs
  induction xs with
  | nil => intro A c _ _ h1 h2; exact ⟨A, c, rfl, by simp, h2, h1, fun _ => rfl, rfl⟩
  | cons x xs ih =>
    intro A c hk hn h1 h2
    simp only [List.length_cons] at hk hn
    have hl : (mend A c ++ [x &&& low (A.length + d)]).length = A.length + 1 := by simp [mend_length]
    obtain ⟨A', c', hA', hm, h8, hlw, _, he⟩ := ih (mend A c ++ [x &&& low (A.length + d)])
      ((x &&& ~~~low (A.length + d)) >>> 1) (by rw [hl]; omega) (by rw [hl]; omega)
      (by rw [hl, show A.length + 1 + d = A.length + d + 1 by omega]
          exact carry_low ⟨A.length + d, by omega⟩ x)
      (carry_top ⟨A.length + d, by omega⟩ x)
    refine ⟨A', c', by simp only [hA', hl, List.length_cons]; omega, ?_, h8, ?_, by simp, ?_⟩
    · rw [hm, mend_snoc, carry_back ⟨A.length + d, by omega⟩ x]; simp
    · rw [hl] at hlw; rw [List.length_cons, ← hlw]; congr 2; omega
    · rw [← he]
      obtain ⟨y, ys, hy⟩ : ∃ y ys, xs ++ tail = y :: ys := by
        cases xs with
        | nil => cases tail with
          | nil => exact absurd rfl ht
          | cons t ts => exact ⟨t, ts, rfl⟩
        | cons y ys => exact ⟨y, ys ++ tail, rfl⟩
      rw [List.cons_append, hy, encodeLoop, List.cons_append,
        decode_byte n d A _ c x 0x80 (by omega) h1
          (by rw [UInt8.and_comm]; exact low_top ⟨A.length + d, by omega⟩) (shift_flag c) h2, if_pos (by decide)]
      rw [hl, List.append_assoc]
      simp only [List.cons_append, List.nil_append, show A.length + d + 1 = A.length + 1 + d by omega]

/-- All the bytes, when the mask is not exhausted. -/
theorem decode_encode (n d : Nat) (xs A rest : List UInt8) (c : UInt8) (hx : xs ≠ [])
    (hk : A.length + d + xs.length ≤ 7) (hn : A.length + xs.length ≤ n) (h1 : c &&& low (A.length + d) = 0)
    (h2 : c &&& 0x80 = 0) :
    decodeLoop n d (A ++ List.replicate (n - A.length) 0) A.length (encodeLoop c (A.length + d) xs ++ rest)
      = some (mend A c ++ xs ++ List.replicate (n - (A.length + xs.length)) 0, rest) := by
  obtain ⟨ini, x, rfl⟩ : ∃ ini x, xs = ini ++ [x] := ⟨xs.dropLast, xs.getLast hx, (List.dropLast_concat_getLast hx).symm⟩
  simp only [List.length_append, List.length_singleton] at hk hn ⊢
  obtain ⟨A', c', hA', hm, h8, hlw, _, he⟩ := decode_prefix n d [x] rest (by simp) ini A c (by omega) (by omega) h1 h2
  rw [he, encodeLoop]
  rw [show A.length + ini.length + d = A'.length + d by omega] at hlw
  by_cases hr : x &&& ~~~low (A'.length + d) = 0
  · rw [if_neg (by simpa using hr)]
    have := decode_byte n d A' rest c' x 0 (by omega) hlw (by simp) (by simp) h8
    simp only [UInt8.or_zero] at this
    rw [List.cons_append, List.nil_append, this, if_neg (by decide), hm]
    have hb := carry_back ⟨A'.length + d, by omega⟩ x
    simp only [hr] at hb
    have hb : x &&& low (A'.length + d) = x := by simpa using hb
    rw [hb]
    simp only [List.append_assoc, List.cons_append, List.nil_append]
    rw [show n - (A.length + (ini.length + 1)) = n - (A'.length + 1) by omega]
  · rw [if_pos (by simpa using hr)]
    simp only [List.cons_append, List.nil_append]
    rw [decode_byte n d A' _ c' x 0x80 (by omega) hlw
      (by rw [UInt8.and_comm]; exact low_top ⟨A'.length + d, by omega⟩) (shift_flag c') h8, if_pos (by decide)]
    have hcl := carry_low ⟨A'.length + d, by omega⟩ x
    have hct := carry_top ⟨A'.length + d, by omega⟩ x
    have hcz := carry_zero ⟨A'.length + d, by omega⟩ x
    have hb := carry_back ⟨A'.length + d, by omega⟩ x
    simp only at hcl hct hcz hb
    revert hcl hct hcz hb
    generalize hg : (x &&& ~~~low (A'.length + d)) >>> 1 = g
    intro hcl hct hcz hb
    have hg0 : g ≠ 0 := fun h => hr (hcz h)
    have hgr : g &&& ~~~low (A'.length + 1 + d) = g := by
      have := byte_rem (c := g) (x := 0) (m := low (A'.length + 1 + d)) (f := 0)
        (by rw [← hcl]; congr 2; omega) (by simp)
      simpa using this
    have hgl : g &&& low (A'.length + 1 + d) = 0 := by rw [← hcl]; congr 2; omega
    rw [decodeLoop]
    simp only [hgr, hgl]
    rw [if_pos hg0, if_neg (by simpa using hct)]
    have hid : ∀ l : List UInt8, l.modify (A'.length + 1) (· ||| 0) = l := by
      intro l
      have : (fun y : UInt8 => y ||| 0) = id := by funext y; simp
      rw [this, List.modify_id]
    rw [hid, if_pos ⟨by omega, by omega⟩]
    congr 2
    rw [show (if A'.length + 1 < n then mend A' c' ++ (x &&& low (A'.length + d)) :: List.replicate (n - (A'.length + 1)) 0
        else mend A' c' ++ (x &&& low (A'.length + d)) :: List.replicate (n - (A'.length + 1)) 0)
        = mend A' c' ++ (x &&& low (A'.length + d)) :: List.replicate (n - (A'.length + 1)) 0 from ite_self _]
    have := modify_here (mend A' c') (List.replicate (n - (A'.length + 1)) 0) (x &&& low (A'.length + d)) (· ||| g <<< 1)
    rw [mend_length] at this
    rw [Nat.add_sub_cancel, this, hb, hm]
    simp only [List.append_assoc, List.cons_append, List.nil_append]
    rw [show n - (A.length + (ini.length + 1)) = n - (A'.length + 1) by omega]

/-! ## The bytes that are written -/

theorem maxIdx_le (ys : List UInt8) : ∀ n, maxIdx ys n ≤ n
  | 0 => Nat.le_refl _
  | n + 1 => by rw [maxIdx]; split; exact Nat.le_succ_of_le (maxIdx_le ys n); exact Nat.le_refl _

theorem maxIdx_above (ys : List UInt8) : ∀ n i, maxIdx ys n < i → i ≤ n → ys.getD i 0 = 0
  | 0, i, h1, h2 => by simp [maxIdx] at h1; omega
  | n + 1, i, h1, h2 => by
    rw [maxIdx] at h1
    split at h1
    · rename_i hz
      by_cases hi : i = n + 1
      · subst hi; exact hz
      · exact maxIdx_above ys n i h1 (by omega)
    · omega

theorem maxIdx_top (ys : List UInt8) : ∀ n, maxIdx ys n ≠ 0 → ys.getD (maxIdx ys n) 0 ≠ 0
  | 0, h => absurd rfl h
  | n + 1, h => by
    rw [maxIdx] at h ⊢
    split
    · rename_i hz; rw [if_pos hz] at h; exact maxIdx_top ys n h
    · assumption

theorem take_zeros (ys : List UInt8) (m : Nat) (h : ∀ i, m ≤ i → i < ys.length → ys.getD i 0 = 0) :
    ys.take m ++ List.replicate (ys.length - m) 0 = ys := by
  conv => rhs; rw [← List.take_append_drop m ys]
  congr 1
  symm
  rw [List.eq_replicate_iff]
  refine ⟨by simp, ?_⟩
  intro b hb
  obtain ⟨i, hi, rfl⟩ := List.mem_iff_getElem.1 hb
  have hi' : m + i < ys.length := by simp at hi; omega
  have := h (m + i) (by omega) hi'
  rw [List.getElem_drop]
  simpa [List.getD_eq_getElem?_getD, List.getElem?_eq_getElem hi'] using this

theorem kept_zeros (ys : List UInt8) (h : ys ≠ []) :
    ys.take (maxIdx ys (ys.length - 1) + 1) ++ List.replicate (ys.length - (maxIdx ys (ys.length - 1) + 1)) 0 = ys :=
  take_zeros ys _ fun i h1 h2 => maxIdx_above ys (ys.length - 1) i (by omega) (by omega)

theorem maxIdx_bound (ys : List UInt8) (m : Nat) (h : ∀ i, m < i → ys.getD i 0 = 0) (n : Nat) : maxIdx ys n ≤ m := by
  by_cases h0 : maxIdx ys n = 0
  · omega
  · have := maxIdx_top ys n h0
    by_cases hm : maxIdx ys n ≤ m
    · exact hm
    · exact absurd (h _ (by omega)) this

theorem encode_length : ∀ (xs : List UInt8) (c : UInt8) (k : Nat), (encodeLoop c k xs).length ≤ xs.length + 1
  | [], _, _ => by simp [encodeLoop]
  | [x], c, k => by rw [encodeLoop]; split <;> simp
  | x :: y :: xs, c, k => by
    rw [encodeLoop]
    have := encode_length (y :: xs) ((x &&& ~~~low k) >>> 1) (k + 1)
    simp only [List.length_cons] at *
    omega

theorem encode_length_last : ∀ (ini : List UInt8) (x c : UInt8) (k : Nat),
    (encodeLoop c k (ini ++ [x])).length = if x &&& ~~~low (k + ini.length) ≠ 0 then ini.length + 2 else ini.length + 1
  | [], x, c, k => by
    rw [List.nil_append, encodeLoop, List.length_nil, Nat.add_zero]; split <;> rfl
  | [y], x, c, k => by
    have := encode_length_last [] x ((y &&& ~~~low k) >>> 1) (k + 1)
    rw [List.nil_append, List.length_nil, Nat.add_zero] at this
    rw [List.cons_append, List.nil_append, encodeLoop, List.length_cons, this, List.length_singleton]
    split <;> rfl
  | y :: z :: ini, x, c, k => by
    have := encode_length_last (z :: ini) x ((y &&& ~~~low k) >>> 1) (k + 1)
    rw [List.cons_append] at this
    rw [List.cons_append, List.cons_append, encodeLoop, List.length_cons, this,
      show k + 1 + (z :: ini).length = k + (y :: z :: ini).length by simp only [List.length_cons]; omega]
    split <;> rfl

theorem view_length (e : Endian) (xs : List UInt8) : (view e xs).length = xs.length := by
  unfold view; split <;> simp

theorem view_view (e : Endian) (xs : List UInt8) : view e (view e xs) = xs := by
  unfold view; split <;> simp

theorem view_inj (e : Endian) (xs ys : List UInt8) (h : view e xs = view e ys) : xs = ys := by
  rw [← view_view e xs, h, view_view]

/-! ## Values -/

theorem value_lt : ∀ ys : List UInt8, value ys < 256 ^ ys.length
  | [] => by simp [value]
  | b :: bs => by
    have h1 := b.toNat_lt
    have h2 := value_lt bs
    simp only [value, List.length_cons, Nat.pow_succ]
    omega

theorem value_small : ∀ (ys : List UInt8) (m : Nat), value ys < 256 ^ m → ∀ i, m ≤ i → ys.getD i 0 = 0
  | [], _, _, i, _ => by simp
  | b :: bs, 0, h, i, _ => by
    simp only [value, Nat.pow_zero] at h
    have hb : b = 0 := UInt8.toNat_inj.1 (by simp; omega)
    cases i with
    | zero => simpa using hb
    | succ i => simpa using value_small bs 0 (by simp; omega) i (by omega)
  | b :: bs, m + 1, h, i, hi => by
    cases i with
    | zero => omega
    | succ i =>
      simp only [value, Nat.pow_succ] at h
      simpa using value_small bs m (by omega) i (by omega)

theorem value_append : ∀ (xs ys : List UInt8), value (xs ++ ys) = value xs + 256 ^ xs.length * value ys
  | [], ys => by simp [value]
  | x :: xs, ys => by
    simp only [List.cons_append, value, value_append xs ys, List.length_cons, Nat.pow_succ, Nat.mul_add]
    rw [← Nat.mul_assoc, Nat.mul_comm 256 (256 ^ _)]
    omega

theorem value_not : ∀ ys : List UInt8, value (ys.map (~~~ ·)) + value ys + 1 = 256 ^ ys.length
  | [] => by simp [value]
  | b :: bs => by
    have h1 := value_not bs
    have h2 : (~~~b).toNat + b.toNat = 255 := by revert b; exact forall_byte (by decide +kernel)
    simp only [List.map_cons, value, List.length_cons, Nat.pow_succ]
    omega

theorem pow_top (m : Nat) : 2 ^ (8 * (m + 1) - 1) = 128 * 256 ^ m := by
  rw [show 8 * (m + 1) - 1 = 7 + 8 * m by omega, Nat.pow_add, Nat.pow_mul]

/-- The sign is the highest bit. -/
theorem sign_value (ys : List UInt8) (h : ys ≠ []) : signOf true ys = !decide (value ys < 2 ^ (8 * ys.length - 1)) := by
  obtain ⟨ini, x, rfl⟩ : ∃ ini x, ys = ini ++ [x] := ⟨ys.dropLast, ys.getLast h, (List.dropLast_concat_getLast h).symm⟩
  have hl : (ini ++ [x]).getLastD 0 = x := by simp [List.getLastD_eq_getLast?]
  have hv : value (ini ++ [x]) = value ini + 256 ^ ini.length * x.toNat := by rw [value_append]; simp [value]
  have hi := value_lt ini
  have hb : (x >>> 7 = 0 ∧ x.toNat ≤ 127) ∨ (x >>> 7 ≠ 0 ∧ 128 ≤ x.toNat) := by
    revert x; exact fun x _ _ _ => forall_byte (P := fun x => (x >>> 7 = 0 ∧ x.toNat ≤ 127) ∨ (x >>> 7 ≠ 0 ∧ 128 ≤ x.toNat))
      (by decide +kernel) x
  rw [signOf, hl, hv, List.length_append, List.length_singleton, pow_top]
  rcases hb with ⟨h1, h2⟩ | ⟨h1, h2⟩
  · have := Nat.mul_le_mul_left (256 ^ ini.length) h2
    rw [decide_eq_true (by omega)]
    simp [h1]
  · have := Nat.mul_le_mul_left (256 ^ ini.length) h2
    rw [decide_eq_false (by omega)]
    simpa using h1

theorem map_inverted (s : Bool) (ys : List UInt8) : ys.map (inverted s) = if s then ys.map (~~~ ·) else ys := by
  cases s
  · rw [List.map_congr_left (g := id) (fun x _ => by simp [inverted_eq])]; simp
  · simp [inverted_eq]

theorem map_not_not (ys : List UInt8) : (ys.map (~~~ ·)).map (~~~ ·) = ys := by simp [Function.comp_def]

/-- The bytes that the signed numbers are written as have the highest bit clear. -/
theorem inverted_top (ys : List UInt8) (h : ys ≠ []) :
    ((ys.map (inverted (signOf true ys))).modify (ys.length - 1) (· &&& 0x7f)) = ys.map (inverted (signOf true ys)) := by
  obtain ⟨ini, x, rfl⟩ : ∃ ini x, ys = ini ++ [x] := ⟨ys.dropLast, ys.getLast h, (List.dropLast_concat_getLast h).symm⟩
  have hl : signOf true (ini ++ [x]) = (x >>> 7 != 0) := by simp [signOf, List.getLastD_eq_getLast?]
  rw [hl, List.map_append, List.map_singleton]
  have := modify_here (ini.map (inverted (x >>> 7 != 0))) [] (inverted (x >>> 7 != 0) x) (· &&& 0x7f)
  rw [List.length_map] at this
  rw [List.length_append, List.length_singleton, Nat.add_sub_cancel, this]
  congr 2
  revert x
  exact fun x _ _ _ => forall_byte (P := fun x => inverted (x >>> 7 != 0) x &&& 0x7f = inverted (x >>> 7 != 0) x)
    (by decide +kernel) x

/-- The first byte that is written has the sign. -/
theorem head_sign (s : Bool) (ys rest : List UInt8) (h : ys ≠ []) :
    ((encodeLoop (if s then 0x40 else 0) 1 ys ++ rest).headD 0 &&& 0x40 ≠ 0) ↔ s = true := by
  have hb : ∀ x : UInt8, ∀ s : Bool, (((if s then 0x40 else 0) ||| (x &&& low 1) ||| 0x80) &&& 0x40 ≠ 0 ↔ s = true)
      ∧ (((if s then 0x40 else 0) ||| (x &&& low 1)) &&& 0x40 ≠ 0 ↔ s = true) :=
    forall_byte (by decide +kernel)
  match ys, h with
  | [x], _ =>
    rw [encodeLoop]
    split
    · exact (hb x s).1
    · exact (hb x s).2
  | x :: y :: ys, _ => rw [encodeLoop]; exact (hb x s).1

theorem write_unsigned (e : Endian) (xs : List UInt8) (h0 : xs ≠ []) (h64 : xs.length ≤ 64) (m : Nat) (hm : m ≤ 62)
    (hz : ∀ i, m < i → (view e xs).getD i 0 = 0) :
    writeVar e false xs = some (encodeLoop 0 0 ((view e xs).take (maxIdx (view e xs) (xs.length - 1) + 1))) := by
  unfold writeVar
  rw [if_neg (by simp [h0]; omega)]
  have hs : signOf false (view e xs) = false := rfl
  simp only [hs, map_inverted, view_length]
  have hb := maxIdx_bound _ m hz (xs.length - 1)
  have hl := encode_length ((view e xs).take (maxIdx (view e xs) (xs.length - 1) + 1)) 0 0
  rw [List.length_take] at hl
  simp only [Bool.false_eq_true, if_false, view_length]
  rw [if_pos (by omega)]

/-- The unsigned numbers below `2 ^ 56`. -/
theorem C75_unsigned_partial (e : Endian) (xs : List UInt8) (h0 : xs ≠ []) (h64 : xs.length ≤ 64)
    (hv : value (view e xs) < 2 ^ 56) :
    ∃ out, writeVar e false xs = some out ∧
      ∀ e' rest, readVar e' false xs.length (out ++ rest) = some (view e' (view e xs), rest) := by
  have hz := value_small (view e xs) 7 (by simpa using hv)
  refine ⟨_, write_unsigned e xs h0 h64 6 (by omega) (fun i hi => hz i (by omega)), ?_⟩
  intro e' rest
  have hb := maxIdx_bound _ 6 (fun i hi => hz i (by omega)) (xs.length - 1)
  have hn : 0 < xs.length := List.length_pos_iff.2 h0
  have hle := maxIdx_le (view e xs) (xs.length - 1)
  have hne : view e xs ≠ [] := fun h => by have := view_length e xs; rw [h] at this; simp at this; omega
  have hk := kept_zeros (view e xs) hne
  rw [view_length] at hk
  have hlen : ((view e xs).take (maxIdx (view e xs) (xs.length - 1) + 1)).length = maxIdx (view e xs) (xs.length - 1) + 1 := by
    rw [List.length_take, view_length]; omega
  have := decode_encode xs.length 0 ((view e xs).take (maxIdx (view e xs) (xs.length - 1) + 1)) [] rest 0
    (by intro h; rw [h] at hlen; simp at hlen) (by rw [hlen]; simp; omega) (by rw [hlen]; simp; omega) (by simp) (by simp)
  rw [hlen] at this
  simp only [List.nil_append, List.length_nil, Nat.zero_add, Nat.sub_zero, show mend [] 0 = [] from rfl] at this
  rw [hk] at this
  unfold readVar
  rw [if_neg (by simp)]
  simp only [Bool.false_eq_true, if_false, this]

theorem write_signed (e : Endian) (xs : List UInt8) (h0 : xs ≠ []) (h64 : xs.length ≤ 64) (s : Bool)
    (hs : signOf true (view e xs) = s) (ys : List UInt8) (hys : (view e xs).map (inverted s) = ys) (m : Nat) (hm : m ≤ 62)
    (hz : ∀ i, m < i → ys.getD i 0 = 0) :
    writeVar e true xs = some (encodeLoop (if s then 0x40 else 0) 1 (ys.take (maxIdx ys (xs.length - 1) + 1))) := by
  unfold writeVar
  rw [if_neg (by simp [h0]; omega)]
  have hyl : ys.length = xs.length := by rw [← hys]; simp [view_length]
  simp only [hs, hys, hyl, if_true]
  have hb := maxIdx_bound _ m hz (xs.length - 1)
  have hl := encode_length (ys.take (maxIdx ys (xs.length - 1) + 1)) (if s then 0x40 else 0) 1
  rw [List.length_take] at hl
  exact if_pos (by omega)

/-- What the signed reader does once the loop is done. -/
theorem readVar_signed (e e' : Endian) (xs inp rest ys : List UInt8) (h0 : xs ≠ []) (s : Bool)
    (hh : (inp.headD 0 &&& 0x40 ≠ 0) ↔ s = true)
    (hd : decodeLoop xs.length 1 (List.replicate xs.length 0) 0 inp = some (ys, rest))
    (ht : ys.modify (xs.length - 1) (· &&& 0x7f) = ys) :
    readVar e' true xs.length inp = some (view e' (if s then ys.map (~~~ ·) else ys), rest) := by
  have hn : 0 < xs.length := List.length_pos_iff.2 h0
  unfold readVar
  rw [if_neg (by omega)]
  simp only [if_true, hd, ht]
  congr 3
  cases s
  · rw [if_neg (by rw [hh]; simp)]; simp
  · rw [if_pos (by rw [hh])]; simp

theorem decode_kept (ys rest : List UInt8) (s : Bool) (h0 : ys ≠ []) (hz : ∀ i, 5 < i → ys.getD i 0 = 0) :
    decodeLoop ys.length 1 (List.replicate ys.length 0) 0
      (encodeLoop (if s then 0x40 else 0) 1 (ys.take (maxIdx ys (ys.length - 1) + 1)) ++ rest) = some (ys, rest) := by
  have hb := maxIdx_bound _ 5 hz (ys.length - 1)
  have hn : 0 < ys.length := List.length_pos_iff.2 h0
  have hle := maxIdx_le ys (ys.length - 1)
  have hk := kept_zeros ys h0
  have hlen : (ys.take (maxIdx ys (ys.length - 1) + 1)).length = maxIdx ys (ys.length - 1) + 1 := by
    rw [List.length_take]; omega
  have := decode_encode ys.length 1 (ys.take (maxIdx ys (ys.length - 1) + 1)) [] rest (if s then 0x40 else 0)
    (by intro h; rw [h] at hlen; simp at hlen) (by rw [hlen]; simp; omega) (by rw [hlen]; simp; omega)
    (by cases s <;> decide) (by cases s <;> decide)
  rw [hlen] at this
  simp only [List.nil_append, List.length_nil, Nat.zero_add, Nat.sub_zero, show ∀ c, mend [] c = [] from fun _ => rfl] at this
  rw [hk] at this
  exact this

/-- The signed numbers from `- 2 ^ 48` to below `2 ^ 48`. -/
theorem C75_signed_partial (e : Endian) (xs : List UInt8) (h0 : xs ≠ []) (h64 : xs.length ≤ 64)
    (hv : -2 ^ 48 ≤ signedValue (view e xs) ∧ signedValue (view e xs) < 2 ^ 48) :
    ∃ out, writeVar e true xs = some out ∧
      ∀ e' rest, readVar e' true xs.length (out ++ rest) = some (view e' (view e xs), rest) := by
  have hn : 0 < xs.length := List.length_pos_iff.2 h0
  have hne : view e xs ≠ [] := fun h => by have := view_length e xs; rw [h] at this; simp at this; omega
  have hsv := sign_value (view e xs) hne
  have hz : ∀ i, 5 < i → ((view e xs).map (inverted (signOf true (view e xs)))).getD i 0 = 0 := by
    intro i hi
    refine value_small _ 6 ?_ i (by omega)
    rw [map_inverted, hsv]
    unfold signedValue at hv
    by_cases hlt : value (view e xs) < 2 ^ (8 * (view e xs).length - 1)
    · rw [if_pos hlt] at hv
      simp only [decide_eq_true hlt, Bool.not_true, Bool.false_eq_true, if_false]
      have h2 := hv.2
      have : value (view e xs) < 2 ^ 48 := by exact_mod_cast h2
      simpa using this
    · rw [if_neg hlt] at hv
      simp only [decide_eq_false hlt, Bool.not_false, if_true]
      have h1 := value_not (view e xs)
      have h2 : (256 : Nat) ^ (view e xs).length = 2 ^ (8 * (view e xs).length) := by
        rw [show (256 : Nat) = 2 ^ 8 by rfl, ← Nat.pow_mul]
      have h3 : ((2 : Int) ^ (8 * (view e xs).length)) = ((2 ^ (8 * (view e xs).length) : Nat) : Int) := by
        push_cast; rfl
      rw [h3] at hv
      rw [h2] at h1
      have : (256 : Nat) ^ 6 = 281474976710656 := by decide
      have h4 : (2 : Int) ^ 48 = 281474976710656 := by decide
      rw [this]
      omega
  refine ⟨_, write_signed e xs h0 h64 _ rfl _ rfl 5 (by omega) hz, ?_⟩
  intro e' rest
  have hl : ((view e xs).map (inverted (signOf true (view e xs)))).length = xs.length := by simp [view_length]
  have hd := decode_kept _ rest (signOf true (view e xs)) (by intro h; rw [h] at hl; simp at hl; omega) hz
  rw [hl] at hd
  have ht := inverted_top (view e xs) hne
  rw [view_length] at ht
  rw [readVar_signed e e' xs _ rest _ h0 _ (head_sign _ _ _ (by
    intro h
    have := congrArg List.length h
    rw [List.length_take, hl] at this
    simp only [List.length_nil] at this
    omega)) hd ht]
  congr 3
  rw [map_inverted]
  cases signOf true (view e xs)
  · simp
  · simp only [if_true]; exact map_not_not _

/-- Unsigned 64 bit numbers: from `2 ^ 56` on every number is read as the largest. -/
theorem C75_unsigned64_exact (e : Endian) (xs : List UInt8) (h8 : xs.length = 8) :
    ∃ out, writeVar e false xs = some out ∧
      ∀ e' rest, readVar e' false 8 (out ++ rest)
        = some (if value (view e xs) < 2 ^ 56 then view e' (view e xs) else List.replicate 8 0xff, rest) := by
  have h0 : xs ≠ [] := by intro h; rw [h] at h8; simp at h8
  by_cases hv : value (view e xs) < 2 ^ 56
  · obtain ⟨out, h1, h2⟩ := C75_unsigned_partial e xs h0 (by omega) hv
    rw [h8] at h2
    exact ⟨out, h1, by simpa [hv] using h2⟩
  · have hlen := view_length e xs
    rw [h8] at hlen
    refine ⟨_, write_unsigned e xs h0 (by omega) 7 (by omega) (fun i hi => by
      rw [List.getD_eq_getElem?_getD, List.getElem?_eq_none (by omega)]; rfl), ?_⟩
    intro e' rest
    rw [h8, if_neg hv]
    revert hv hlen
    generalize view e xs = ys
    intro hv hlen
    match ys, hlen with
    | [y0, y1, y2, y3, y4, y5, y6, y7], _ =>
      have h7 : y7 ≠ 0 := by
        intro h
        apply hv
        have := value_lt [y0, y1, y2, y3, y4, y5, y6]
        rw [show [y0, y1, y2, y3, y4, y5, y6, y7] = [y0, y1, y2, y3, y4, y5, y6] ++ [y7] from rfl, value_append, h]
        simpa [value] using this
      have hm : maxIdx [y0, y1, y2, y3, y4, y5, y6, y7] (8 - 1) = 7 := by
        rw [show 8 - 1 = 6 + 1 from rfl, maxIdx, if_neg (by simpa using h7)]
      rw [hm]
      obtain ⟨A, c, hA, hmd, hc8, hcl, _, he⟩ := decode_prefix 8 0 [y7] rest (by simp) [y0, y1, y2, y3, y4, y5, y6] [] 0
        (by simp) (by simp) (by simp) (by simp)
      have hA : A.length = 7 := hA
      have hx : encodeLoop c 7 [y7] = [c ||| (y7 &&& low 7) ||| 0x80, y7 >>> 1] := by
        rw [encodeLoop, low7, if_pos (by simpa using h7)]; simp
      have hcl : c &&& low (A.length + 0) = 0 := by rw [hA]; exact hcl
      have hb := decode_byte 8 0 A (y7 >>> 1 :: rest) c y7 0x80 (by omega) hcl
        (by rw [hA]; decide) (shift_flag c) hc8
      rw [if_pos (by decide)] at hb
      simp only [hA, Nat.add_zero] at he hb
      simp only [readVar, Bool.false_eq_true, and_false, if_false]
      have he' := he
      simp only [List.length_nil, List.nil_append, Nat.sub_zero] at he'
      rw [show List.take (7 + 1) [y0, y1, y2, y3, y4, y5, y6, y7] = [y0, y1, y2, y3, y4, y5, y6] ++ [y7] from rfl, he', hx]
      simp only [List.cons_append, List.nil_append]
      rw [hb, decodeLoop]
      have hr : ∀ y : UInt8, y >>> 1 &&& ~~~low 8 = 0 := forall_byte (by decide +kernel)
      simp only [Nat.add_zero, Nat.reduceAdd, hr]
      cases e' <;> rfl

theorem decode64 (s : Bool) (y0 y1 y2 y3 y4 y5 y6 y7 : UInt8) (rest : List UInt8) (h1 : y7 &&& low 8 = y7)
    (h2 : y7 &&& ~~~low 8 = 0) :
    decodeLoop 8 1 (List.replicate 8 0) 0 (encodeLoop (if s then 0x40 else 0) 1
        ([y0, y1, y2, y3, y4, y5, y6, y7].take (maxIdx [y0, y1, y2, y3, y4, y5, y6, y7] 7 + 1)) ++ rest)
      = some ([y0, y1, y2, y3, y4, y5, 0, y7 ||| y6 >>> 1], rest) := by
  have hpre : ∀ tail inp : List UInt8, tail ≠ [] → (∀ c, c &&& 0x80 = 0 → encodeLoop c 7 tail = (c ||| 0x80) :: inp) →
      decodeLoop 8 1 (List.replicate 8 0) 0 (encodeLoop (if s then 0x40 else 0) 1 ([y0, y1, y2, y3, y4, y5] ++ tail) ++ rest)
        = decodeLoop 8 1 [y0, y1, y2, y3, y4, y5, 0, 0] 7 (inp ++ rest) := by
    intro tail inp ht hx
    obtain ⟨A, c, hA, hmd, hc8, hcl, _, he⟩ := decode_prefix 8 1 tail rest ht [y0, y1, y2, y3, y4, y5] []
      (if s then 0x40 else 0) (by simp) (by simp) (by cases s <;> decide) (by cases s <;> decide)
    have hA : A.length = 6 := hA
    have hcl : c &&& low (A.length + 1) = 0 := by rw [hA]; exact hcl
    have hb := decode_byte 8 1 A (inp ++ rest) c 0 0x80 (by omega) hcl (by rw [hA]; decide) (shift_flag c) hc8
    rw [if_pos (by decide), hmd] at hb
    simp only [hA] at he hb
    refine Eq.trans he ?_
    rw [hx c hc8, List.cons_append]
    simp only [UInt8.zero_and, UInt8.or_zero] at hb
    exact hb
  have hlast : ∀ v w : UInt8, v &&& low 8 = w → v &&& ~~~low 8 = 0 →
      decodeLoop 8 1 [y0, y1, y2, y3, y4, y5, 0, 0] 7 ([v] ++ rest) = some ([y0, y1, y2, y3, y4, y5, 0, w], rest) := by
    intro v w hw hv
    rw [List.cons_append, List.nil_append, decodeLoop]
    simp only [Nat.reduceAdd, hw, hv]
    simp
  have hq : ∀ y : UInt8, y >>> 1 &&& low 8 = y >>> 1 ∧ y >>> 1 &&& ~~~low 8 = 0 := forall_byte (by decide +kernel)
  by_cases h7 : y7 = 0
  · subst h7
    by_cases h6 : y6 = 0
    · subst h6
      have := decode_kept [y0, y1, y2, y3, y4, y5, 0, 0] rest s (by simp) (by
        intro i hi
        match i, hi with
        | 6, _ => rfl
        | 7, _ => rfl
        | i + 8, _ => simp)
      exact this
    · have hm : maxIdx [y0, y1, y2, y3, y4, y5, y6, 0] 7 = 6 := by
        rw [show 7 = 5 + 1 + 1 from rfl, maxIdx, if_pos (by rfl), maxIdx, if_neg (by simpa using h6)]
      rw [hm]
      refine (hpre [y6] [y6 >>> 1] (by simp) ?_).trans ?_
      · intro c _
        rw [encodeLoop, low7, if_pos (by simpa using h6)]; simp
      · rw [hlast _ _ (hq y6).1 (hq y6).2]; simp
  · have hm : maxIdx [y0, y1, y2, y3, y4, y5, y6, y7] 7 = 7 := by
      rw [show 7 = 6 + 1 from rfl, maxIdx, if_neg (by simpa using h7)]
    rw [hm]
    refine (hpre [y6, y7] [y6 >>> 1 ||| y7] (by simp) ?_).trans ?_
    · intro c _
      rw [encodeLoop, encodeLoop, if_neg (by simpa using h2), h1, low7]; simp
    · have e1 : (y6 >>> 1 ||| y7) &&& low 8 = y7 ||| y6 >>> 1 := by
        have := or_and_byte (y6 >>> 1) y7 (low 8)
        rw [this, h1, (hq y6).1, UInt8.or_comm]
      have e2 : (y6 >>> 1 ||| y7) &&& ~~~low 8 = 0 := by
        rw [or_and_byte, h2, (hq y6).2]; rfl
      rw [hlast _ _ e1 e2]

/-- The bytes as they are written. -/
def inv (s : Bool) (b : UInt8) : UInt8 := if s then ~~~b else b

/-- Signed 64 bit numbers: the two highest bytes are mixed up, so that a number is read back exactly when its byte 6 is
the sign only. -/
theorem C75_signed64_exact (e : Endian) (xs : List UInt8) (b0 b1 b2 b3 b4 b5 b6 b7 : UInt8)
    (hx : view e xs = [b0, b1, b2, b3, b4, b5, b6, b7]) :
    ∃ out, writeVar e true xs = some out ∧
      ∀ e' rest, readVar e' true 8 (out ++ rest)
        = some (view e' [b0, b1, b2, b3, b4, b5, inv (b7 >>> 7 != 0) 0,
            inv (b7 >>> 7 != 0) (inv (b7 >>> 7 != 0) b7 ||| inv (b7 >>> 7 != 0) b6 >>> 1)], rest) := by
  have h8 : xs.length = 8 := by rw [← view_length e xs, hx]; rfl
  have h0 : xs ≠ [] := by intro h; rw [h] at h8; simp at h8
  have ht7 : inv (b7 >>> 7 != 0) b7 &&& low 8 = inv (b7 >>> 7 != 0) b7 ∧ inv (b7 >>> 7 != 0) b7 &&& ~~~low 8 = 0 :=
    forall_byte (P := fun b7 => inv (b7 >>> 7 != 0) b7 &&& low 8 = inv (b7 >>> 7 != 0) b7
      ∧ inv (b7 >>> 7 != 0) b7 &&& ~~~low 8 = 0) (by decide +kernel) b7
  revert ht7
  generalize hs : (b7 >>> 7 != 0) = s
  intro ht7
  have hsg : signOf true (view e xs) = s := by rw [hx]; exact hs
  have hi : ∀ b, inverted s b = inv s b := inverted_eq s
  have hys : (view e xs).map (inverted s) = [inv s b0, inv s b1, inv s b2, inv s b3, inv s b4, inv s b5, inv s b6, inv s b7] := by
    rw [hx]; simp [hi]
  have hii : ∀ b, inv s (inv s b) = b := by intro b; cases s <;> simp [inv]
  refine ⟨_, write_signed e xs h0 (by omega) s hsg _ hys 7 (by omega) (fun i hi => by
    rw [List.getD_eq_getElem?_getD, List.getElem?_eq_none (by simp only [List.length_cons, List.length_nil]; omega)]; rfl), ?_⟩
  intro e' rest
  have hd := decode64 s (inv s b0) (inv s b1) (inv s b2) (inv s b3) (inv s b4) (inv s b5) (inv s b6) (inv s b7) rest ht7.1 ht7.2
  have hq : ∀ y : UInt8, y >>> 1 &&& low 8 = y >>> 1 := forall_byte (by decide +kernel)
  have ht : (inv s b7 ||| inv s b6 >>> 1) &&& (0x7f : UInt8) = inv s b7 ||| inv s b6 >>> 1 := by
    rw [show (0x7f : UInt8) = low 8 by decide, or_and_byte, ht7.1, hq]
  have := readVar_signed e e' xs _ rest _ h0 s (head_sign s ([inv s b0, inv s b1, inv s b2, inv s b3, inv s b4, inv s b5,
    inv s b6, inv s b7].take (maxIdx [inv s b0, inv s b1, inv s b2, inv s b3, inv s b4, inv s b5, inv s b6, inv s b7] 7 + 1))
    rest (by simp)) (by rw [h8]; exact hd)
    (by rw [h8]; simp [ht])
  rw [h8] at this
  rw [h8, this]
  congr 3
  cases s
  · rfl
  · simp [inv]

/-- A signed 64 bit number is read back exactly when byte 6 is the sign only. -/
theorem C75_signed64_roundtrip_iff (e : Endian) (xs : List UInt8) (b0 b1 b2 b3 b4 b5 b6 b7 : UInt8)
    (hx : view e xs = [b0, b1, b2, b3, b4, b5, b6, b7]) (rest : List UInt8) :
    ((writeVar e true xs).bind (fun out => readVar e true 8 (out ++ rest)) = some (xs, rest))
      ↔ b6 = if b7 &&& 0x80 = 0 then 0 else 0xff := by
  obtain ⟨out, h1, h2⟩ := C75_signed64_exact e xs b0 b1 b2 b3 b4 b5 b6 b7 hx
  rw [h1, Option.bind_some, h2]
  have hsg : (b7 >>> 7 != 0) = !decide (b7 &&& 0x80 = 0) :=
    forall_byte (P := fun b7 => (b7 >>> 7 != 0) = !decide (b7 &&& 0x80 = 0)) (by decide +kernel) b7
  have key : ∀ l, (some (view e l, rest) = some (xs, rest)) ↔ l = view e xs := by
    intro l
    constructor
    · intro h
      have : view e l = xs := congrArg Prod.fst (Option.some.inj h)
      rw [← this, view_view]
    · rintro rfl; rw [view_view]
  rw [key, hx]
  simp only [List.cons.injEq, true_and, and_true]
  rw [hsg]
  constructor
  · rintro ⟨h6, _⟩
    rw [← h6]
    by_cases h : b7 &&& 0x80 = 0 <;> simp [h, inv, show (-1 : UInt8) = 255 by decide]
  · intro h6
    by_cases h : b7 &&& 0x80 = 0
    · rw [if_pos h] at h6
      simp [h, inv, h6]
    · rw [if_neg h] at h6
      simp [h, inv, h6, show (-1 : UInt8) = 255 by decide, show ~~~(255 : UInt8) >>> 1 = 0 by decide]

/-! ## Numbers of a fixed length -/

/-- The order of the bytes in memory before and after, and the one in the stream, may be anything. -/
theorem C75_fixed (e s e' : Endian) (xs : List UInt8) (h64 : xs.length ≤ 64) :
    ∃ out, writeFixed e s xs = some out ∧ out.length = xs.length ∧ view s out = view e xs ∧
      ∀ rest, readFixed e' s xs.length (out ++ rest) = some (view e' (view e xs), rest) := by
  cases e <;> cases s <;> cases e' <;>
    simp [writeFixed, readFixed, Endian.low, view, h64]

/-- Numbers of up to six bytes are read back, however they are written. -/
theorem C75_integer_partial (e s e' : Endian) (xs : List UInt8) (signed fixed : Bool) (prefer : Nat) (h0 : xs ≠ [])
    (h6 : xs.length ≤ 6 ∨ (xs.length ≤ 64 ∧ signed = false ∧ value (view e xs) < 2 ^ 56) ∨
      (xs.length ≤ 64 ∧ signed = true ∧ -2 ^ 48 ≤ signedValue (view e xs) ∧ signedValue (view e xs) < 2 ^ 48) ∨
      (xs.length ≤ 64 ∧ fixed = true ∧ xs.length < prefer)) :
    ∃ out, writeInt e xs signed fixed prefer s = some out ∧
      ∀ rest, readInt e' xs.length signed fixed prefer s (out ++ rest) = some (view e' (view e xs), rest) := by
  unfold writeInt readInt
  have h64 : xs.length ≤ 64 := by omega
  by_cases hp : prefer ≤ xs.length ∨ fixed = false
  · simp only [if_pos hp]
    have hlt := value_lt (view e xs)
    rw [view_length] at hlt
    have hp6 : xs.length ≤ 6 → (256 : Nat) ^ xs.length ≤ 256 ^ 6 := fun h => Nat.pow_le_pow_right (by omega) h
    have hp8 : (256 : Nat) ^ xs.length = 2 ^ (8 * xs.length) := by
      rw [show (256 : Nat) = 2 ^ 8 by rfl, ← Nat.pow_mul]
    have hn : 0 < xs.length := List.length_pos_iff.2 h0
    cases signed
    · obtain ⟨out, h1, h2⟩ := C75_unsigned_partial e xs h0 h64 (by
        rcases h6 with h | h | h | h
        · have := hp6 h
          have c6 : (256 : Nat) ^ 6 < 2 ^ 56 := by decide
          omega
        · exact h.2.2
        · exact absurd h.2.1 (by simp)
        · rcases hp with hp | hp
          · omega
          · rw [hp] at h; simp at h)
      exact ⟨out, h1, fun rest => h2 e' rest⟩
    · obtain ⟨out, h1, h2⟩ := C75_signed_partial e xs h0 h64 (by
        rcases h6 with h | h | h | h
        · have := hp6 h
          have c6 : (256 : Nat) ^ 6 = 2 ^ 48 := by decide
          unfold signedValue
          rw [view_length]
          have h3 : ((2 : Int) ^ (8 * xs.length)) = ((2 ^ (8 * xs.length) : Nat) : Int) := by push_cast; rfl
          rw [h3]
          have h4 : (2 : Int) ^ 48 = ((2 ^ 48 : Nat) : Int) := by decide +kernel
          rw [h4]
          split <;> constructor <;> omega
        · exact absurd h.2.1 (by simp)
        · exact h.2.2
        · rcases hp with hp | hp
          · omega
          · rw [hp] at h; simp at h)
      exact ⟨out, h1, fun rest => h2 e' rest⟩
  · simp only [if_neg hp]
    obtain ⟨out, h1, _, _, h2⟩ := C75_fixed e s e' xs h64
    exact ⟨out, h1, h2⟩

/-- A number below `2 ^ (7 * m)` takes up to `m` bytes. -/
theorem C75_compact (e : Endian) (xs out : List UInt8) (m : Nat) (hm : 1 ≤ m ∧ m ≤ 7) (hv : value (view e xs) < 2 ^ (7 * m))
    (hw : writeVar e false xs = some out) : out.length ≤ m := by
  have h0 : xs ≠ [] ∧ xs.length ≤ 64 := by
    unfold writeVar at hw
    by_cases h : xs = [] ∨ 64 < xs.length
    · rw [if_pos h] at hw; exact absurd hw (by simp)
    · exact ⟨fun h' => h (Or.inl h'), by omega⟩
  have hp8 : (256 : Nat) ^ m = 2 ^ (8 * m) := by rw [show (256 : Nat) = 2 ^ 8 by rfl, ← Nat.pow_mul]
  have hz := value_small (view e xs) m (Nat.lt_of_lt_of_le hv (by
    rw [hp8]; exact Nat.pow_le_pow_right (by omega) (by omega)))
  rw [write_unsigned e xs h0.1 h0.2 6 (by omega) (fun i hi => hz i (by omega))] at hw
  rw [← Option.some.inj hw]
  have hn : 0 < xs.length := List.length_pos_iff.2 h0.1
  have hb := maxIdx_bound (view e xs) (m - 1) (fun i hi => hz i (by omega)) (xs.length - 1)
  have hle := maxIdx_le (view e xs) (xs.length - 1)
  have hk := kept_zeros (view e xs) (fun h => by have := view_length e xs; rw [h] at this; simp at this; omega)
  rw [view_length] at hk
  revert hb hle hk
  generalize hM : maxIdx (view e xs) (xs.length - 1) = M
  intro hb hle hk
  have hlen : ((view e xs).take (M + 1)).length = M + 1 := by rw [List.length_take, view_length]; omega
  revert hlen hk
  generalize (view e xs).take (M + 1) = zs
  intro hk hlen
  have hne : zs ≠ [] := by intro h; rw [h] at hlen; simp at hlen
  obtain ⟨ini, x, rfl⟩ : ∃ ini x, zs = ini ++ [x] := ⟨zs.dropLast, zs.getLast hne, (List.dropLast_concat_getLast hne).symm⟩
  have hil : ini.length = M := by simpa using hlen
  rw [encode_length_last, Nat.zero_add]
  by_cases hMm : M = m - 1
  · rw [← hk, List.append_assoc, value_append, hil] at hv
    have hx : x.toNat < 2 ^ (8 - m) := by
      have e1 : 2 ^ (7 * m) = 256 ^ M * 2 ^ (8 - m) := by
        rw [show (256 : Nat) = 2 ^ 8 by rfl, ← Nat.pow_mul, ← Nat.pow_add]; congr 1; omega
      rw [e1] at hv
      have h3 : 256 ^ M * x.toNat < 256 ^ M * 2 ^ (8 - m) := by
        refine Nat.lt_of_le_of_lt (Nat.mul_le_mul_left _ ?_) (Nat.lt_of_le_of_lt (Nat.le_add_left _ _) hv)
        simp only [List.cons_append, List.nil_append, value]
        omega
      exact Nat.lt_of_mul_lt_mul_left h3
    have : x &&& ~~~low (m - 1) = 0 := by
      have hd : ∀ m : Fin 8, ∀ x : UInt8, 1 ≤ m.val → x.toNat < 2 ^ (8 - m.val) → x &&& ~~~low (m.val - 1) = 0 :=
        fun m => forall_byte (by revert m; decide +kernel)
      exact hd ⟨m, by omega⟩ x hm.1 hx
    rw [if_neg (by rw [hil, hMm]; exact fun h => h this)]
    omega
  · split <;> omega

/-! ## Numbers that are not read back -/

/-- The unsigned 64 bit number `2 ^ 56` is read as `2 ^ 64 - 1`. -/
theorem C75_unsigned64_refuted :
    (writeVar .native false [0, 0, 0, 0, 0, 0, 0, 1]).bind (readVar .native false 8)
      = some ([0xff, 0xff, 0xff, 0xff, 0xff, 0xff, 0xff, 0xff], []) := by decide +kernel

/-- The signed 64 bit number `2 ^ 48` is read as zero. -/
theorem C75_signed64_refuted :
    (writeVar .native true [0, 0, 0, 0, 0, 0, 1, 0]).bind (readVar .native true 8)
      = some ([0, 0, 0, 0, 0, 0, 0, 0], []) := by decide +kernel

/-- A number of 64 bytes may need a byte more than the buffer has. -/
theorem C75_buffer_refuted : writeVar .native false (List.replicate 64 0xff) = none := by decide +kernel

/-! ## Cases that meet the hypotheses -/

/-- Minus two in 32 bits, stored from the highest byte, with another number after it. -/
example : signedValue (view .big [0xff, 0xff, 0xff, 0xfe]) = -2 ∧
    writeVar .big true [0xff, 0xff, 0xff, 0xfe] = some [0x41] ∧
    readVar .little true 4 [0x41, 7] = some ([0xfe, 0xff, 0xff, 0xff], [7]) := by decide +kernel

example : value (view .native [0xff, 0xff, 0, 0]) = 65535 ∧ writeVar .native false [0xff, 0xff, 0, 0] = some [0xff, 0xff, 0x60]
    ∧ readVar .native false 4 [0xff, 0xff, 0x60] = some ([0xff, 0xff, 0, 0], []) := by decide +kernel

example : writeVar .native false [200, 0, 0, 0, 0, 0, 0, 0] = some [0xc8, 0x40] := by decide +kernel

example : writeFixed .native .big [1, 2, 3] = some [3, 2, 1] := by decide +kernel

end Verif.VarInt

#print axioms Verif.VarInt.C75_unsigned_partial
#print axioms Verif.VarInt.C75_signed_partial
#print axioms Verif.VarInt.C75_unsigned64_exact
#print axioms Verif.VarInt.C75_signed64_exact
#print axioms Verif.VarInt.C75_signed64_roundtrip_iff
#print axioms Verif.VarInt.C75_integer_partial
#print axioms Verif.VarInt.C75_compact
