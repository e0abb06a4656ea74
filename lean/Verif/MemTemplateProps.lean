import Verif.MemTemplateLemmas
import Verif.DataProps
/-!
# C90: wrapping reads and writes of typed values
-/
namespace Verif.MemTemplate
open Verif.Data Spec

/-! ## Reading -/

theorem swap_ring (vs : Nat) (mem : List Cell) (size off n : Nat) (hv : 0 < vs) (buf : List Cell) (hb : n * vs ≤ buf.length) (j : Nat)
    (hj : j < n * vs) : (pour (swapIx vs) (fun i => mem.getD ((off + i) % size) none) (n * vs) 0 buf)[j]? =
      some (mem.getD ((off + swapIx vs j) % size) none) := by
  have hi := swapIx_lt vs n j hv hj
  have := pour_last (swapIx vs) (fun i => mem.getD ((off + i) % size) none) (n * vs) 0 buf (swapIx vs j) (by omega) (by omega)
    (by rw [swapIx_swapIx _ _ hv]; omega) (fun k h1 h2 he => by
      have := congrArg (swapIx vs) he
      rw [swapIx_swapIx _ _ hv, swapIx_swapIx _ _ hv] at this
      omega)
  rwa [swapIx_swapIx _ _ hv] at this

/-- **C90, read**: the first `count` bytes of the buffer become those of the ring from `off` on, and its others stay. -/
theorem C90_read_partial (vs : Nat) (mem : List Cell) (size off count : Nat) (buf : List Cell) (hs : 0 < size)
    (hm : size ≤ mem.length) (hb : count ≤ buf.length) (hw : off + count ≤ 2 ^ 64) :
    read vs mem size off count buf = some (ring mem size off count ++ buf.drop count) := by
  unfold read
  rw [readLoop_eq _ _ _ _ hs hm _ _ _ (by unfold word; omega) (fun i _ h => by rw [plainIx_eq]; omega)]
  congr 1
  apply List.ext_getElem?
  intro j
  by_cases hj : j < count
  · rw [List.getElem?_append_left (by rw [ring_length]; exact hj), ring_get _ _ _ _ _ hj]
    have := pour_last (plainIx vs) (fun i => mem.getD ((off + i) % size) none) count 0 buf j (by omega) (by omega)
      (by rw [plainIx_eq]; omega) (fun k h1 h2 => by rw [plainIx_eq, plainIx_eq]; omega)
    rwa [plainIx_eq] at this
  · rw [pour_other _ _ _ _ _ _ (fun i h1 h2 => by rw [plainIx_eq]; omega), List.getElem?_append_right (by rw [ring_length]; omega),
      ring_length, List.getElem?_drop]
    congr 1
    omega

/-- **C90, read swapped**: as a read, with the bytes of every value in reverse, for whole values. -/
theorem C90_read_swap_partial (vs : Nat) (mem : List Cell) (size off n : Nat) (buf : List Cell) (hv : 0 < vs) (hs : 0 < size)
    (hm : size ≤ mem.length) (hb : n * vs ≤ buf.length) (hw : off + n * vs ≤ 2 ^ 64) :
    ∃ new, readSwap vs mem size off (n * vs) buf = some (new ++ buf.drop (n * vs)) ∧ Swapped vs (ring mem size off (n * vs)) new := by
  unfold readSwap
  rw [readLoop_eq _ _ _ _ hs hm _ _ _ (by unfold word; omega) (fun i _ h => by have := swapIx_lt vs n i hv (by omega); omega)]
  have hlen : ((pour (swapIx vs) (fun i => mem.getD ((off + i) % size) none) (n * vs) 0 buf).take (n * vs)).length = n * vs := by
    rw [List.length_take, pour_length]; omega
  refine ⟨(pour (swapIx vs) (fun i => mem.getD ((off + i) % size) none) (n * vs) 0 buf).take (n * vs), ?_, ?_, ?_⟩
  · congr 1
    apply List.ext_getElem?
    intro j
    by_cases hj : j < n * vs
    · rw [List.getElem?_append_left (by rw [hlen]; exact hj), List.getElem?_take, if_pos hj]
    · rw [List.getElem?_append_right (by rw [hlen]; omega), hlen, List.getElem?_drop,
        pour_other _ _ _ _ _ _ (fun i h1 h2 => by have := swapIx_lt vs n i hv (by omega); omega)]
      congr 1
      omega
  · rw [hlen, ring_length]
  · intro k
    have hring : (value vs (ring mem size off (n * vs)) k).length = min vs (n * vs - k * vs) := by
      unfold value; rw [List.length_take, List.length_drop, ring_length]
    by_cases hk : k < n
    · have hfit : (k + 1) * vs ≤ n * vs := Nat.mul_le_mul_right _ hk
      rw [Nat.succ_mul] at hfit
      apply List.ext_getElem?
      intro j
      by_cases hj : j < vs
      · rw [value_get, if_pos hj, List.getElem?_take, if_pos (by omega), swap_ring _ _ _ _ _ hv _ hb _ (by omega),
          List.getElem?_reverse (by rw [hring]; omega), hring, value_get, if_pos (by omega), ring_get _ _ _ _ _ (by omega), swapIx_mul _ _ _ hj]
        congr 4
        omega
      · rw [value_get, if_neg hj, List.getElem?_eq_none (by rw [List.length_reverse, hring]; omega)]
    · have hle : n * vs ≤ k * vs := Nat.mul_le_mul_right _ (by omega)
      have h1 : value vs (ring mem size off (n * vs)) k = [] := by
        apply List.eq_nil_of_length_eq_zero; rw [hring]; omega
      rw [h1, List.reverse_nil]
      apply List.eq_nil_of_length_eq_zero
      unfold value
      rw [List.length_take, List.length_drop, hlen]
      omega

/-! ## Writing -/

theorem mod_ne (size a b : Nat) (h1 : a < b) (h2 : b < a + size) : b % size ≠ a % size := by
  intro h
  have h3 := Nat.sub_mod_eq_zero_of_mod_eq h
  have h4 : b - a < size := by omega
  rw [Nat.mod_eq_of_lt h4] at h3
  omega

theorem pour_put (size off n : Nat) (mem src : List Cell) (g : Nat → Cell) (hs : 0 < size) (hm : size ≤ mem.length) (hn : src.length = n)
    (hg : ∀ i, i < n → src[i]? = some (g i)) : Put mem (pour (fun i => (off + i) % size) g n 0 mem) size off src := by
  refine ⟨pour_length _ _ _ _ _, fun i h1 h2 => ?_, fun j hj => ?_⟩
  · rw [hn] at h1 h2
    rw [hg i h1]
    exact pour_last (fun i => (off + i) % size) g n 0 mem i (by omega) (by omega) (Nat.lt_of_lt_of_le (Nat.mod_lt _ hs) hm)
      (fun k h3 h4 => mod_ne _ _ _ (by omega) (by omega))
  · exact pour_other _ _ _ _ _ _ (fun i _ h => hj i (by omega))

/-- **C90, write**: the `count` first bytes of the buffer are put into the ring at `off`, and no other byte changes. -/
theorem C90_write_partial (vs : Nat) (mem : List Cell) (size off count : Nat) (buf : List Cell) (hs : 0 < size)
    (hm : size ≤ mem.length) (hb : count ≤ buf.length) (hw : off + count ≤ 2 ^ 64) :
    ∃ mem', write vs mem size off count buf = some mem' ∧ Put mem mem' size off (buf.take count) := by
  unfold write
  rw [writeLoop_eq _ _ _ _ hs _ _ _ hm (by unfold word; omega) (fun i _ h => by rw [plainIx_eq]; omega)]
  refine ⟨_, rfl, pour_put _ _ _ _ _ _ hs hm (by rw [List.length_take]; omega) (fun i hi => ?_)⟩
  rw [List.getElem?_take, if_pos hi, plainIx_eq, List.getD_eq_getElem?_getD, List.getElem?_eq_getElem (by omega), Option.getD_some]

/-- **C90, write swapped**: as a write of the values with their bytes in reverse. -/
theorem C90_write_swap_partial (vs : Nat) (mem : List Cell) (size off n : Nat) (buf : List Cell) (hv : 0 < vs) (hs : 0 < size)
    (hm : size ≤ mem.length) (hb : n * vs ≤ buf.length) (hw : off + n * vs ≤ 2 ^ 64) :
    ∃ mem' new, writeSwap vs mem size off (n * vs) buf = some mem' ∧ Swapped vs (buf.take (n * vs)) new ∧ Put mem mem' size off new := by
  have hix : ∀ i, 0 ≤ i → i < 0 + n * vs → swapIx vs i < buf.length := fun i _ h => by
    have := swapIx_lt vs n i hv (by omega); omega
  unfold writeSwap
  rw [writeLoop_eq _ _ _ _ hs _ _ _ hm (by unfold word; omega) hix]
  refine ⟨_, (List.range (n * vs)).map fun i => buf.getD (swapIx vs i) none, rfl, ⟨by simp; omega, fun k => ?_⟩,
    pour_put _ _ _ _ _ _ hs hm (by simp) (fun i hi => by simp [hi])⟩
  have hring : (value vs (buf.take (n * vs)) k).length = min vs (n * vs - k * vs) := by
    unfold value; rw [List.length_take, List.length_drop, List.length_take]; omega
  by_cases hk : k < n
  · have hfit : (k + 1) * vs ≤ n * vs := Nat.mul_le_mul_right _ hk
    rw [Nat.succ_mul] at hfit
    apply List.ext_getElem?
    intro j
    by_cases hj : j < vs
    · rw [value_get, if_pos hj, List.getElem?_map, List.getElem?_range (by omega), Option.map_some, swapIx_mul _ _ _ hj,
        List.getElem?_reverse (by rw [hring]; omega), hring, value_get, if_pos (by omega), List.getElem?_take, if_pos (by omega),
        List.getD_eq_getElem?_getD, List.getElem?_eq_getElem (by omega), Option.getD_some, ← List.getElem?_eq_getElem]
      congr 1
      omega
    · rw [value_get, if_neg hj, List.getElem?_eq_none (by rw [List.length_reverse, hring]; omega)]
  · have hle : n * vs ≤ k * vs := Nat.mul_le_mul_right _ (by omega)
    have h1 : value vs (buf.take (n * vs)) k = [] := by
      apply List.eq_nil_of_length_eq_zero; rw [hring]; omega
    rw [h1, List.reverse_nil]
    apply List.eq_nil_of_length_eq_zero
    unfold value
    rw [List.length_take, List.length_drop, List.length_map, List.length_range]
    omega

/-! ## Reading back -/

theorem ring_put (mem mem' : List Cell) (size off : Nat) (new : List Cell) (hs : 0 < size) (hm : size ≤ mem.length) (hn : new.length ≤ size)
    (h : Put mem mem' size off new) : ring mem' size off new.length = new := by
  apply List.ext_getElem?
  intro i
  by_cases hi : i < new.length
  · have hlt : (off + i) % size < mem'.length := by rw [h.1]; exact Nat.lt_of_lt_of_le (Nat.mod_lt _ hs) hm
    rw [ring_get _ _ _ _ _ hi, ← h.2.1 i hi (by omega), List.getD_eq_getElem?_getD, List.getElem?_eq_getElem hlt, Option.getD_some]
  · rw [List.getElem?_eq_none (by rw [ring_length]; omega), List.getElem?_eq_none (by omega)]

theorem Swapped.unique {vs : Nat} (hv : 0 < vs) {a b c : List Cell} (h1 : Swapped vs a b) (h2 : Swapped vs a c) : b = c := by
  apply List.ext_getElem?
  intro i
  obtain ⟨h3, h4⟩ := split vs i hv
  have hb := value_get vs b (i / vs) (i % vs)
  have hc := value_get vs c (i / vs) (i % vs)
  rw [if_pos h4, ← h3] at hb hc
  rw [← hb, ← hc, h1.2, h2.2]

theorem Swapped.symm {vs : Nat} {a b : List Cell} (h : Swapped vs a b) : Swapped vs b a :=
  ⟨h.1.symm, fun k => by rw [h.2 k, List.reverse_reverse]⟩

/-- **C90, reading back**: what was written to a ring that it fits in is what is read from there. -/
theorem C90_write_read (vs : Nat) (mem : List Cell) (size off : Nat) (buf out : List Cell) (hs : 0 < size)
    (hm : size ≤ mem.length) (hb : buf.length ≤ size) (ho : out.length = buf.length) (hw : off + buf.length ≤ 2 ^ 64) :
    ∃ mem', write vs mem size off buf.length buf = some mem' ∧ read vs mem' size off buf.length out = some buf := by
  obtain ⟨mem', h1, h2⟩ := C90_write_partial vs mem size off buf.length buf hs hm (Nat.le_refl _) hw
  refine ⟨mem', h1, ?_⟩
  rw [List.take_length] at h2
  rw [C90_read_partial vs mem' size off buf.length out hs (by rw [h2.1]; exact hm) (by omega) hw, ring_put _ _ _ _ _ hs hm hb h2, ← ho, List.drop_length,
    List.append_nil]

/-- **C90, reading back swapped values**. -/
theorem C90_write_read_swap (vs : Nat) (mem : List Cell) (size off n : Nat) (buf out : List Cell) (hv : 0 < vs) (hs : 0 < size)
    (hm : size ≤ mem.length) (hn : buf.length = n * vs) (hb : buf.length ≤ size) (ho : out.length = buf.length) (hw : off + buf.length ≤ 2 ^ 64) :
    ∃ mem', writeSwap vs mem size off (n * vs) buf = some mem' ∧ readSwap vs mem' size off (n * vs) out = some buf := by
  obtain ⟨mem', new, h1, h2, h3⟩ := C90_write_swap_partial vs mem size off n buf hv hs hm (by omega) (by omega)
  rw [List.take_of_length_le (by omega)] at h2
  obtain ⟨new', h4, h5⟩ := C90_read_swap_partial vs mem' size off n out hv hs (by rw [h3.1]; exact hm) (by omega) (by omega)
  have h6 : new.length = n * vs := by rw [h2.1, hn]
  have h7 := ring_put _ _ _ _ _ hs hm (by omega) h3
  rw [h6] at h7
  rw [h7] at h5
  refine ⟨mem', h1, ?_⟩
  rw [h4, Swapped.unique hv h5 (Swapped.symm h2), ← hn, ← ho, List.drop_length, List.append_nil]

/-! ## Byte order -/

theorem foldl_big (l : List UInt8) (n : Nat) : l.foldl (fun n b => 256 * n + b.toNat) n = n * 256 ^ l.length + big l := by
  unfold big
  induction l generalizing n with
  | nil => simp
  | cons b l ih =>
    rw [List.foldl_cons, ih, List.foldl_cons, ih (256 * 0 + b.toNat), List.length_cons, Nat.pow_succ, Nat.mul_zero, Nat.zero_add, Nat.add_mul,
      Nat.mul_comm 256 n, Nat.mul_assoc, Nat.mul_comm 256 (256 ^ _), Nat.add_assoc]

theorem big_append (a b : List UInt8) : big (a ++ b) = big a * 256 ^ b.length + big b := by
  conv => lhs; unfold big
  rw [List.foldl_append, foldl_big]
  rfl

theorem little_reverse (l : List UInt8) : little l.reverse = big l ∧ big l.reverse = little l := by
  have key : ∀ l : List UInt8, big l.reverse = little l := by
    intro l
    induction l with
    | nil => rfl
    | cons b l ih =>
      rw [List.reverse_cons, big_append, ih, little]
      have : big [b] = b.toNat := by simp [big]
      rw [this, List.length_singleton, Nat.pow_one]
      omega
  refine ⟨?_, key l⟩
  have := key l.reverse
  rw [List.reverse_reverse] at this
  exact this.symm

/-- The machine sees in every value of `new` the number with the bytes of that value of `a`, in the order given by `order`. -/
def Sees (bigEndian : Bool) (order : List UInt8 → Nat) (vs : Nat) (a new : List Cell) : Prop :=
  ∀ k bs, value vs a k = bs.map some → ∃ bs', value vs new k = bs'.map some ∧ host bigEndian bs' = order bs

theorem Sees.plain (e : Bool) (vs : Nat) (a : List Cell) : Sees e (host e) vs a a := fun _ bs h => ⟨bs, h, rfl⟩

theorem Sees.swapped {vs : Nat} {a b : List Cell} (h : Swapped vs a b) (e : Bool) : Sees e (host (!e)) vs a b := by
  intro k bs hk
  refine ⟨bs.reverse, by rw [h.2 k, hk, List.map_reverse], ?_⟩
  cases e
  · exact (little_reverse bs).1
  · exact (little_reverse bs).2

/-- **C90, byte order of reads**: on every machine the numbers read by `CCMemoryReadBig` are those whose bytes are in memory with the highest first,
and the numbers read by `CCMemoryReadLittle` those with the lowest first. -/
theorem C90_read_order_partial (e : Bool) (vs : Nat) (mem : List Cell) (size off n : Nat) (buf : List Cell) (hv : 0 < vs) (hs : 0 < size)
    (hm : size ≤ mem.length) (hb : n * vs ≤ buf.length) (hw : off + n * vs ≤ 2 ^ 64) :
    (∃ new, readBig e vs mem size off (n * vs) buf = some (new ++ buf.drop (n * vs)) ∧ new.length = n * vs ∧
      Sees e big vs (ring mem size off (n * vs)) new) ∧
    ∃ new, readLittle e vs mem size off (n * vs) buf = some (new ++ buf.drop (n * vs)) ∧ new.length = n * vs ∧
      Sees e little vs (ring mem size off (n * vs)) new := by
  have h1 := C90_read_partial vs mem size off (n * vs) buf hs hm hb hw
  obtain ⟨new, h2, h3⟩ := C90_read_swap_partial vs mem size off n buf hv hs hm hb hw
  have hl : new.length = n * vs := by rw [h3.1, ring_length]
  cases e
  · exact ⟨⟨new, h2, hl, Sees.swapped h3 false⟩, ⟨_, h1, ring_length _ _ _ _, Sees.plain false _ _⟩⟩
  · exact ⟨⟨_, h1, ring_length _ _ _ _, Sees.plain true _ _⟩, ⟨new, h2, hl, Sees.swapped h3 true⟩⟩

/-- **C90, byte order of writes**: the bytes put into the ring make up the numbers the machine sees in the buffer, highest first with
`CCMemoryWriteBig` and lowest first with `CCMemoryWriteLittle`. -/
theorem C90_write_order_partial (e : Bool) (vs : Nat) (mem : List Cell) (size off n : Nat) (buf : List Cell) (hv : 0 < vs) (hs : 0 < size)
    (hm : size ≤ mem.length) (hb : n * vs ≤ buf.length) (hw : off + n * vs ≤ 2 ^ 64) :
    (∃ mem' new, writeBig e vs mem size off (n * vs) buf = some mem' ∧ Put mem mem' size off new ∧ new.length = n * vs ∧
      ∀ k bs, value vs (buf.take (n * vs)) k = bs.map some → ∃ bs', value vs new k = bs'.map some ∧ big bs' = host e bs) ∧
    ∃ mem' new, writeLittle e vs mem size off (n * vs) buf = some mem' ∧ Put mem mem' size off new ∧ new.length = n * vs ∧
      ∀ k bs, value vs (buf.take (n * vs)) k = bs.map some → ∃ bs', value vs new k = bs'.map some ∧ little bs' = host e bs := by
  obtain ⟨m1, h1, h2⟩ := C90_write_partial vs mem size off (n * vs) buf hs hm hb hw
  obtain ⟨m2, new, h3, h4, h5⟩ := C90_write_swap_partial vs mem size off n buf hv hs hm hb hw
  have hl : (buf.take (n * vs)).length = n * vs := by rw [List.length_take]; omega
  have hl' : new.length = n * vs := by rw [h4.1, hl]
  cases e
  · refine ⟨⟨m2, new, h3, h5, hl', fun k bs hk => ⟨bs.reverse, by rw [h4.2 k, hk, List.map_reverse], (little_reverse bs).2⟩⟩,
      ⟨m1, _, h1, h2, hl, fun k bs hk => ⟨bs, hk, rfl⟩⟩⟩
  · refine ⟨⟨m1, _, h1, h2, hl, fun k bs hk => ⟨bs, hk, rfl⟩⟩,
      ⟨m2, new, h3, h5, hl', fun k bs hk => ⟨bs.reverse, by rw [h4.2 k, hk, List.map_reverse], (little_reverse bs).1⟩⟩⟩

/-! ## What goes wrong -/

/-- **C90, whole values only**: a swapped read or write of `count` bytes, part of a value, accesses the whole of that value of the buffer: it is
out of bounds if the buffer has `count` bytes only. -/
theorem C90_swap_overrun (vs : Nat) (mem : List Cell) (size off count : Nat) (buf : List Cell) (hv : 0 < vs) (hb : buf.length = count)
    (hp : count % vs ≠ 0) : readSwap vs mem size off count buf = none ∧ writeSwap vs mem size off count buf = none := by
  have hc := Nat.div_add_mod count vs
  have hlt := Nat.mod_lt count hv
  have h1 : swapIx vs (count / vs * vs + 0) = count / vs * vs + (vs - 1 - 0) := swapIx_mul vs (count / vs) 0 hv
  rw [Nat.mul_comm] at hc
  constructor
  · cases h : readSwap vs mem size off count buf with
    | none => rfl
    | some b =>
      have := readLoop_some _ _ _ _ _ _ _ _ h (count / vs * vs + 0) (by omega) (by omega)
      omega
  · cases h : writeSwap vs mem size off count buf with
    | none => rfl
    | some b =>
      have := writeLoop_some _ _ _ _ _ _ _ _ h (count / vs * vs + 0) (by omega) (by omega)
      omega

/-- **C90 refuted for the highest offsets**: `Offset + Loop` wraps around at `2^64`, so that a ring whose size is not a power of two is left: the two
bytes read at `2^64 - 1` from a ring of three are both the first. -/
theorem C90_offset_refuted : read 1 [some 10, some 11, some 12] 3 (2 ^ 64 - 1) 2 [none, none] = some [some 10, some 10] ∧
    ring [some 10, some 11, some 12] 3 (2 ^ 64 - 1) 2 = [some 10, some 11] := by decide +kernel

/-! ## Data objects -/

variable {σ : Type} {I : Interface σ} {bytes : σ → List Cell} {Inv : σ → Prop} {R : Access → Nat → Nat → Prop}

theorem sub_offset (off b : Nat) (h1 : off < word) (h2 : b ≤ off) : (off + (word - b)) % word = off - b := by
  have h : off + (word - b) = (off - b) + word := by omega
  rw [h, Nat.add_mod_right, Nat.mod_eq_of_lt (by omega)]

theorem ring_base (mem : List Cell) (size off count : Nat) (hs : 0 < size) (h : off % size + count < size) :
    ring (range mem (off % size) (size - off % size)) size (off - off % size) count = ring mem size off count := by
  unfold ring
  apply List.map_congr_left
  intro i hi
  have hi := List.mem_range.1 hi
  have h1 := Nat.div_add_mod off size
  have h2 : (off - off % size + i) % size = i := by
    have : off - off % size + i = size * (off / size) + i := by omega
    rw [this, Nat.mul_add_mod, Nat.mod_eq_of_lt (by omega)]
  have h3 : (off + i) % size = off % size + i := by
    have : off + i = size * (off / size) + (off % size + i) := by omega
    rw [this, Nat.mul_add_mod, Nat.mod_eq_of_lt (by omega)]
  rw [h2, h3, List.getD_eq_getElem?_getD, List.getD_eq_getElem?_getD, range_get, if_pos (by omega)]

/-- One of the four reads of values of `vs` bytes. -/
def IsRead (vs : Nat) (rd : List Cell → Nat → Nat → Nat → List Cell → Option (List Cell)) : Prop :=
  rd = read vs ∨ rd = readSwap vs ∨ (∃ e, rd = readBig e vs) ∨ ∃ e, rd = readLittle e vs

/-- One of the four writes of values of `vs` bytes. -/
def IsWrite (vs : Nat) (wr : List Cell → Nat → Nat → Nat → List Cell → Option (List Cell)) : Prop :=
  wr = write vs ∨ wr = writeSwap vs ∨ (∃ e, wr = writeBig e vs) ∨ ∃ e, wr = writeLittle e vs

theorem IsRead.ix {vs : Nat} {rd : List Cell → Nat → Nat → Nat → List Cell → Option (List Cell)} (h : IsRead vs rd) (hv : 0 < vs) :
    ∃ ix, (∀ n i, i < n * vs → ix i < n * vs) ∧ ∀ mem size off count buf, rd mem size off count buf = readLoop ix mem size off count 0 buf := by
  have hp : ∀ n i, i < n * vs → plainIx vs i < n * vs := fun n i h => by rw [plainIx_eq]; exact h
  have hq : ∀ n i, i < n * vs → swapIx vs i < n * vs := fun n i h => swapIx_lt vs n i hv h
  rcases h with rfl | rfl | ⟨e, rfl⟩ | ⟨e, rfl⟩
  · exact ⟨_, hp, fun _ _ _ _ _ => rfl⟩
  · exact ⟨_, hq, fun _ _ _ _ _ => rfl⟩
  · cases e
    · exact ⟨_, hq, fun _ _ _ _ _ => rfl⟩
    · exact ⟨_, hp, fun _ _ _ _ _ => rfl⟩
  · cases e
    · exact ⟨_, hp, fun _ _ _ _ _ => rfl⟩
    · exact ⟨_, hq, fun _ _ _ _ _ => rfl⟩

theorem IsWrite.ix {vs : Nat} {wr : List Cell → Nat → Nat → Nat → List Cell → Option (List Cell)} (h : IsWrite vs wr) (hv : 0 < vs) :
    ∃ ix, (∀ n i, i < n * vs → ix i < n * vs) ∧ ∀ mem size off count buf, wr mem size off count buf = writeLoop ix size off buf count 0 mem := by
  have hp : ∀ n i, i < n * vs → plainIx vs i < n * vs := fun n i h => by rw [plainIx_eq]; exact h
  have hq : ∀ n i, i < n * vs → swapIx vs i < n * vs := fun n i h => swapIx_lt vs n i hv h
  rcases h with rfl | rfl | ⟨e, rfl⟩ | ⟨e, rfl⟩
  · exact ⟨_, hp, fun _ _ _ _ _ => rfl⟩
  · exact ⟨_, hq, fun _ _ _ _ _ => rfl⟩
  · cases e
    · exact ⟨_, hq, fun _ _ _ _ _ => rfl⟩
    · exact ⟨_, hp, fun _ _ _ _ _ => rfl⟩
  · cases e
    · exact ⟨_, hp, fun _ _ _ _ _ => rfl⟩
    · exact ⟨_, hq, fun _ _ _ _ _ => rfl⟩

/-- Where a map begins, and that the bytes of the ring lie in it. -/
theorem map_base (size off count : Nat) (hs : 0 < size) (hw : off + count < word) :
    ∃ b n, (∀ (I : Interface σ) d a, dataMap I d size off count a = mapBuffer I d b n a) ∧ b + n = size ∧ (b = 0 ∨ b = off % size ∧ b + count < size) ∧
      b ≤ off ∧ ∀ i, i < count → (off - b + i) % size < n ∧ (off + i) % size = b + (off - b + i) % size := by
  have hle := Nat.mod_le off size
  have hlt := Nat.mod_lt off hs
  by_cases h : off % size + count ≥ size
  · refine ⟨0, size, fun I d a => ?_, by omega, .inl rfl, by omega, fun i _ => ⟨Nat.mod_lt _ hs, by simp⟩⟩
    unfold dataMap
    rw [if_neg (by omega), if_pos (by rw [Nat.mod_eq_of_lt (by omega)]; exact h)]
  · refine ⟨off % size, size - off % size, fun I d a => ?_, by omega, .inr ⟨rfl, by omega⟩, hle, fun i hi => ?_⟩
    · unfold dataMap
      rw [if_neg (by omega), if_neg (by rw [Nat.mod_eq_of_lt (by omega)]; exact h)]
    · have h1 := Nat.div_add_mod off size
      have h2 : (off - off % size + i) % size = i := by
        have : off - off % size + i = size * (off / size) + i := by omega
        rw [this, Nat.mul_add_mod, Nat.mod_eq_of_lt (by omega)]
      have h3 : (off + i) % size = off % size + i := by
        have : off + i = size * (off / size) + (off % size + i) := by omega
        rw [this, Nat.mul_add_mod, Nat.mod_eq_of_lt (by omega)]
      rw [h2, h3]
      omega

/-- The loop of a read, with the memory needed only at the bytes it loads. -/
theorem readLoop_eq' (ix : Nat → Nat) (mem : List Cell) (size off : Nat) (hs : 0 < size) (left loop : Nat) (buf : List Cell)
    (hm : ∀ i, loop ≤ i → i < loop + left → (off + i) % size < mem.length)
    (hw : off + loop + left ≤ word) (hb : ∀ i, loop ≤ i → i < loop + left → ix i < buf.length) :
    readLoop ix mem size off left loop buf = some (pour ix (fun i => mem.getD ((off + i) % size) none) left loop buf) := by
  induction left generalizing loop buf with
  | zero => rfl
  | succ n ih =>
    have hlt := hm loop (by omega) (by omega)
    have hmod : (off + loop) % word = off + loop := Nat.mod_eq_of_lt (by omega)
    rw [readLoop, if_neg (by omega)]
    simp only [Option.bind_eq_bind]
    rw [hmod]
    rw [List.getElem?_eq_getElem hlt, Option.bind_some, if_pos (hb loop (by omega) (by omega)),
      ih _ _ (fun i h1 h2 => hm i (by omega) (by omega)) (by omega) (fun i h1 h2 => by rw [List.length_set]; exact hb i (by omega) (by omega)), pour]
    congr 4
    rw [List.getD_eq_getElem?_getD, List.getElem?_eq_getElem hlt, Option.getD_some]

/-- The loop of a write, with the memory needed only at the bytes it stores. -/
theorem writeLoop_eq' (ix : Nat → Nat) (size off : Nat) (buf : List Cell) (hs : 0 < size) (left loop : Nat) (mem : List Cell)
    (hm : ∀ i, loop ≤ i → i < loop + left → (off + i) % size < mem.length)
    (hw : off + loop + left ≤ word) (hb : ∀ i, loop ≤ i → i < loop + left → ix i < buf.length) :
    writeLoop ix size off buf left loop mem = some (pour (fun i => (off + i) % size) (fun i => buf.getD (ix i) none) left loop mem) := by
  induction left generalizing loop mem with
  | zero => rfl
  | succ n ih =>
    have hlt := hm loop (by omega) (by omega)
    have hmod : (off + loop) % word = off + loop := Nat.mod_eq_of_lt (by omega)
    rw [writeLoop, if_neg (by omega)]
    simp only [Option.bind_eq_bind]
    rw [hmod]
    have hbi := hb loop (by omega) (by omega)
    rw [List.getElem?_eq_getElem hbi, Option.bind_some, if_pos hlt,
      ih _ _ (fun i h1 h2 => by rw [List.length_set]; exact hm i (by omega) (by omega)) (by omega) (fun i h1 h2 => hb i (by omega) (by omega)), pour]
    congr 4
    rw [List.getD_eq_getElem?_getD, List.getElem?_eq_getElem hbi, Option.getD_some]

/-- **C90, reading a data object**: any of the four reads from a data object whose maps are not short gives what the same read from its bytes gives,
and leaves the object as it was. -/
theorem C90_data_read_partial (L : Law I bytes Inv R) (F : Full I) {vs : Nat} {rd : List Cell → Nat → Nat → Nat → List Cell → Option (List Cell)}
    (hrd : IsRead vs rd) (hv : 0 < vs) (d : Data σ) (hi : Inv d.st) (hh : (I.hints d.st).read = true) (size off n : Nat) (buf : List Cell) (hs : 0 < size)
    (hm : size ≤ (bytes d.st).length) (hb : n * vs ≤ buf.length) (hw : off + n * vs < 2 ^ 64)
    (hR : ∀ b, b < size → R .r b (size - b)) :
    ∃ d' out, dataRead rd I d size off (n * vs) buf = some (d', out) ∧ rd (bytes d.st) size off (n * vs) buf = some out ∧
      bytes d'.st = bytes d.st ∧ Inv d'.st := by
  obtain ⟨ix, hix, hrd⟩ := hrd.ix hv
  obtain ⟨b, k, hmap, hbk, hb0, hbo, hin⟩ := map_base (σ := σ) size off (n * vs) hs hw
  have hbs : b < size := by rcases hb0 with h | ⟨h, -⟩ <;> have := Nat.mod_lt off hs <;> omega
  have hk : k = size - b := by omega
  obtain ⟨m, hm1, hm2, hm3, hm4, hm5, hm6, hm7⟩ := L.map d.st b k .r hi (by omega) (hk ▸ hR b hbs)
  have hm8 := F _ _ _ _ _ hm1
  obtain ⟨s', hu1, hu2, hu3, hu4⟩ := hm7 (m.mem.take m.size) (by rw [List.length_take]; omega) (.inr rfl)
  rw [List.take_append_drop] at hu1
  have hu4 : bytes s' = bytes d.st := hu4
  unfold dataRead
  rw [hmap, mapBuffer, if_pos ⟨by rw [L.size _ hi]; omega, fun _ => hh, fun h => by simp [Access.r] at h⟩, hm1]
  simp only [Option.bind_eq_bind, Option.bind_some]
  rw [hm2, sub_offset _ _ (by unfold word; omega) hbo, hrd,
    readLoop_eq' _ _ _ _ hs _ _ _ (fun i _ h => by have := (hin i (by omega)).1; omega) (by unfold word; omega)
      (fun i _ h => by have := hix n i (by omega); omega), Option.bind_some]
  unfold unmapBuffer
  rw [hu1]
  simp only [Option.bind_eq_bind, Option.bind_some]
  refine ⟨_, _, rfl, ?_, hu4, hu2⟩
  rw [hrd, readLoop_eq _ _ _ _ hs hm _ _ _ (by unfold word; omega) (fun i _ h => by have := hix n i (by omega); omega)]
  congr 1
  apply pour_congr
  intro i _ h
  refine ⟨rfl, ?_⟩
  obtain ⟨h1, h2⟩ := hin i (by omega)
  have h3 := congrArg (·[(off - b + i) % size]?) (hm6 rfl)
  rw [List.getElem?_take, if_pos (by omega), range_get, if_pos (by omega)] at h3
  show List.getD _ _ _ = List.getD _ _ _
  rw [List.getD_eq_getElem?_getD, List.getD_eq_getElem?_getD, h3, h2]

theorem written_set (l : List Cell) (b n k : Nat) (v : Cell) (hl : b + n ≤ l.length) (hk : k < n) :
    range (l.set (b + k) v) b n = (range l b n).set k v := by
  unfold range
  rw [List.drop_set, if_neg (by omega), Nat.add_sub_cancel_left, List.take_set]

theorem written_range (l : List Cell) (b n : Nat) (hl : b + n ≤ l.length) : written l b (range l b n) = l := by
  apply List.ext_getElem?
  intro i
  rw [written_get (by rw [range_length hl]; exact hl), range_length hl, range_get]
  split
  · next h =>
    rw [if_pos (by omega)]
    congr 1
    omega
  · rfl

theorem written_twice (l : List Cell) (b : Nat) (x y : List Cell) (hx : b + x.length ≤ l.length) (hy : x.length = y.length) :
    written (written l b x) b y = written l b y := by
  apply List.ext_getElem?
  intro i
  rw [written_get (by rw [written_length hx]; omega), written_get hx, written_get (by omega)]
  split
  · rfl
  · rw [if_neg (by omega)]

/-- Storing into a part that is then written back is storing into the whole. -/
theorem written_pour (f : Nat → Nat) (g : Nat → Cell) (b n left loop : Nat) (l : List Cell) (hl : b + n ≤ l.length)
    (hf : ∀ i, loop ≤ i → i < loop + left → f i < n) :
    written l b (pour f g left loop (range l b n)) = pour (fun i => b + f i) g left loop l := by
  induction left generalizing loop l with
  | zero => exact written_range l b n hl
  | succ k ih =>
    have h0 := hf loop (by omega) (by omega)
    rw [pour, pour, ← ih _ _ (by rw [List.length_set]; exact hl) (fun i h1 h2 => hf i (by omega) (by omega)), written_set _ _ _ _ _ hl h0]
    have hx : written l b (range (l.set (b + f loop) (g loop)) b n) = l.set (b + f loop) (g loop) := by
      rw [written_set _ _ _ _ _ hl h0]
      apply List.ext_getElem?
      intro i
      rw [written_get (by rw [List.length_set, range_length hl]; exact hl), List.length_set, range_length hl, List.getElem?_set, List.getElem?_set,
        range_length hl, range_get]
      split
      · next h =>
        by_cases he : f loop = i - b
        · rw [if_pos he, if_pos (by omega), if_pos (by omega)]
          try rw [if_pos (by omega)]
        · rw [if_neg he, if_pos (by omega), if_neg (by omega)]
          congr 1
          omega
      · rw [if_neg (by omega)]
    rw [written_set _ _ _ _ _ hl h0] at hx
    conv => rhs; rw [← hx]
    rw [written_twice]
    · rw [List.length_set, range_length hl]; exact hl
    · rw [pour_length]

/-- **C90, writing a data object made of memory**: any of the four writes does to the bytes of the object what the same write does to memory. -/
theorem C90_data_write_partial {vs : Nat} {wr : List Cell → Nat → Nat → Nat → List Cell → Option (List Cell)}
    (hwr : IsWrite vs wr) (hv : 0 < vs) (d : Data Buffer) (hh : d.st.hint.write = true) (size off n : Nat) (buf : List Cell) (hs : 0 < size)
    (hm : size ≤ d.st.mem.length) (hb : n * vs ≤ buf.length) (hw : off + n * vs < 2 ^ 64) :
    ∃ d', dataWrite wr bufferInterface d size off (n * vs) buf = some d' ∧ wr d.st.mem size off (n * vs) buf = some d'.st.mem ∧
      d'.st.hint = d.st.hint ∧ d'.mutated = true := by
  obtain ⟨ix, hix, hwr⟩ := hwr.ix hv
  obtain ⟨b, k, hmap, hbk, hb0, hbo, hin⟩ := map_base (σ := Buffer) size off (n * vs) hs hw
  have hw' : off + n * vs < word := hw
  unfold dataWrite
  rw [hmap, mapBuffer, if_pos ⟨by show b + k ≤ d.st.mem.length; omega, fun h => by simp [Access.w] at h, fun _ => hh⟩]
  simp only [bufferInterface, Option.bind_eq_bind, slice_eq (show b + k ≤ d.st.mem.length by omega), Option.bind_some]
  rw [sub_offset _ _ (by omega) hbo, hwr,
    writeLoop_eq' _ _ _ _ hs _ _ _ (fun i _ h => by rw [range_length (by omega)]; exact (hin i (by omega)).1) (by omega)
      (fun i _ h => by have := hix n i (by omega); omega), Option.bind_some]
  unfold unmapBuffer
  simp only [Access.w, if_true, Option.bind_eq_bind]
  rw [overwrite_eq (by rw [pour_length, range_length (by omega)]; omega)]
  simp only [Option.bind_some]
  refine ⟨_, rfl, ?_, rfl, rfl⟩
  rw [hwr, writeLoop_eq _ _ _ _ hs _ _ _ hm (by omega) (fun i _ h => by have := hix n i (by omega); omega),
    written_pour _ _ _ _ _ _ _ (by omega) (fun i _ h => (hin i (by omega)).1)]
  congr 1
  apply pour_congr
  intro i _ h
  exact ⟨(hin i (by omega)).2, rfl⟩

/-- **C90 refuted for writing a data object made of a container**: the map is for writing only and as long as the rest of the data, but just `Count` bytes of it are
written, so that unmapping overwrites the elements behind with uninitialised memory. -/
theorem C90_container_refuted : ∃ d, dataWrite (write 1) containerInterface (create ⟨1, [[some 1], [some 2], [some 3]], ⟨true, true⟩⟩) 3 0 1 [some 9] = some d ∧
    d.st.elems = [[some 9], [none], [none]] ∧
    write 1 [some 1, some 2, some 3] 3 0 1 [some 9] = some [some 9, some 2, some 3] := by
  refine ⟨⟨⟨1, [[some 9], [none], [none]], ⟨true, true⟩⟩, 0, true⟩, ?_, rfl, by decide +kernel⟩
  rfl

/-- Non-vacuity: two 16-bit values read across the end of a ring of five bytes, on a little endian machine, as big endian numbers. -/
example : readBig false 2 [some 1, some 2, some 3, some 4, some 5, some 99] 5 3 4 [none, none, none, none, some 7] =
    some [some 5, some 4, some 2, some 1, some 7] := by decide +kernel
example : Sees false big 2 (ring [some 1, some 2, some 3, some 4, some 5, some 99] 5 3 (2 * 2)) [some 5, some 4, some 2, some 1] := by
  obtain ⟨⟨new, h1, h2, h3⟩, -⟩ := C90_read_order_partial false 2 [some 1, some 2, some 3, some 4, some 5, some 99] 5 3 2 [none, none, none, none, some 7]
    (by decide) (by decide) (by decide) (by decide) (by decide)
  have h4 : readBig false 2 [some 1, some 2, some 3, some 4, some 5, some 99] 5 3 (2 * 2) [none, none, none, none, some 7] =
    some [some 5, some 4, some 2, some 1, some 7] := by decide +kernel
  rw [h4] at h1
  have h5 := Option.some.inj h1
  have h6 : [some 5, some 4, some 2, some 1] = new := by
    have := congrArg (List.take 4) h5
    rw [List.take_left' (by omega)] at this
    exact this
  rw [h6]; exact h3
example : ∃ mem', writeSwap 2 [some 1, some 2, some 3, some 4, some 5] 5 3 (2 * 2) [some 6, some 7, some 8, some 9] = some mem' ∧
    mem' = [some 9, some 8, some 3, some 7, some 6] := ⟨_, by decide +kernel, rfl⟩
example : ∃ d' : Data Buffer, dataWrite (writeBig false 2) bufferInterface (create ⟨[some 1, some 2, some 3, some 4, some 5], ⟨true, true⟩⟩) 5 3 (2 * 2)
    [some 6, some 7, some 8, some 9] = some d' ∧ d'.st.hint = ⟨true, true⟩ := by
  obtain ⟨d', h1, -, h2, -⟩ := C90_data_write_partial (vs := 2) (wr := writeBig false 2) (.inr (.inr (.inl ⟨_, rfl⟩))) (by decide)
    (create ⟨[some 1, some 2, some 3, some 4, some 5], ⟨true, true⟩⟩) rfl 5 3 2 [some 6, some 7, some 8, some 9] (by decide) (by decide) (by decide) (by decide)
  exact ⟨d', h1, h2⟩
example : ∃ d' out, dataRead (readSwap 2) (plainInterface 16) (create ⟨[some 1, some 2, some 3, some 4, some 5], ⟨true, true⟩⟩) 5 3 (2 * 2)
    [none, none, none, none] = some (d', out) ∧ readSwap 2 [some 1, some 2, some 3, some 4, some 5] 5 3 (2 * 2) [none, none, none, none] = some out := by
  obtain ⟨d', out, h1, h2, -⟩ := C90_data_read_partial (plain_law 16) (plain_full 16) (vs := 2) (rd := readSwap 2) (.inr (.inl rfl)) (by decide)
    (create ⟨[some 1, some 2, some 3, some 4, some 5], ⟨true, true⟩⟩) trivial rfl 5 3 2 [none, none, none, none] (by decide) (by decide) (by decide) (by decide)
    (fun _ _ => trivial)
  exact ⟨d', out, h1, h2⟩
example : readSwap 4 [some 1, some 2, some 3] 3 0 3 [none, none, none] = none :=
  (C90_swap_overrun 4 [some 1, some 2, some 3] 3 0 3 [none, none, none] (by decide) rfl (by decide)).1

#print axioms C90_read_partial
#print axioms C90_read_swap_partial
#print axioms C90_write_partial
#print axioms C90_write_swap_partial
#print axioms C90_write_read
#print axioms C90_write_read_swap
#print axioms C90_read_order_partial
#print axioms C90_write_order_partial
#print axioms C90_swap_overrun
#print axioms C90_offset_refuted
#print axioms C90_data_read_partial
#print axioms C90_data_write_partial
#print axioms C90_container_refuted

end Verif.MemTemplate
