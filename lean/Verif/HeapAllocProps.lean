import Verif.HeapAllocSpec
import Verif.ZoneProps
/-!
# C60: reallocation keeps the contents (aligned and bounds checking allocator)
-/
namespace Verif.HeapAlloc

open Verif.Zone (alignUp alignUp_spec)
open Spec

/-! ## Blocks -/

theorem write_some {B : Blk} {a : Nat} {l : List UInt8} (h1 : B.addr ≤ a) (h2 : a + l.length ≤ B.addr + B.bytes.length) :
    ∃ B', B.write a l = some B' ∧ B'.addr = B.addr ∧ B'.bytes.length = B.bytes.length ∧
      ∀ j, B'.bytes[j]? = if a - B.addr ≤ j ∧ j < a - B.addr + l.length then l[j - (a - B.addr)]? else B.bytes[j]? := by
  refine ⟨{ B with bytes := B.bytes.take (a - B.addr) ++ l ++ B.bytes.drop (a - B.addr + l.length) }, by rw [Blk.write, if_pos ⟨h1, h2⟩], rfl, ?_, ?_⟩
  · simp only [List.length_append, List.length_take, List.length_drop]; omega
  · intro j
    dsimp only
    generalize hd : a - B.addr = d
    have hle : d + l.length ≤ B.bytes.length := by omega
    rw [List.append_assoc, List.getElem?_append]
    simp only [List.length_take, Nat.min_eq_left (by omega : d ≤ B.bytes.length)]
    by_cases hj : j < d
    · rw [if_pos hj, if_neg (by omega), List.getElem?_take, if_pos hj]
    · rw [if_neg hj, List.getElem?_append]
      by_cases hj2 : j - d < l.length
      · rw [if_pos hj2, if_pos (by omega)]
      · rw [if_neg hj2, if_neg (by omega), List.getElem?_drop]
        congr 1
        omega

theorem read_some {B : Blk} {a n : Nat} (h1 : B.addr ≤ a) (h2 : a + n ≤ B.addr + B.bytes.length) :
    ∃ l, B.read a n = some l ∧ l.length = n ∧ ∀ i, i < n → l[i]? = B.bytes[a - B.addr + i]? := by
  refine ⟨_, by rw [Blk.read, if_pos ⟨h1, h2⟩], ?_, ?_⟩
  · simp only [List.length_take, List.length_drop]; omega
  · intro i hi
    rw [List.getElem?_take, if_pos hi, List.getElem?_drop]

theorem read_eq {B : Blk} {a : Nat} {l : List UInt8} (h1 : B.addr ≤ a) (h2 : a + l.length ≤ B.addr + B.bytes.length)
    (h : ∀ i, i < l.length → B.bytes[a - B.addr + i]? = l[i]?) : B.read a l.length = some l := by
  obtain ⟨m, hm, hl, hg⟩ := read_some h1 h2
  rw [hm]
  congr 1
  apply List.ext_getElem?
  intro i
  by_cases hi : i < l.length
  · rw [hg i hi, h i hi]
  · rw [List.getElem?_eq_none (by omega), List.getElem?_eq_none (by omega)]

theorem fit_length (n : Nat) (f : List UInt8) : (fit n f).length = n := by
  simp [fit]

theorem le8_length (n : Nat) : (le8 n).length = 8 := by simp [le8]

theorem ofLe8_le8 {n : Nat} (h : n < 2 ^ 64) : ofLe8 (le8 n) = n := by
  simp only [le8, show List.range 8 = [0, 1, 2, 3, 4, 5, 6, 7] from rfl, List.map_cons, List.map_nil, ofLe8, UInt8.toNat_ofNat']
  omega

theorem realloc_some {B : Blk} {n : Nat} (a : Nat) (fill : List UInt8) :
    ∃ B', realloc B B.addr n (some (a, fill)) = some (some B') ∧ B'.addr = a ∧ B'.bytes.length = n ∧
      ∀ j, j < B.bytes.length → j < n → B'.bytes[j]? = B.bytes[j]? := by
  refine ⟨_, by rw [realloc, if_pos rfl], rfl, ?_, ?_⟩
  · simp only [List.length_append, List.length_take, fit_length]; omega
  · intro j h1 h2
    rw [List.getElem?_append_left (by simp only [List.length_take]; omega), List.getElem?_take, if_pos h2]

/-! ## The aligned allocator -/

structure AInv (k : Nat) (s : Blk × Nat × Nat) (m : Mem) : Prop where
  kk : k < 64
  sz : 16 ≤ s.2.2
  ml : m.length = s.2.2
  ptr : s.2.1 = alignedPtr s.1.addr (2 ^ k)
  len : s.1.bytes.length = s.2.2 + 2 ^ k + 16
  space : s.1.addr + s.2.2 + 2 ^ k + 16 < 2 ^ 64
  header : ∀ i, i < 16 → s.1.bytes[s.2.1 - 16 - s.1.addr + i]? = (le8 s.1.addr ++ le8 (2 ^ k))[i]?
  sees : ∀ i, i < m.length → s.1.bytes[s.2.1 - s.1.addr + i]? = m[i]?

theorem alignedPtr_spec {a k : Nat} (hk : k < 64) (h : a + 32 + 2 ^ k < 2 ^ 64) :
    a + 16 ≤ alignedPtr a (2 ^ k) ∧ alignedPtr a (2 ^ k) < a + 16 + 2 ^ k ∧ 2 ^ k ∣ alignedPtr a (2 ^ k) + 16 := by
  have hp : 0 < 2 ^ k := Nat.pow_pos (by omega)
  obtain ⟨h1, h2, h3⟩ := alignUp_spec (x := a + 16 + 16) hk (by omega)
  unfold alignedPtr
  refine ⟨by omega, by omega, ?_⟩
  rw [Nat.sub_add_cancel (by omega)]
  exact h2

theorem AInv.seen {k : Nat} {s : Blk × Nat × Nat} {m : Mem} (I : AInv k s m) : Sees s.1 s.2.1 m := by
  have h0 := I.sz; have h1 := I.space; have h2 := I.ptr; have h3 := I.len; have h4 := I.ml
  obtain ⟨a, b, _⟩ := alignedPtr_spec (a := s.1.addr) I.kk (by omega)
  exact ⟨by omega, by omega, I.sees⟩

theorem AInv.head {k : Nat} {s : Blk × Nat × Nat} {m : Mem} (I : AInv k s m) :
    s.1.read (s.2.1 - 16) 16 = some (le8 s.1.addr ++ le8 (2 ^ k)) := by
  have h0 := I.sz; have h1 := I.space; have h2 := I.ptr; have h3 := I.len; have h4 := I.ml
  obtain ⟨a, b, _⟩ := alignedPtr_spec (a := s.1.addr) I.kk (by omega)
  have hl : (le8 s.1.addr ++ le8 (2 ^ k)).length = 16 := by simp [le8_length]
  have := read_eq (B := s.1) (a := s.2.1 - 16) (l := le8 s.1.addr ++ le8 (2 ^ k)) (by omega) (by rw [hl]; omega) (by rw [hl]; exact I.header)
  rwa [hl] at this

theorem aligned_alloc {k size a : Nat} {fill : List UInt8} (hk : k < 64) (hs : 16 ≤ size) (h : a + size + 2 ^ k + 16 < 2 ^ 64) :
    ∃ B p m, alignedAlloc (2 ^ k) size (some (a, fill)) = some (some (B, p)) ∧ B.addr = a ∧ AInv k (B, p, size) m := by
  obtain ⟨h1, h2, _⟩ := alignedPtr_spec (a := a) hk (by omega)
  have ht : alignedTotal size (2 ^ k) = size + 2 ^ k + 16 := Nat.mod_eq_of_lt (by omega)
  have hl : (le8 a ++ le8 (2 ^ k)).length = 16 := by simp [le8_length]
  generalize hp : alignedPtr a (2 ^ k) = p at h1 h2
  obtain ⟨B', hw, ha', hlen, hg⟩ := write_some (B := ⟨a, fit (size + 2 ^ k + 16) fill⟩) (a := p - 16) (l := le8 a ++ le8 (2 ^ k))
    (by dsimp only; omega) (by rw [hl]; dsimp only; rw [fit_length]; omega)
  dsimp only at ha' hlen hg
  rw [fit_length] at hlen
  obtain ⟨m, _, hml, hm⟩ := read_some (B := B') (a := p) (n := size) (by omega) (by omega)
  refine ⟨B', p, m, ?_, ha', hk, hs, hml, ?_, hlen, ?_, ?_, ?_⟩
  · simp only [alignedAlloc, malloc, ht, hp, hw, Option.map_some]
  · dsimp only; rw [ha', hp]
  · dsimp only; omega
  · intro i hi
    dsimp only
    rw [ha', hg, if_pos (by rw [hl]; omega), Nat.add_sub_cancel_left]
  · intro i hi
    dsimp only
    rw [hm i (by omega)]

theorem aligned_write {k : Nat} {s : Blk × Nat × Nat} {m : Mem} (I : AInv k s m) {o : Nat} {l : List UInt8} (h : o + l.length ≤ s.2.2) :
    ∃ s', step alignedRealloc s (.write o l) = some s' ∧ AInv k s' (put m o l) ∧ s'.2 = s.2 := by
  have h0 := I.sz; have h1 := I.space; have h2 := I.ptr; have h3 := I.len; have h4 := I.ml
  obtain ⟨a, b, _⟩ := alignedPtr_spec (a := s.1.addr) I.kk (by omega)
  obtain ⟨B', hw, ha', hlen, hg⟩ := write_some (B := s.1) (a := s.2.1 + o) (l := l) (by omega) (by omega)
  refine ⟨(B', s.2), by simp only [step, hw, Option.map_some], ⟨I.kk, I.sz, ?_, ?_, ?_, ?_, ?_, ?_⟩, rfl⟩ <;> dsimp only
  · simp only [put, List.length_append, List.length_take, List.length_drop]; omega
  · rw [ha']; exact h2
  · rw [hlen]; exact h3
  · rw [ha']; exact h1
  · intro i hi
    rw [ha', hg, if_neg (by omega)]
    exact I.header i hi
  · intro i hi
    have hlp : (put m o l).length = m.length := by
      simp only [put, List.length_append, List.length_take, List.length_drop]; omega
    rw [ha', hg]
    simp only [put]
    rw [List.append_assoc, List.getElem?_append]
    simp only [List.length_take, Nat.min_eq_left (by omega : o ≤ m.length)]
    by_cases c1 : i < o
    · rw [if_neg (by omega), if_pos c1, List.getElem?_take, if_pos c1]
      exact I.sees i (by omega)
    · rw [if_neg c1, List.getElem?_append]
      by_cases c2 : i - o < l.length
      · rw [if_pos (by omega), if_pos c2]
        congr 1; omega
      · rw [if_neg (by omega), if_neg c2, List.getElem?_drop, show o + l.length + (i - o - l.length) = i by omega]
        exact I.sees i (by omega)

theorem aligned_realloc {k : Nat} {s : Blk × Nat × Nat} {m : Mem} (I : AInv k s m) {n a : Nat} {fill : List UInt8} (hn : 16 ≤ n)
    (hsp : a + n + (2 ^ k + 16) < 2 ^ 64) :
    ∃ s' m', step alignedRealloc s (.realloc n (some (a, fill))) = some s' ∧ AInv k s' m' ∧ s'.2.2 = n ∧ Kept m m' n := by
  have h0 := I.sz; have h1 := I.space; have h2 := I.ptr; have h3 := I.len; have h4 := I.ml
  obtain ⟨p1, p2, _⟩ := alignedPtr_spec (a := s.1.addr) I.kk (by omega)
  have hkl : 2 ^ k < 2 ^ 64 := Nat.pow_lt_pow_right (by omega) I.kk
  have ht : alignedTotal n (2 ^ k) = n + 2 ^ k + 16 := Nat.mod_eq_of_lt (by omega)
  have hd1 : ofLe8 ((le8 s.1.addr ++ le8 (2 ^ k)).take 8) = s.1.addr := by
    rw [List.take_left' (le8_length _), ofLe8_le8 (by omega)]
  have hd2 : ofLe8 ((le8 s.1.addr ++ le8 (2 ^ k)).drop 8) = 2 ^ k := by
    rw [List.drop_left' (le8_length _), ofLe8_le8 hkl]
  obtain ⟨B1, hr, ha1, hl1, hg1⟩ := realloc_some (B := s.1) (n := n + 2 ^ k + 16) a fill
  have hl : (le8 a ++ le8 (2 ^ k)).length = 16 := by simp [le8_length]
  by_cases hsame : a = s.1.addr
  · have hstep : step alignedRealloc s (.realloc n (some (a, fill))) = some (B1, s.2.1, n) := by
      simp only [step, alignedRealloc, I.head, Option.bind_eq_bind, Option.bind_some, hd1, hd2, ht, hr]
      rw [if_neg (by rw [ha1]; exact fun h => h hsame)]
    obtain ⟨m', _, hml, hm⟩ := read_some (B := B1) (a := s.2.1) (n := n) (by omega) (by omega)
    refine ⟨_, m', hstep, ⟨I.kk, hn, hml, ?_, by dsimp only; omega, by dsimp only; omega, ?_, ?_⟩, rfl, hml, ?_⟩
    · dsimp only; rw [ha1, hsame]; exact h2
    · intro i hi
      dsimp only
      rw [ha1, hsame, hg1 _ (by omega) (by omega)]
      exact I.header i hi
    · intro i hi
      dsimp only
      exact (hm i (by omega)).symm
    · intro i hi
      rw [hm i (by omega), ha1, hsame, hg1 _ (by omega) (by omega)]
      exact I.sees i (by omega)
  · obtain ⟨q1, q2, _⟩ := alignedPtr_spec (a := a) I.kk (by omega)
    generalize hq : alignedPtr a (2 ^ k) = q at q1 q2
    rw [← h2] at p1 p2
    obtain ⟨data, hrd, hdl, hdg⟩ := read_some (B := B1) (a := s.2.1 - s.1.addr + a) (n := n) (by omega) (by omega)
    obtain ⟨B2, hw2, ha2, hl2, hg2⟩ := write_some (B := B1) (a := q) (l := data) (by omega) (by omega)
    obtain ⟨B3, hw3, ha3, hl3, hg3⟩ := write_some (B := B2) (a := q - 16) (l := le8 a ++ le8 (2 ^ k)) (by omega) (by omega)
    have hstep : step alignedRealloc s (.realloc n (some (a, fill))) = some (B3, q, n) := by
      simp only [step, alignedRealloc, I.head, Option.bind_eq_bind, Option.bind_some, hd1, hd2, ht, hr]
      rw [if_pos (by rw [ha1]; exact hsame)]
      rw [ha1, hq, ← h2, hrd]
      simp only [Option.bind_some]
      rw [hw2]
      simp only [Option.bind_some]
      rw [ha2, ha1, hw3]
      simp only [Option.bind_some]
    refine ⟨_, data, hstep, ⟨I.kk, hn, hdl, ?_, by dsimp only; omega, by dsimp only; omega, ?_, ?_⟩, rfl, hdl, ?_⟩
    · dsimp only; rw [ha3, ha2, ha1, hq]
    · intro i hi
      dsimp only
      rw [ha3, ha2, ha1, hg3, if_pos (by rw [ha2, ha1, hl]; omega), ha2, ha1, Nat.add_sub_cancel_left]
    · intro i hi
      dsimp only
      rw [ha3, ha2, ha1, hg3, if_neg (by rw [ha2, ha1, hl]; omega), hg2, if_pos (by rw [ha1]; omega), ha1, Nat.add_sub_cancel_left]
    · intro i hi
      rw [hdg i (by omega), ha1, hg1 _ (by omega) (by omega), show s.2.1 - s.1.addr + a - a + i = s.2.1 - s.1.addr + i by omega]
      exact I.sees i (by omega)

theorem aligned_fail {k : Nat} {s : Blk × Nat × Nat} {m : Mem} (I : AInv k s m) {n : Nat} :
    step alignedRealloc s (.realloc n none) = some s := by
  have h1 := I.space
  have hp : 0 < 2 ^ k := Nat.pow_pos (by omega)
  have hd1 : ofLe8 ((le8 s.1.addr ++ le8 (2 ^ k)).take 8) = s.1.addr := by
    rw [List.take_left' (le8_length _), ofLe8_le8 (by omega)]
  simp only [step, alignedRealloc, I.head, Option.bind_eq_bind, Option.bind_some, hd1]
  simp only [realloc, if_true, Option.bind_some]

theorem aligned_run {k : Nat} (ops : List Op) {s : Blk × Nat × Nat} {m : Mem} (I : AInv k s m) (hok : Ok (2 ^ k + 16) s.2.2 ops) :
    ∃ s' m', run alignedRealloc s ops = some s' ∧ MovesAll m ops m' ∧ AInv k s' m' := by
  induction ops generalizing s m with
  | nil => exact ⟨s, m, rfl, .nil, I⟩
  | cons op ops ih =>
    cases op with
    | write o l =>
      simp only [Ok] at hok
      obtain ⟨s', hs, I', e⟩ := aligned_write I hok.1
      obtain ⟨s2, m2, hr, hm, I2⟩ := ih I' (by rw [e]; exact hok.2)
      exact ⟨s2, m2, by rw [run, hs]; exact hr, .cons (.write (by rw [I.ml]; exact hok.1)) hm, I2⟩
    | realloc n env =>
      cases env with
      | none =>
        simp only [Ok] at hok
        obtain ⟨s2, m2, hr, hm, I2⟩ := ih I hok.2
        exact ⟨s2, m2, by rw [run, aligned_fail I]; exact hr, .cons .fail hm, I2⟩
      | some e =>
        obtain ⟨a, fill⟩ := e
        simp only [Ok] at hok
        obtain ⟨s', m', hs, I', e, hk⟩ := aligned_realloc (fill := fill) I hok.1 hok.2.1
        obtain ⟨s2, m2, hr, hm, I2⟩ := ih I' (by rw [e]; exact hok.2.2)
        exact ⟨s2, m2, by rw [run, hs]; exact hr, .cons (.realloc hk) hm, I2⟩

/-- **C60, aligned allocator.**  For every power of two and every history of writes inside the memory and reallocations, the block
moving or not and reallocations failing or not: nothing is accessed outside the block, the client's bytes are kept up to
the smaller of the two sizes, the memory handed to the user (behind the 16 byte header) is aligned, and freeing gives
`free` the pointer `malloc` returned. -/
theorem C60_aligned (k size a : Nat) (fill : List UInt8) (ops : List Op) (hk : k < 64) (hs : 16 ≤ size)
    (h : a + size + 2 ^ k + 16 < 2 ^ 64) (hok : Ok (2 ^ k + 16) size ops) :
    ∃ B p m, alignedAlloc (2 ^ k) size (some (a, fill)) = some (some (B, p)) ∧ m.length = size ∧ Sees B p m ∧
      ∃ B' p' n' m', run alignedRealloc (B, p, size) ops = some (B', p', n') ∧ MovesAll m ops m' ∧ m'.length = n' ∧ Sees B' p' m' ∧
        2 ^ k ∣ p' + 16 ∧ alignedFree B' p' = some B'.addr := by
  obtain ⟨B, p, m, ha, _, I⟩ := aligned_alloc (fill := fill) hk hs h
  obtain ⟨⟨B', p', n'⟩, m', hr, hm, I'⟩ := aligned_run ops I hok
  refine ⟨B, p, m, ha, I.ml, I.seen, B', p', n', m', hr, hm, I'.ml, I'.seen, ?_, ?_⟩
  · have h0 := I'.sz; have h1 := I'.space; have h2 := I'.ptr
    dsimp only at h0 h1 h2
    obtain ⟨_, _, q⟩ := alignedPtr_spec (a := B'.addr) I'.kk (by omega)
    rw [h2]; exact q
  · have h1 := I'.space
    have hp : 0 < 2 ^ k := Nat.pow_pos (by omega)
    have := I'.head
    dsimp only at this h1
    simp only [alignedFree, this, Option.bind_eq_bind, Option.bind_some]
    rw [List.take_left' (le8_length _), ofLe8_le8 (by omega)]

example : Ok (2 ^ 5 + 16) 20 [.write 3 [1, 2], .realloc 40 (some (1000, [])), .realloc 17 none, .write 30 [7], .realloc 17 (some (77, []))] := by
  simp [Ok]

/-- A failed allocation is reported. -/
theorem C60_aligned_fail (alignment size : Nat) : alignedAlloc alignment size none = some none := rfl

/-- **C60 refuted for sizes near the end of the address range.**  The size of the block wraps, `malloc` can succeed with a block that does
not even hold the header, and the header is written outside it. -/
theorem C60_aligned_overflow_refuted : alignedAlloc 16 (2 ^ 64 - 20) (some (4096, [])) = none := by decide

/-! ## The bounds checking allocator -/

structure BInv (s : Blk × Nat × Nat) (m : Mem) : Prop where
  ml : m.length = s.2.2
  ptr : s.2.1 = s.1.addr + 16
  len : s.1.bytes.length = s.2.2 + 24
  space : s.1.addr + s.2.2 + 24 < 2 ^ 64
  size : ∀ i, i < 8 → s.1.bytes[i]? = (le8 s.2.2)[i]?
  front : ∀ i, i < 8 → s.1.bytes[8 + i]? = guard8[i]?
  back : ∀ i, i < 8 → s.1.bytes[16 + s.2.2 + i]? = guard8[i]?
  sees : ∀ i, i < m.length → s.1.bytes[16 + i]? = m[i]?

theorem bounds_mark {B : Blk} {size : Nat} (hl : B.bytes.length = size + 24) (hsp : B.addr + size + 24 < 2 ^ 64) :
    ∃ B' m, boundsMark B size = some (B', B.addr + 16) ∧ B'.addr = B.addr ∧ BInv (B', B.addr + 16, size) m ∧
      ∀ i, i < size → m[i]? = B.bytes[16 + i]? := by
  have hg8 : guard8.length = 8 := rfl
  obtain ⟨B1, hw1, ha1, hl1, hg1⟩ := write_some (B := B) (a := B.addr + 8) (l := guard8) (by omega) (by rw [hg8]; omega)
  obtain ⟨B2, hw2, ha2, hl2, hg2⟩ := write_some (B := B1) (a := B.addr + 8 + 8 + size) (l := guard8) (by omega) (by rw [hg8]; omega)
  obtain ⟨B3, hw3, ha3, hl3, hg3⟩ := write_some (B := B2) (a := B.addr) (l := le8 size) (by omega) (by rw [le8_length]; omega)
  have hget : ∀ i, i < size → B3.bytes[16 + i]? = B.bytes[16 + i]? := by
    intro i hi
    rw [hg3, if_neg (by rw [le8_length]; omega), hg2, if_neg (by omega), hg1, if_neg (by rw [hg8]; omega)]
  obtain ⟨m, _, hml, hm⟩ := read_some (B := B3) (a := B.addr + 16) (n := size) (by omega) (by omega)
  have hm' : ∀ i, i < size → m[i]? = B3.bytes[16 + i]? := by
    intro i hi
    rw [hm i hi, ha3, ha2, ha1, Nat.add_sub_cancel_left]
  refine ⟨B3, m, ?_, by omega, ⟨hml, ?_, ?_, ?_, ?_, ?_, ?_, ?_⟩, ?_⟩
  · simp only [boundsMark, hw1, Option.bind_eq_bind, Option.bind_some, ha1, hw2, ha2, hw3, ha3]
  · dsimp only; omega
  · dsimp only; omega
  · dsimp only; omega
  · intro i hi
    dsimp only
    rw [hg3, if_pos (by rw [le8_length]; omega)]
    congr 1; omega
  · intro i hi
    dsimp only
    rw [hg3, if_neg (by rw [le8_length]; omega), hg2, if_neg (by omega), hg1, if_pos (by rw [hg8]; omega)]
    congr 1; omega
  · intro i hi
    dsimp only
    rw [hg3, if_neg (by rw [le8_length]; omega), hg2, if_pos (by rw [hg8]; omega)]
    congr 1; omega
  · intro i hi
    dsimp only
    rw [hm' i (by omega)]
  · intro i hi
    rw [hm' i hi, hget i hi]

theorem BInv.reads {s : Blk × Nat × Nat} {m : Mem} (I : BInv s m) :
    s.1.read (s.2.1 - (8 + 8)) 8 = some (le8 s.2.2) ∧ s.1.read (s.2.1 - (8 + 8) + 8) 8 = some guard8 ∧
      s.1.read (s.2.1 - (8 + 8) + 8 + 8 + s.2.2) 8 = some guard8 := by
  have h2 := I.ptr; have h3 := I.len
  have hg8 : guard8.length = 8 := rfl
  have r1 := read_eq (B := s.1) (a := s.1.addr) (l := le8 s.2.2) (by omega) (by rw [le8_length]; omega)
    (by rw [le8_length]; intro i hi; rw [Nat.sub_self, Nat.zero_add]; exact I.size i hi)
  have r2 := read_eq (B := s.1) (a := s.1.addr + 8) (l := guard8) (by omega) (by rw [hg8]; omega)
    (by rw [hg8]; intro i hi; rw [Nat.add_sub_cancel_left]; exact I.front i hi)
  have r3 := read_eq (B := s.1) (a := s.1.addr + 8 + 8 + s.2.2) (l := guard8) (by omega) (by rw [hg8]; omega)
    (by rw [hg8]; intro i hi; rw [show s.1.addr + 8 + 8 + s.2.2 - s.1.addr + i = 16 + s.2.2 + i by omega]; exact I.back i hi)
  rw [le8_length] at r1
  rw [hg8] at r2 r3
  rw [show s.2.1 - (8 + 8) = s.1.addr by omega]
  exact ⟨r1, r2, r3⟩

theorem BInv.check {s : Blk × Nat × Nat} {m : Mem} (I : BInv s m) : boundsCheck s.1 s.2.1 = some () := by
  obtain ⟨r1, r2, r3⟩ := I.reads
  have := I.space
  simp only [boundsCheck, r1, Option.bind_eq_bind, Option.bind_some, r2]
  rw [ofLe8_le8 (by omega), r3]
  rfl

theorem bounds_step_write {s : Blk × Nat × Nat} {m : Mem} (I : BInv s m) {o : Nat} {l : List UInt8} (h : o + l.length ≤ s.2.2) :
    ∃ s', step boundsRealloc s (.write o l) = some s' ∧ BInv s' (put m o l) ∧ s'.2 = s.2 := by
  have h1 := I.space; have h2 := I.ptr; have h3 := I.len; have h4 := I.ml
  obtain ⟨B', hw, ha', hlen, hg⟩ := write_some (B := s.1) (a := s.2.1 + o) (l := l) (by omega) (by omega)
  refine ⟨(B', s.2), by simp only [step, hw, Option.map_some], ⟨?_, ?_, ?_, ?_, ?_, ?_, ?_, ?_⟩, rfl⟩ <;> dsimp only
  · simp only [put, List.length_append, List.length_take, List.length_drop]; omega
  · rw [ha']; exact h2
  · rw [hlen]; exact h3
  · rw [ha']; exact h1
  · intro i hi
    rw [hg, if_neg (by omega)]; exact I.size i hi
  · intro i hi
    rw [hg, if_neg (by omega)]; exact I.front i hi
  · intro i hi
    rw [hg, if_neg (by omega)]; exact I.back i hi
  · intro i hi
    have hlp : (put m o l).length = m.length := by
      simp only [put, List.length_append, List.length_take, List.length_drop]; omega
    rw [hg]
    simp only [put]
    rw [List.append_assoc, List.getElem?_append]
    simp only [List.length_take, Nat.min_eq_left (by omega : o ≤ m.length)]
    by_cases c1 : i < o
    · rw [if_neg (by omega), if_pos c1, List.getElem?_take, if_pos c1]
      exact I.sees i (by omega)
    · rw [if_neg c1, List.getElem?_append]
      by_cases c2 : i - o < l.length
      · rw [if_pos (by omega), if_pos c2]
        congr 1; omega
      · rw [if_neg (by omega), if_neg c2, List.getElem?_drop, show o + l.length + (i - o - l.length) = i by omega]
        exact I.sees i (by omega)

theorem bounds_step_realloc {s : Blk × Nat × Nat} {m : Mem} (I : BInv s m) {n a : Nat} {fill : List UInt8} (hsp : a + n + 24 < 2 ^ 64) :
    ∃ s' m', step boundsRealloc s (.realloc n (some (a, fill))) = some s' ∧ BInv s' m' ∧ s'.2.2 = n ∧ Kept m m' n := by
  have h1 := I.space; have h2 := I.ptr; have h3 := I.len; have h4 := I.ml
  have ht : boundsTotal n = n + 24 := by unfold boundsTotal; rw [Nat.mod_eq_of_lt (by omega)]
  obtain ⟨B1, hr, ha1, hl1, hg1⟩ := realloc_some (B := s.1) (n := n + 24) a fill
  obtain ⟨B2, m', hm, ha2, I2, hget⟩ := bounds_mark (B := B1) hl1 (by omega)
  refine ⟨_, m', ?_, I2, rfl, I2.ml, ?_⟩
  · have hp : s.2.1 - (8 + 8) = s.1.addr := by omega
    simp only [step, boundsRealloc, I.check, Option.bind_eq_bind, Option.bind_some, hp, ht, hr, hm, Option.map_some]
  · intro i hi
    rw [hget i (by omega), hg1 _ (by omega) (by omega)]
    exact I.sees i (by omega)

theorem bounds_step_fail {s : Blk × Nat × Nat} {m : Mem} (I : BInv s m) {n : Nat} : step boundsRealloc s (.realloc n none) = some s := by
  have h2 := I.ptr
  have hp : s.2.1 - (8 + 8) = s.1.addr := by omega
  simp only [step, boundsRealloc, I.check, Option.bind_eq_bind, Option.bind_some, hp]
  simp only [realloc, if_true, Option.bind_some]

theorem bounds_run (ops : List Op) {s : Blk × Nat × Nat} {m : Mem} (I : BInv s m) (hok : Ok 24 s.2.2 ops) :
    ∃ s' m', run boundsRealloc s ops = some s' ∧ MovesAll m ops m' ∧ BInv s' m' := by
  induction ops generalizing s m with
  | nil => exact ⟨s, m, rfl, .nil, I⟩
  | cons op ops ih =>
    cases op with
    | write o l =>
      simp only [Ok] at hok
      obtain ⟨s', hs, I', e⟩ := bounds_step_write I hok.1
      obtain ⟨s2, m2, hr, hm, I2⟩ := ih I' (by rw [e]; exact hok.2)
      exact ⟨s2, m2, by rw [run, hs]; exact hr, .cons (.write (by rw [I.ml]; exact hok.1)) hm, I2⟩
    | realloc n env =>
      cases env with
      | none =>
        simp only [Ok] at hok
        obtain ⟨s2, m2, hr, hm, I2⟩ := ih I hok.2
        exact ⟨s2, m2, by rw [run, bounds_step_fail I]; exact hr, .cons .fail hm, I2⟩
      | some e =>
        obtain ⟨a, fill⟩ := e
        simp only [Ok] at hok
        obtain ⟨s', m', hs, I', e, hk⟩ := bounds_step_realloc (fill := fill) I hok.2.1
        obtain ⟨s2, m2, hr, hm, I2⟩ := ih I' (by rw [e]; exact hok.2.2)
        exact ⟨s2, m2, by rw [run, hs]; exact hr, .cons (.realloc hk) hm, I2⟩

theorem bounds_alloc {size a : Nat} {fill : List UInt8} (h : a + size + 24 < 2 ^ 64) :
    ∃ B p m, boundsAlloc size (some (a, fill)) = some (some (B, p)) ∧ BInv (B, p, size) m := by
  have ht : boundsTotal size = size + 24 := by unfold boundsTotal; rw [Nat.mod_eq_of_lt (by omega)]
  obtain ⟨B, m, hm, _, I, _⟩ := bounds_mark (B := ⟨a, fit (size + 24) fill⟩) (fit_length _ _) h
  refine ⟨B, a + 16, m, ?_, I⟩
  simp only [boundsAlloc, malloc, ht, hm, Option.map_some]

/-- **C60, bounds checking allocator.**  The same; a client that stays inside its memory never makes an assertion fail. -/
theorem C60_bounds (size a : Nat) (fill : List UInt8) (ops : List Op) (h : a + size + 24 < 2 ^ 64) (hok : Ok 24 size ops) :
    ∃ B p m, boundsAlloc size (some (a, fill)) = some (some (B, p)) ∧ m.length = size ∧ Sees B p m ∧
      ∃ B' p' n' m', run boundsRealloc (B, p, size) ops = some (B', p', n') ∧ MovesAll m ops m' ∧ m'.length = n' ∧ Sees B' p' m' ∧
        boundsFree B' p' = some B'.addr := by
  have seen : ∀ {s : Blk × Nat × Nat} {m : Mem}, BInv s m → Sees s.1 s.2.1 m := by
    intro s m I
    have h2 := I.ptr; have h3 := I.len; have h4 := I.ml
    refine ⟨by omega, by omega, ?_⟩
    rw [show s.2.1 - s.1.addr = 16 by omega]
    exact I.sees
  obtain ⟨B, p, m, ha, I⟩ := bounds_alloc (fill := fill) h
  obtain ⟨⟨B', p', n'⟩, m', hr, hm, I'⟩ := bounds_run ops I hok
  refine ⟨B, p, m, ha, I.ml, seen I, B', p', n', m', hr, hm, I'.ml, seen I', ?_⟩
  have := I'.check
  have h2 := I'.ptr
  dsimp only at this h2
  simp only [boundsFree, this, Option.bind_eq_bind, Option.bind_some]
  congr 1
  omega

example : Ok 24 20 [.write 3 [1, 2], .realloc 40 (some (1000, [])), .write 39 [7], .realloc 17 (some (77, []))] := by
  simp [Ok]

/-- **C60, what the guards are for.**  If, in a state such a history leads to, any of the eight bytes before or the eight bytes after the client's
memory is overwritten with another value, the next reallocation and the deallocation fail their assertion, whatever else the client writes to
its own memory or to those bytes. -/
theorem C60_bounds_detect (size a : Nat) (fill : List UInt8) (ops : List Op) (h : a + size + 24 < 2 ^ 64) (hok : Ok 24 size ops)
    (B : Blk) (p : Nat) (ha : boundsAlloc size (some (a, fill)) = some (some (B, p))) (B' : Blk) (p' n' : Nat)
    (hr : run boundsRealloc (B, p, size) ops = some (B', p', n')) (C : Blk) (hC : C.addr = B'.addr) (hlen : C.bytes.length = B'.bytes.length)
    (hsize : ∀ i, i < 8 → C.bytes[i]? = B'.bytes[i]?)
    (hdiff : ∃ i, i < 8 ∧ (C.bytes[p' - 8 - B'.addr + i]? ≠ B'.bytes[p' - 8 - B'.addr + i]? ∨
      C.bytes[p' + n' - B'.addr + i]? ≠ B'.bytes[p' + n' - B'.addr + i]?)) :
    boundsFree C p' = none ∧ ∀ n env, boundsRealloc C p' n env = none := by
  obtain ⟨B0, p0, m, ha0, I⟩ := bounds_alloc (fill := fill) h
  rw [ha] at ha0
  injection ha0 with e
  injection e with e
  injection e with e1 e2
  subst e1 e2
  obtain ⟨s', m', hr', _, I'⟩ := bounds_run ops I hok
  rw [hr] at hr'
  injection hr' with e
  subst e
  have h1 := I'.space; have h2 := I'.ptr; have h3 := I'.len
  dsimp only at h1 h2 h3
  have hg8 : guard8.length = 8 := rfl
  obtain ⟨l1, r1, ll1, lg1⟩ := read_some (B := C) (a := p' - (8 + 8)) (n := 8) (by omega) (by omega)
  have hl1 : l1 = le8 n' := by
    apply List.ext_getElem?
    intro i
    by_cases hi : i < 8
    · rw [lg1 i hi, show p' - (8 + 8) - C.addr + i = i by omega, hsize i hi]
      exact I'.size i hi
    · rw [List.getElem?_eq_none (by omega), List.getElem?_eq_none (by rw [le8_length]; omega)]
  obtain ⟨l2, r2, ll2, lg2⟩ := read_some (B := C) (a := p' - (8 + 8) + 8) (n := 8) (by omega) (by omega)
  obtain ⟨l3, r3, ll3, lg3⟩ := read_some (B := C) (a := p' - (8 + 8) + 8 + 8 + n') (n := 8) (by omega) (by omega)
  have hc : boundsCheck C p' = none := by
    simp only [boundsCheck, r1, Option.bind_eq_bind, Option.bind_some, r2]
    rw [hl1, ofLe8_le8 (by omega), r3]
    simp only [Option.bind_some]
    rw [if_neg]
    rintro ⟨g1, g2⟩
    obtain ⟨i, hi, hd | hd⟩ := hdiff
    · apply hd
      have e1 := lg2 i hi
      have e2 := I'.front i hi
      dsimp only at e2
      rw [g1, show p' - (8 + 8) + 8 - C.addr + i = 8 + i by omega] at e1
      rw [show p' - 8 - B'.addr + i = 8 + i by omega, ← e1, e2]
    · apply hd
      have e1 := lg3 i hi
      have e2 := I'.back i hi
      dsimp only at e2
      rw [g2, show p' - (8 + 8) + 8 + 8 + n' - C.addr + i = 16 + n' + i by omega] at e1
      rw [show p' + n' - B'.addr + i = 16 + n' + i by omega, ← e1, e2]
  constructor
  · simp only [boundsFree, hc, Option.bind_eq_bind, Option.bind_none]
  · intro n env
    simp only [boundsRealloc, hc, Option.bind_eq_bind, Option.bind_none]

/-- One byte too far: the allocation has 16 bytes and the seventeenth is written. -/
example : ((boundsAlloc 16 (some (4096, []))).bind fun r => r.bind fun r => (r.1.write (r.2 + 16) [9]).map fun C => boundsFree C r.2) =
    some none := by decide

/-- **C60 refuted for sizes near the end of the address range**, as for the aligned allocator. -/
theorem C60_bounds_overflow_refuted : boundsAlloc (2 ^ 64 - 20) (some (4096, [])) = none := by decide

#print axioms C60_aligned
#print axioms C60_bounds
#print axioms C60_bounds_detect

end Verif.HeapAlloc
