import Verif.PrintData
import Verif.PrintIntProps
/-!
# C120: the text of printed data tells exactly what is stored
-/
namespace Verif.PrintData
open Verif.PrintInt (Host Endian printInt wordValue decimal leNat hexByte hexDigit)
open Verif.PrintInt.Spec (value readDecimal readHex significance)

namespace Spec

/-- What can be seen of stored data: integers, pointers that are NULL, lead to data or are not followed, and the parts of structs and arrays. -/
inductive View where
  | int (v : Int)
  | null
  | leadsTo (v : View)
  | address (p : Nat)
  | parts (vs : List View)

mutual
/-- What is stored at an address, given what is seen behind pointers that are not NULL. Integers of more than 8 bytes are seen as unsigned. -/
def see (h : Host) (m : Mem) (behind : Nat → Nat → Option View) : Ty → Nat → Option View
  | .int e sign size, a => (readBytes m a size).map fun bs => .int (value h e (sign && decide (size ≤ 8)) bs)
  | .pointer to, a => (readPtr h m a).bind fun p => if p = 0 then some .null else behind to p
  | .struct fs, a => (seeFields h m behind fs a).map .parts
  | .array el sz n, a => ((List.range n).mapM fun i => see h m behind el (a + sz * i)).map .parts
  | .validator base, a => see h m behind base a
/-- The fields of a struct. -/
def seeFields (h : Host) (m : Mem) (behind : Nat → Nat → Option View) : Fields → Nat → Option (List View)
  | .nil, _ => some []
  | .cons _ off ty rest, a => (see h m behind ty (a + off)).bind fun v => (seeFields h m behind rest a).map fun vs => v :: vs
end

/-- What is seen behind a pointer that is not NULL when at most `left` pointers may be followed: pointers to `void` are not followed. -/
def behind (h : Host) (env : Nat → Option Ty) (m : Mem) : Nat → Nat → Nat → Option View
  | 0, _, p => some (.address p)
  | left + 1, to, p => match env to with
    | none => some (.address p)
    | some ty => (see h m (behind h env m left) ty p).map .leadsTo

mutual
/-- Types whose integers can be printed (see C119): at least a byte when signed. -/
def Good : Ty → Prop
  | .int _ sign size => (sign = true → 1 ≤ size) ∧ size < 2 ^ 64
  | .pointer _ => True
  | .struct fs => GoodFields fs
  | .array el _ _ => Good el
  | .validator base => Good base
/-- The same for fields. -/
def GoodFields : Fields → Prop
  | .nil => True
  | .cons _ _ ty rest => Good ty ∧ GoodFields rest
end

/-- The characters that end the text of a number. -/
def isDelim (ch : Char) : Bool := ch == ',' || ch == '\n' || ch == ' '

/-- What is assumed of the machine and of `%p`: little endian, different pointers have different texts, which contain no delimiter. The indentation does
not begin with an `N`, and the types that pointers lead to can be printed. -/
structure CtxOk (c : Ctx) : Prop where
  host : c.host = .little
  ptrInj : ∀ p q, c.ptrText p = c.ptrText q → p = q
  ptrText : ∀ p, ∀ ch ∈ c.ptrText p, isDelim ch = false
  ind : ∀ ch, c.ind.head? = some ch → ch ≠ 'N'
  env : ∀ i ty, c.env i = some ty → Good ty

/-- Memory holds bytes. -/
def Bytes (m : Mem) : Prop := ∀ a b, m a = some b → b < 256

end Spec
open Verif.PrintData.Spec

/-- The text behind is over or begins with a delimiter. -/
def Delim (r : List Char) : Prop := ∀ ch, r.head? = some ch → isDelim ch = true

/-! ## Integers -/

theorem readBytes_len {m : Mem} {a n : Nat} {bs : List Nat} (h : readBytes m a n = some bs) : bs.length = n := by
  induction n generalizing a bs with
  | zero => simp only [readBytes, Option.some.injEq] at h; subst h; rfl
  | succ n ih =>
    rw [readBytes] at h
    cases hm : m a with
    | none => rw [hm] at h; exact absurd h (by simp)
    | some b =>
      rw [hm] at h
      cases hr : readBytes m (a + 1) n with
      | none => rw [hr] at h; exact absurd h (by simp)
      | some xs => rw [hr] at h; simp only [Option.some.injEq] at h; subst h; simp [ih hr]

theorem readBytes_lt {m : Mem} (hm : Bytes m) {a n : Nat} {bs : List Nat} (h : readBytes m a n = some bs) : ∀ b ∈ bs, b < 256 := by
  induction n generalizing a bs with
  | zero => simp only [readBytes, Option.some.injEq] at h; subst h; simp
  | succ n ih =>
    rw [readBytes] at h
    cases hb : m a with
    | none => rw [hb] at h; exact absurd h (by simp)
    | some b =>
      rw [hb] at h
      cases hr : readBytes m (a + 1) n with
      | none => rw [hr] at h; exact absurd h (by simp)
      | some xs =>
        rw [hr] at h; simp only [Option.some.injEq] at h; subst h
        intro x hx
        rcases List.mem_cons.1 hx with rfl | hx
        · exact hm _ _ hb
        · exact ih hr x hx

theorem leNat_inj {xs ys : List Nat} (hx : ∀ b ∈ xs, b < 256) (hy : ∀ b ∈ ys, b < 256) (hl : xs.length = ys.length) (h : leNat xs = leNat ys) : xs = ys := by
  induction xs generalizing ys with
  | nil => cases ys with
    | nil => rfl
    | cons _ _ => simp at hl
  | cons x xs ih => cases ys with
    | nil => simp at hl
    | cons y ys =>
      simp only [leNat] at h
      have h1 := hx x (by simp)
      have h2 := hy y (by simp)
      have : x = y ∧ leNat xs = leNat ys := by omega
      rw [this.1, ih (fun b hb => hx b (by simp [hb])) (fun b hb => hy b (by simp [hb])) (by simpa using hl) this.2]

/-- The text of an integer that can be printed. -/
def intText (e : Endian) (sign : Bool) (size : Nat) (bs : List Nat) : List Char :=
  if size ≤ 8 then decimal (value .little e sign bs) else '0' :: 'x' :: ((significance .little e bs).reverse).flatMap hexByte

theorem printInt_text {e : Endian} {sign : Bool} {size : Nat} {bs : List Nat} (hl : bs.length = size) (hb : ∀ b ∈ bs, b < 256)
    (h1 : sign = true → 1 ≤ size) (hs : size < 2 ^ 64) : printInt .little e sign size bs = some (intText e sign size bs) := by
  rw [intText]
  split
  · have := (PrintInt.C119_little_partial e sign size bs (by omega) hb (by assumption) h1).1
    rw [List.take_of_length_le (by omega)] at this
    exact this
  · have := PrintInt.wide_text .little e sign size bs (by omega) (by omega) hs
    rw [List.take_of_length_le (by omega)] at this
    exact this

theorem intText_inj {e : Endian} {sign : Bool} {size : Nat} {b1 b2 : List Nat} (h1 : ∀ b ∈ b1, b < 256) (h2 : ∀ b ∈ b2, b < 256)
    (h : intText e sign size b1 = intText e sign size b2) : value .little e (sign && decide (size ≤ 8)) b1 = value .little e (sign && decide (size ≤ 8)) b2 := by
  rw [intText, intText] at h
  by_cases h8 : size ≤ 8
  · rw [if_pos h8, if_pos h8] at h
    have e1 := congrArg readDecimal h
    rw [PrintInt.dec_read, PrintInt.dec_read] at e1
    simpa [h8] using e1
  · rw [if_neg h8, if_neg h8] at h
    have e1 := congrArg readHex (List.cons.inj (List.cons.inj h).2).2
    rw [PrintInt.readHex_bytes' _ (fun b hb => PrintInt.sig_lt _ _ h1 b (List.mem_reverse.1 hb)),
      PrintInt.readHex_bytes' _ (fun b hb => PrintInt.sig_lt _ _ h2 b (List.mem_reverse.1 hb)), List.reverse_reverse, List.reverse_reverse] at e1
    simp [h8, value, e1]

theorem intText_of_value {e : Endian} {sign : Bool} {size : Nat} {b1 b2 : List Nat} (h1 : ∀ b ∈ b1, b < 256) (h2 : ∀ b ∈ b2, b < 256)
    (hl1 : b1.length = size) (hl2 : b2.length = size)
    (h : value .little e (sign && decide (size ≤ 8)) b1 = value .little e (sign && decide (size ≤ 8)) b2) : intText e sign size b1 = intText e sign size b2 := by
  rw [intText, intText]
  by_cases h8 : size ≤ 8
  · rw [if_pos h8, if_pos h8]
    have : value .little e sign b1 = value .little e sign b2 := by simpa [h8] using h
    rw [this]
  · rw [if_neg h8, if_neg h8]
    have e1 : (leNat (significance .little e b1) : Int) = (leNat (significance .little e b2) : Int) := by simpa [h8, value] using h
    have e1 := Int.ofNat.inj e1
    rw [leNat_inj (PrintInt.sig_lt _ _ h1) (PrintInt.sig_lt _ _ h2) (by rw [PrintInt.sig_length, PrintInt.sig_length, hl1, hl2]) e1]

theorem digit_nodelim {ch : Char} (h : ch.isDigit = true) : isDelim ch = false := by
  cases hd : isDelim ch with
  | false => rfl
  | true =>
    simp only [isDelim, Bool.or_eq_true, beq_iff_eq] at hd
    rcases hd with (rfl | rfl) | rfl <;> exact absurd h (by decide)

theorem decimal_nodelim (v : Int) : ∀ ch ∈ decimal v, isDelim ch = false := by
  have hd : ∀ ch ∈ Nat.toDigits 10 v.natAbs, isDelim ch = false := fun ch h =>
    digit_nodelim (Nat.isDigit_of_mem_toDigits (by decide) (by decide) h)
  rw [decimal]
  split
  · intro ch h
    rcases List.mem_cons.1 h with rfl | h
    · rfl
    · exact hd ch h
  · exact hd

theorem hexDigit_nodelim : ∀ n, n < 16 → isDelim (hexDigit n) = false := by decide

theorem intText_nodelim {e : Endian} {sign : Bool} {size : Nat} {bs : List Nat} (hb : ∀ b ∈ bs, b < 256) :
    ∀ ch ∈ intText e sign size bs, isDelim ch = false := by
  rw [intText]
  split
  · exact decimal_nodelim _
  · intro ch h
    rcases List.mem_cons.1 h with rfl | h
    · rfl
    rcases List.mem_cons.1 h with rfl | h
    · rfl
    obtain ⟨b, hbm, h⟩ := List.mem_flatMap.1 h
    have := PrintInt.sig_lt .little e hb b (List.mem_reverse.1 hbm)
    simp only [hexByte, List.mem_cons, List.not_mem_nil, or_false] at h
    rcases h with rfl | rfl
    · exact hexDigit_nodelim _ (by omega)
    · exact hexDigit_nodelim _ (by omega)

/-! ## Texts that end at delimiters -/

theorem upto {t1 t2 r1 r2 : List Char} (h1 : ∀ ch ∈ t1, isDelim ch = false) (h2 : ∀ ch ∈ t2, isDelim ch = false) (hr1 : Delim r1) (hr2 : Delim r2)
    (h : t1 ++ r1 = t2 ++ r2) : t1 = t2 ∧ r1 = r2 := by
  induction t1 generalizing t2 with
  | nil =>
    cases t2 with
    | nil => exact ⟨rfl, h⟩
    | cons x xs =>
      exfalso
      have := hr1 x (by rw [List.nil_append] at h; rw [h]; rfl)
      rw [h2 x (by simp)] at this
      exact absurd this (by simp)
  | cons y ys ih =>
    cases t2 with
    | nil =>
      exfalso
      have := hr2 y (by rw [List.nil_append] at h; rw [← h]; rfl)
      rw [h1 y (by simp)] at this
      exact absurd this (by simp)
    | cons x xs =>
      simp only [List.cons_append, List.cons.injEq] at h
      obtain ⟨e1, e2⟩ := ih (fun ch hc => h1 ch (by simp [hc])) (fun ch hc => h2 ch (by simp [hc])) h.2
      exact ⟨by rw [h.1, e1], e2⟩

theorem delim_nl (r : List Char) : Delim ('\n' :: r) := by intro ch h; simp only [List.head?_cons, Option.some.injEq] at h; subst h; rfl
theorem delim_comma (r : List Char) : Delim (',' :: r) := by intro ch h; simp only [List.head?_cons, Option.some.injEq] at h; subst h; rfl
theorem delim_space (r : List Char) : Delim (' ' :: r) := by intro ch h; simp only [List.head?_cons, Option.some.injEq] at h; subst h; rfl

/-! ## Equal texts, equal data -/

/-- Equal texts of what is behind pointers come from equal data, and do not begin like `NULL`. -/
structure Sound (d1 d2 : Deref) (b1 b2 : Nat → Nat → Option View) : Prop where
  eq : ∀ {to p1 p2 ic si t1 s1 t2 s2 r1 r2}, d1 to p1 ic si = some (t1, s1) → d2 to p2 ic si = some (t2, s2) → t1 ++ r1 = t2 ++ r2 → Delim r1 → Delim r2 →
    (∃ v, b1 to p1 = some v ∧ b2 to p2 = some v) ∧ t1 = t2 ∧ s1 = s2
  si1 : ∀ {to p ic t s}, d1 to p ic false = some (t, s) → s = false
  si2 : ∀ {to p ic t s}, d2 to p ic false = some (t, s) → s = false
  head1 : ∀ {to p ic si t s}, d1 to p ic si = some (t, s) → ∃ ch t', t = ch :: t' ∧ ch ≠ 'N'
  head2 : ∀ {to p ic si t s}, d2 to p ic si = some (t, s) → ∃ ch t', t = ch :: t' ∧ ch ≠ 'N'

/-- When nothing is to be indented before, nothing is to be indented after. -/
theorem print_si {c : Ctx} {m : Mem} {d : Deref} (hd : ∀ {to p ic t s}, d to p ic false = some (t, s) → s = false) {lv : Nat} :
    ∀ (ty : Ty) ⦃a lit ic t s⦄, print c m d lv ty a lit ic false = some (t, s) → s = false
  | .int e sign size => by
    intro a lit ic t s h
    cases lit <;>
    · rw [print] at h
      split at h
      · exact absurd h (by simp)
      split at h
      · exact absurd h (by simp)
      simp only [Option.some.injEq, Prod.mk.injEq] at h
      exact h.2.symm
  | .pointer to => by
    intro a lit ic t s h
    cases lit
    · rw [print] at h
      split at h
      · exact absurd h (by simp)
      split at h
      · simp only [Option.some.injEq, Prod.mk.injEq] at h
        exact h.2.symm
      · exact hd h
    · rw [print] at h
      split at h
      · exact absurd h (by simp)
      split at h
      · exact absurd h (by simp)
      simp only [Option.some.injEq, Prod.mk.injEq] at h
      exact h.2.symm
  | .struct fs => by
    intro a lit ic t s h
    cases lit <;>
    · rw [print] at h
      split at h
      · exact absurd h (by simp)
      simp only [Option.some.injEq, Prod.mk.injEq] at h
      exact h.2.symm
  | .array el sz n => by
    intro a lit ic t s h
    cases lit <;>
    · rw [print] at h
      split at h
      · exact absurd h (by simp)
      simp only [Option.some.injEq, Prod.mk.injEq] at h
      exact h.2.symm
  | .validator base => by
    intro a lit ic t s h
    cases lit
    · rw [print] at h
      exact print_si hd base h
    · rw [print] at h
      split at h
      · exact absurd h (by simp)
      simp only [Option.some.injEq, Prod.mk.injEq] at h
      exact h.2.symm

theorem elems_si {c : Ctx} {n ic : Nat} {o : Nat → Bool → Option (List Char × Bool)} (ho : ∀ {i t s}, o i false = some (t, s) → s = false) :
    ∀ (left : Nat) {si t s}, elems c n o ic left si = some (t, s) → (left = 0 → si = false) → s = false := by
  intro left
  induction left with
  | zero =>
    intro si t s h h0
    rw [elems, Option.some.injEq, Prod.mk.injEq] at h
    rw [← h.2]; exact h0 rfl
  | succ left ih =>
    intro si t s h _
    rw [elems] at h
    split at h
    · exact absurd h (by simp)
    rename_i x y e
    split at h
    · exact absurd h (by simp)
    rename_i z k f
    simp only [Option.some.injEq, Prod.mk.injEq] at h
    rw [← h.2]
    refine ih f (fun l0 => ?_)
    rw [if_neg (by simp [l0])]
    exact ho e

section
variable {c : Ctx} (hc : CtxOk c) {m1 m2 : Mem} (hm1 : Bytes m1) (hm2 : Bytes m2) {d1 d2 : Deref} {b1 b2 : Nat → Nat → Option View}
  (hd : Sound d1 d2 b1 b2) (lv : Nat)

/-- What is to be shown of a type when it is printed without a compound literal. -/
def UA (c : Ctx) (m1 m2 : Mem) (d1 d2 : Deref) (b1 b2 : Nat → Nat → Option View) (lv : Nat) (ty : Ty) : Prop :=
  ∀ ⦃a1 a2 lit ic si t1 s1 t2 s2 r1 r2⦄, print c m1 d1 lv ty a1 lit ic si = some (t1, s1) → print c m2 d2 lv ty a2 lit ic si = some (t2, s2) →
    t1 ++ r1 = t2 ++ r2 → (lit = false → Delim r1 ∧ Delim r2) →
    (∃ v, see .little m1 b1 ty a1 = some v ∧ see .little m2 b2 ty a2 = some v) ∧ t1 = t2 ∧ s1 = s2

theorem cut3 {x y1 y2 z r1 r2 : List Char} (h : x ++ y1 ++ z ++ r1 = x ++ y2 ++ z ++ r2) : y1 ++ (z ++ r1) = y2 ++ (z ++ r2) := by
  rw [List.append_assoc, List.append_assoc, List.append_assoc, List.append_assoc] at h
  exact List.append_cancel_left h

include hc hm1 hm2 in
theorem ua_int (e : Endian) (sign : Bool) (size : Nat) (hg : Good (.int e sign size)) : UA c m1 m2 d1 d2 b1 b2 lv (.int e sign size) := by
  intro a1 a2 lit ic si t1 s1 t2 s2 r1 r2 h1 h2 h hr
  obtain ⟨hg1, hg2⟩ := hg
  cases hb1 : readBytes m1 a1 size with
  | none => cases lit <;> · rw [print, hb1] at h1; exact absurd h1 (by simp)
  | some x1 =>
  cases hb2 : readBytes m2 a2 size with
  | none => cases lit <;> · rw [print, hb2] at h2; exact absurd h2 (by simp)
  | some x2 =>
  have l1 := readBytes_lt hm1 hb1
  have l2 := readBytes_lt hm2 hb2
  have p1 := printInt_text (e := e) (readBytes_len hb1) l1 hg1 hg2
  have p2 := printInt_text (e := e) (readBytes_len hb2) l2 hg1 hg2
  have n1 := intText_nodelim (e := e) (sign := sign) (size := size) l1
  have n2 := intText_nodelim (e := e) (sign := sign) (size := size) l2
  have fin : intText e sign size x1 = intText e sign size x2 →
      ∃ v, see .little m1 b1 (.int e sign size) a1 = some v ∧ see .little m2 b2 (.int e sign size) a2 = some v := by
    intro ht
    refine ⟨.int (value .little e (sign && decide (size ≤ 8)) x1), ?_, ?_⟩
    · rw [see, hb1]; rfl
    · rw [see, hb2, intText_inj l1 l2 ht]; rfl
  cases lit with
  | false =>
    rw [print, hb1] at h1
    rw [print, hb2] at h2
    simp only [hc.host, p1, Option.some.injEq, Prod.mk.injEq] at h1
    simp only [hc.host, p2, Option.some.injEq, Prod.mk.injEq] at h2
    obtain ⟨rfl, rfl⟩ := h1
    obtain ⟨rfl, rfl⟩ := h2
    rw [List.append_assoc, List.append_assoc] at h
    obtain ⟨ht, _⟩ := upto n1 n2 (hr rfl).1 (hr rfl).2 (List.append_cancel_left h)
    exact ⟨fin ht, by rw [ht], rfl⟩
  | true =>
    rw [print, hb1] at h1
    rw [print, hb2] at h2
    simp only [hc.host, p1, Option.some.injEq, Prod.mk.injEq] at h1
    simp only [hc.host, p2, Option.some.injEq, Prod.mk.injEq] at h2
    obtain ⟨rfl, rfl⟩ := h1
    obtain ⟨rfl, rfl⟩ := h2
    have h' := cut3 h
    rw [List.append_assoc, List.append_assoc] at h'
    obtain ⟨ht, _⟩ := upto n1 n2 (delim_nl _) (delim_nl _) (List.append_cancel_left h')
    exact ⟨fin ht, by rw [ht], rfl⟩

include hc hd in
theorem ua_pointer (to : Nat) : UA c m1 m2 d1 d2 b1 b2 lv (.pointer to) := by
  intro a1 a2 lit ic si t1 s1 t2 s2 r1 r2 h1 h2 h hr
  have hh := hc.host
  cases hb1 : readPtr .little m1 a1 with
  | none => cases lit <;> · rw [print, hh, hb1] at h1; exact absurd h1 (by simp)
  | some p1 =>
  cases hb2 : readPtr .little m2 a2 with
  | none => cases lit <;> · rw [print, hh, hb2] at h2; exact absurd h2 (by simp)
  | some p2 =>
  /- The texts without the compound literal. -/
  have key : ∀ {ic si u1 u2 s1 s2 q1 q2}, (if p1 = 0 then some (['N', 'U', 'L', 'L'], si) else d1 to p1 ic si) = some (u1, s1) →
      (if p2 = 0 then some (['N', 'U', 'L', 'L'], si) else d2 to p2 ic si) = some (u2, s2) → u1 ++ q1 = u2 ++ q2 → Delim q1 → Delim q2 →
      (∃ v, see .little m1 b1 (.pointer to) a1 = some v ∧ see .little m2 b2 (.pointer to) a2 = some v) ∧ u1 = u2 ∧ s1 = s2 := by
    intro ic si u1 u2 s1 s2 q1 q2 k1 k2 hq hq1 hq2
    rw [see, see, hb1, hb2]
    simp only [Option.bind_some]
    by_cases z1 : p1 = 0
    · rw [if_pos z1, Option.some.injEq, Prod.mk.injEq] at k1
      obtain ⟨rfl, rfl⟩ := k1
      by_cases z2 : p2 = 0
      · rw [if_pos z2, Option.some.injEq, Prod.mk.injEq] at k2
        obtain ⟨rfl, rfl⟩ := k2
        rw [if_pos z1, if_pos z2]
        exact ⟨⟨_, rfl, rfl⟩, rfl, rfl⟩
      · rw [if_neg z2] at k2
        obtain ⟨ch, t', rfl, hn⟩ := hd.head2 k2
        simp only [List.cons_append, List.cons.injEq] at hq
        exact absurd hq.1.symm hn
    · rw [if_neg z1] at k1
      by_cases z2 : p2 = 0
      · rw [if_pos z2, Option.some.injEq, Prod.mk.injEq] at k2
        obtain ⟨rfl, rfl⟩ := k2
        obtain ⟨ch, t', rfl, hn⟩ := hd.head1 k1
        simp only [List.cons_append, List.cons.injEq] at hq
        exact absurd hq.1 hn
      · rw [if_neg z2] at k2
        rw [if_neg z1, if_neg z2]
        exact hd.eq k1 k2 hq hq1 hq2
  cases lit with
  | false =>
    rw [print, hh, hb1] at h1
    rw [print, hh, hb2] at h2
    exact key h1 h2 h (hr rfl).1 (hr rfl).2
  | true =>
    rw [print, hh, hb1] at h1
    rw [print, hh, hb2] at h2
    simp only [] at h1 h2
    split at h1
    · exact absurd h1 (by simp)
    rename_i u1 v1 e1
    split at h2
    · exact absurd h2 (by simp)
    rename_i u2 v2 e2
    simp only [Option.some.injEq, Prod.mk.injEq] at h1 h2
    obtain ⟨rfl, rfl⟩ := h1
    obtain ⟨rfl, rfl⟩ := h2
    obtain ⟨hv, hu, _⟩ := key e1 e2 (cut3 h) (delim_nl _) (delim_nl _)
    exact ⟨hv, by rw [hu], rfl⟩

/-- The text of elements, up to a text that begins with a delimiter. -/
theorem ua_elems {n ic : Nat} {o1 o2 : Nat → Bool → Option (List Char × Bool)} {w1 w2 : Nat → Option View}
    (ho : ∀ {i t1 s1 t2 s2 r1 r2}, o1 i false = some (t1, s1) → o2 i false = some (t2, s2) → t1 ++ r1 = t2 ++ r2 → Delim r1 → Delim r2 →
      (∃ v, w1 i = some v ∧ w2 i = some v) ∧ t1 = t2 ∧ s1 = s2) :
    ∀ (left : Nat) {si t1 s1 t2 s2 r1 r2}, left ≤ n → elems c n o1 ic left si = some (t1, s1) → elems c n o2 ic left si = some (t2, s2) →
      t1 ++ r1 = t2 ++ r2 → Delim r1 → Delim r2 →
      (∃ vs, (List.range' (n - left) left).mapM w1 = some vs ∧ (List.range' (n - left) left).mapM w2 = some vs) ∧ t1 = t2 ∧ s1 = s2 := by
  intro left
  induction left with
  | zero =>
    intro si t1 s1 t2 s2 r1 r2 _ h1 h2 _ _ _
    rw [elems, Option.some.injEq, Prod.mk.injEq] at h1 h2
    obtain ⟨rfl, rfl⟩ := h1
    obtain ⟨rfl, rfl⟩ := h2
    exact ⟨⟨[], rfl, rfl⟩, rfl, rfl⟩
  | succ left ih =>
    intro si t1 s1 t2 s2 r1 r2 hn h1 h2 h hr1 hr2
    rw [elems] at h1 h2
    split at h1
    · exact absurd h1 (by simp)
    rename_i x1 y1 e1
    split at h2
    · exact absurd h2 (by simp)
    rename_i x2 y2 e2
    split at h1
    · exact absurd h1 (by simp)
    rename_i z1 k1 f1
    split at h2
    · exact absurd h2 (by simp)
    rename_i z2 k2 f2
    simp only [Option.some.injEq, Prod.mk.injEq] at h1 h2
    obtain ⟨rfl, rfl⟩ := h1
    obtain ⟨rfl, rfl⟩ := h2
    generalize hsep : (if left = 0 then [] else if (n - left) % 16 = 0 then [',', '\n'] else [',', ' ']) = sep at *
    simp only [List.append_assoc] at h
    have h' := List.append_cancel_left h
    have hsd : ∀ (z r : List Char), Delim r → (left = 0 → z = []) → Delim (sep ++ (z ++ r)) := by
      intro z r hr hz
      by_cases l0 : left = 0
      · rw [if_pos l0] at hsep
        rw [← hsep, hz l0]; simpa using hr
      · rw [if_neg l0] at hsep
        split at hsep
        · rw [← hsep]; exact delim_comma _
        · rw [← hsep]; exact delim_comma _
    have z0 : ∀ {o z k s}, left = 0 → elems c n o ic left s = some (z, k) → z = [] := by
      intro o z k s l0 hz
      subst l0
      rw [elems, Option.some.injEq, Prod.mk.injEq] at hz
      exact hz.1.symm
    obtain ⟨⟨v, hv1, hv2⟩, rfl, rfl⟩ := ho e1 e2 h' (hsd _ _ hr1 (fun l0 => z0 l0 f1)) (hsd _ _ hr2 (fun l0 => z0 l0 f2))
    have h'' := List.append_cancel_left h'
    obtain ⟨⟨vs, hw1, hw2⟩, rfl, rfl⟩ := ih (by omega) f1 f2 (List.append_cancel_left h'') hr1 hr2
    refine ⟨⟨v :: vs, ?_, ?_⟩, rfl, rfl⟩
    · rw [List.range'_succ, List.mapM_cons, hv1, show n - (left + 1) + 1 = n - left by omega, hw1]; rfl
    · rw [List.range'_succ, List.mapM_cons, hv2, show n - (left + 1) + 1 = n - left by omega, hw2]; rfl

include hc hm1 hm2 hd
mutual
theorem ua : ∀ (ty : Ty), Good ty → UA c m1 m2 d1 d2 b1 b2 lv ty
  | .int e sign size, hg => ua_int hc hm1 hm2 lv e sign size hg
  | .pointer to, _ => ua_pointer hc hd lv to
  | .struct fs, hg => by
    intro a1 a2 lit ic si t1 s1 t2 s2 r1 r2 h1 h2 h hr
    rw [Good] at hg
    cases lit with
    | true =>
      rw [print] at h1 h2
      split at h1
      · exact absurd h1 (by simp)
      rename_i u1 v1 e1
      split at h2
      · exact absurd h2 (by simp)
      rename_i u2 v2 e2
      simp only [Option.some.injEq, Prod.mk.injEq] at h1 h2
      obtain ⟨rfl, rfl⟩ := h1
      obtain ⟨rfl, rfl⟩ := h2
      obtain ⟨⟨vs, w1, w2⟩, hu, hs⟩ := uaF fs hg e1 e2 (cut3 h) (delim_nl _) (delim_nl _)
      refine ⟨⟨.parts vs, ?_, ?_⟩, by rw [hu], rfl⟩
      · rw [see, w1]; rfl
      · rw [see, w2]; rfl
    | false =>
      rw [print] at h1 h2
      split at h1
      · exact absurd h1 (by simp)
      rename_i u1 v1 e1
      split at h2
      · exact absurd h2 (by simp)
      rename_i u2 v2 e2
      simp only [Option.some.injEq, Prod.mk.injEq] at h1 h2
      obtain ⟨rfl, rfl⟩ := h1
      obtain ⟨rfl, rfl⟩ := h2
      simp only [List.append_assoc] at h
      have h' := List.append_cancel_left (List.append_cancel_left h)
      obtain ⟨⟨vs, w1, w2⟩, hu, hs⟩ := uaF fs hg e1 e2 h' (delim_nl _) (delim_nl _)
      refine ⟨⟨.parts vs, ?_, ?_⟩, by rw [hu, hs], rfl⟩
      · rw [see, w1]; rfl
      · rw [see, w2]; rfl
  | .array el sz n, hg => by
    intro a1 a2 lit ic si t1 s1 t2 s2 r1 r2 h1 h2 h hr
    rw [Good] at hg
    have ihe := ua el hg
    cases lit with
    | true =>
      rw [print] at h1 h2
      split at h1
      · exact absurd h1 (by simp)
      rename_i u1 v1 e1
      split at h2
      · exact absurd h2 (by simp)
      rename_i u2 v2 e2
      simp only [Option.some.injEq, Prod.mk.injEq] at h1 h2
      obtain ⟨rfl, rfl⟩ := h1
      obtain ⟨rfl, rfl⟩ := h2
      obtain ⟨⟨vs, w1, w2⟩, hu, hs⟩ := ua_elems (w1 := fun i => see .little m1 b1 el (a1 + sz * i)) (w2 := fun i => see .little m2 b2 el (a2 + sz * i))
        (fun k1 k2 k3 k4 k5 => ihe k1 k2 k3 (fun _ => ⟨k4, k5⟩)) n (Nat.le_refl _) e1 e2 (cut3 h) (delim_nl _) (delim_nl _)
      rw [Nat.sub_self, ← List.range_eq_range'] at w1 w2
      refine ⟨⟨.parts vs, ?_, ?_⟩, by rw [hu], rfl⟩
      · rw [see, w1]; rfl
      · rw [see, w2]; rfl
    | false =>
      rw [print] at h1 h2
      split at h1
      · exact absurd h1 (by simp)
      rename_i u1 v1 e1
      split at h2
      · exact absurd h2 (by simp)
      rename_i u2 v2 e2
      simp only [Option.some.injEq, Prod.mk.injEq] at h1 h2
      obtain ⟨rfl, rfl⟩ := h1
      obtain ⟨rfl, rfl⟩ := h2
      simp only [List.append_assoc] at h
      have h' := List.append_cancel_left (List.append_cancel_left h)
      have z1 := elems_si (fun k => print_si hd.si1 el k) n e1 (fun _ => rfl)
      have z2 := elems_si (fun k => print_si hd.si2 el k) n e2 (fun _ => rfl)
      subst z1 z2
      have hi : indent c ic false = [] := rfl
      rw [hi] at h'
      obtain ⟨⟨vs, w1, w2⟩, hu, hs⟩ := ua_elems (w1 := fun i => see .little m1 b1 el (a1 + sz * i)) (w2 := fun i => see .little m2 b2 el (a2 + sz * i))
        (fun k1 k2 k3 k4 k5 => ihe k1 k2 k3 (fun _ => ⟨k4, k5⟩)) n (Nat.le_refl _) e1 e2 h' (delim_space _) (delim_space _)
      rw [Nat.sub_self, ← List.range_eq_range'] at w1 w2
      refine ⟨⟨.parts vs, ?_, ?_⟩, by rw [hu], rfl⟩
      · rw [see, w1]; rfl
      · rw [see, w2]; rfl
  | .validator base, hg => by
    intro a1 a2 lit ic si t1 s1 t2 s2 r1 r2 h1 h2 h hr
    rw [Good] at hg
    have ihe := ua base hg
    rw [see, see]
    cases lit with
    | false =>
      rw [print] at h1 h2
      exact ihe h1 h2 h hr
    | true =>
      rw [print] at h1 h2
      split at h1
      · exact absurd h1 (by simp)
      rename_i u1 v1 e1
      split at h2
      · exact absurd h2 (by simp)
      rename_i u2 v2 e2
      simp only [Option.some.injEq, Prod.mk.injEq] at h1 h2
      obtain ⟨rfl, rfl⟩ := h1
      obtain ⟨rfl, rfl⟩ := h2
      obtain ⟨hv, hu, hs⟩ := ihe e1 e2 (cut3 h) (fun _ => ⟨delim_nl _, delim_nl _⟩)
      exact ⟨hv, by rw [hu], rfl⟩
theorem uaF : ∀ (fs : Fields), GoodFields fs → ∀ ⦃a1 a2 ic si t1 s1 t2 s2 r1 r2⦄, printFields c m1 d1 lv fs a1 ic si = some (t1, s1) →
    printFields c m2 d2 lv fs a2 ic si = some (t2, s2) → t1 ++ r1 = t2 ++ r2 → Delim r1 → Delim r2 →
    (∃ vs, seeFields .little m1 b1 fs a1 = some vs ∧ seeFields .little m2 b2 fs a2 = some vs) ∧ t1 = t2 ∧ s1 = s2
  | .nil, _ => by
    intro a1 a2 ic si t1 s1 t2 s2 r1 r2 h1 h2 _ _ _
    rw [printFields, Option.some.injEq, Prod.mk.injEq] at h1 h2
    obtain ⟨rfl, rfl⟩ := h1
    obtain ⟨rfl, rfl⟩ := h2
    exact ⟨⟨[], by rw [seeFields], by rw [seeFields]⟩, rfl, rfl⟩
  | .cons name off ty rest, hg => by
    intro a1 a2 ic si t1 s1 t2 s2 r1 r2 h1 h2 h hr1 hr2
    rw [GoodFields] at hg
    have ihe := ua ty hg.1
    rw [printFields] at h1 h2
    split at h1
    · exact absurd h1 (by simp)
    rename_i x1 y1 e1
    split at h2
    · exact absurd h2 (by simp)
    rename_i x2 y2 e2
    split at h1
    · exact absurd h1 (by simp)
    rename_i z1 k1 f1
    split at h2
    · exact absurd h2 (by simp)
    rename_i z2 k2 f2
    simp only [Option.some.injEq, Prod.mk.injEq] at h1 h2
    obtain ⟨rfl, rfl⟩ := h1
    obtain ⟨rfl, rfl⟩ := h2
    have hsd : ∀ {m d a z k} (r : List Char), Delim r → printFields c m d lv rest a ic true = some (z, k) →
        Delim (fieldSep rest ++ (z ++ r)) := by
      intro m d a z k r hr hz
      cases rest with
      | nil =>
        rw [printFields, Option.some.injEq, Prod.mk.injEq] at hz
        rw [← hz.1]; simpa [fieldSep] using hr
      | cons _ _ _ _ => exact delim_comma _
    simp only [List.append_assoc] at h
    have h' := List.append_cancel_left (List.append_cancel_left h)
    obtain ⟨⟨v, hv1, hv2⟩, rfl, rfl⟩ := ihe e1 e2 h' (fun _ => ⟨hsd _ hr1 f1, hsd _ hr2 f2⟩)
    have h'' := List.append_cancel_left h'
    obtain ⟨⟨vs, hw1, hw2⟩, rfl, rfl⟩ := uaF rest hg.2 f1 f2 (List.append_cancel_left h'') hr1 hr2
    refine ⟨⟨v :: vs, ?_, ?_⟩, rfl, rfl⟩
    · rw [seeFields, hv1, hw1]; rfl
    · rw [seeFields, hv2, hw2]; rfl
end
end

theorem flat_head {ind t : List Char} (h : ∀ ch, ind.head? = some ch → ch ≠ 'N') (n : Nat) :
    ∃ ch t', (List.replicate n ind).flatten ++ '&' :: t = ch :: t' ∧ ch ≠ 'N' := by
  cases ind with
  | nil => exact ⟨'&', t, by simp, by decide⟩
  | cons x xs =>
    cases n with
    | zero => exact ⟨'&', t, by simp, by decide⟩
    | succ n => exact ⟨x, _, by rw [List.replicate_succ, List.flatten_cons, List.cons_append, List.cons_append], h x rfl⟩

theorem deref_head {c : Ctx} (hc : CtxOk c) {m : Mem} {left to p ic : Nat} {si : Bool} {t : List Char} {s : Bool}
    (h : derefAt c m left to p ic si = some (t, s)) : ∃ ch t', t = ch :: t' ∧ ch ≠ 'N' := by
  cases left with
  | zero =>
    rw [derefAt, Option.some.injEq, Prod.mk.injEq] at h
    exact ⟨_, _, h.1.symm, by decide⟩
  | succ left =>
    rw [derefAt] at h
    split at h
    · rw [Option.some.injEq, Prod.mk.injEq] at h
      exact ⟨_, _, h.1.symm, by decide⟩
    · split at h
      · exact absurd h (by simp)
      rw [Option.some.injEq, Prod.mk.injEq] at h
      rw [← h.1, indent]
      split
      · exact flat_head hc.ind ic
      · exact ⟨'&', _, rfl, by decide⟩

theorem deref_si {c : Ctx} {m : Mem} {left : Nat} : ∀ {to p ic t s}, derefAt c m left to p ic false = some (t, s) → s = false := by
  induction left with
  | zero =>
    intro to p ic t s h
    rw [derefAt, Option.some.injEq, Prod.mk.injEq] at h
    exact h.2.symm
  | succ left ih =>
    intro to p ic t s h
    rw [derefAt] at h
    split at h
    · rw [Option.some.injEq, Prod.mk.injEq] at h
      exact h.2.symm
    · split at h
      · exact absurd h (by simp)
      rename_i e
      rw [Option.some.injEq, Prod.mk.injEq] at h
      rw [← h.2]
      exact print_si ih _ e

theorem void_eq {c : Ctx} (hc : CtxOk c) {p1 p2 : Nat} {r1 r2 : List Char} (h1 : Delim r1) (h2 : Delim r2)
    (h : (['(', 'v', 'o', 'i', 'd', '*', ')'] ++ c.ptrText p1) ++ r1 = (['(', 'v', 'o', 'i', 'd', '*', ')'] ++ c.ptrText p2) ++ r2) : p1 = p2 := by
  rw [List.append_assoc, List.append_assoc] at h
  exact hc.ptrInj _ _ (upto (hc.ptrText p1) (hc.ptrText p2) h1 h2 (List.append_cancel_left h)).1

theorem deref_sound {c : Ctx} (hc : CtxOk c) {m1 m2 : Mem} (hm1 : Bytes m1) (hm2 : Bytes m2) (left : Nat) :
    Sound (derefAt c m1 left) (derefAt c m2 left) (behind .little c.env m1 left) (behind .little c.env m2 left) := by
  induction left with
  | zero =>
    refine ⟨?_, deref_si, deref_si, deref_head hc, deref_head hc⟩
    intro to p1 p2 ic si t1 s1 t2 s2 r1 r2 h1 h2 h hr1 hr2
    rw [derefAt, Option.some.injEq, Prod.mk.injEq] at h1 h2
    obtain ⟨rfl, rfl⟩ := h1
    obtain ⟨rfl, rfl⟩ := h2
    obtain rfl := void_eq hc hr1 hr2 h
    exact ⟨⟨_, rfl, rfl⟩, rfl, rfl⟩
  | succ left ih =>
    refine ⟨?_, deref_si, deref_si, deref_head hc, deref_head hc⟩
    intro to p1 p2 ic si t1 s1 t2 s2 r1 r2 h1 h2 h hr1 hr2
    rw [derefAt] at h1 h2
    rw [behind, behind]
    cases he : c.env to with
    | none =>
      rw [he] at h1 h2
      simp only [Option.some.injEq, Prod.mk.injEq] at h1 h2
      obtain ⟨rfl, rfl⟩ := h1
      obtain ⟨rfl, rfl⟩ := h2
      obtain rfl := void_eq hc hr1 hr2 h
      exact ⟨⟨_, rfl, rfl⟩, rfl, rfl⟩
    | some ty =>
      rw [he] at h1 h2
      simp only [] at h1 h2
      split at h1
      · exact absurd h1 (by simp)
      rename_i x1 y1 e1
      split at h2
      · exact absurd h2 (by simp)
      rename_i x2 y2 e2
      rw [Option.some.injEq, Prod.mk.injEq] at h1 h2
      obtain ⟨rfl, rfl⟩ := h1
      obtain ⟨rfl, rfl⟩ := h2
      rw [List.append_assoc, List.append_assoc] at h
      have h' := (List.cons.inj (List.append_cancel_left h)).2
      obtain ⟨⟨v, w1, w2⟩, hu, hs⟩ := ua hc hm1 hm2 ih _ ty (hc.env to ty he) e1 e2 h' (by simp)
      refine ⟨⟨.leadsTo v, ?_, ?_⟩, by rw [hu], hs⟩
      · simp only [w1, Option.map_some]
      · simp only [w2, Option.map_some]

/-! ## Equal data, equal texts -/

/-- Equal data behind pointers have equal texts. -/
structure Full (d1 d2 : Deref) (b1 b2 : Nat → Nat → Option View) : Prop where
  eq : ∀ {to p1 p2 v}, b1 to p1 = some v → b2 to p2 = some v → ∀ ic si, ∃ x, d1 to p1 ic si = some x ∧ d2 to p2 ic si = some x
  null1 : ∀ {to p}, b1 to p ≠ some .null
  null2 : ∀ {to p}, b2 to p ≠ some .null

theorem full_elems {c : Ctx} {n ic : Nat} {o1 o2 : Nat → Bool → Option (List Char × Bool)} {w1 w2 : Nat → Option View}
    (ho : ∀ {i v}, w1 i = some v → w2 i = some v → ∃ x, o1 i false = some x ∧ o2 i false = some x) :
    ∀ (left : Nat) {vs}, left ≤ n → (List.range' (n - left) left).mapM w1 = some vs → (List.range' (n - left) left).mapM w2 = some vs → ∀ si,
      ∃ x, elems c n o1 ic left si = some x ∧ elems c n o2 ic left si = some x := by
  intro left
  induction left with
  | zero => intro vs _ _ _ si; exact ⟨_, rfl, rfl⟩
  | succ left ih =>
    intro vs hn h1 h2 si
    rw [List.range'_succ, List.mapM_cons, show n - (left + 1) + 1 = n - left by omega] at h1 h2
    cases hv1 : w1 (n - (left + 1)) with
    | none => rw [hv1] at h1; exact absurd h1 (by simp)
    | some v =>
    cases hv2 : w2 (n - (left + 1)) with
    | none => rw [hv2] at h2; exact absurd h2 (by simp)
    | some v' =>
    cases hw1 : (List.range' (n - left) left).mapM w1 with
    | none => rw [hv1, hw1] at h1; exact absurd h1 (by simp)
    | some us =>
    cases hw2 : (List.range' (n - left) left).mapM w2 with
    | none => rw [hv2, hw2] at h2; exact absurd h2 (by simp)
    | some us' =>
    rw [hv1, hw1] at h1
    rw [hv2, hw2] at h2
    have e1 : v :: us = vs := Option.some.inj h1
    have e2 : v' :: us' = vs := Option.some.inj h2
    subst e1
    obtain ⟨rfl, rfl⟩ := List.cons.inj e2
    obtain ⟨⟨x, s⟩, k1, k2⟩ := ho hv1 hv2
    obtain ⟨⟨y, s'⟩, j1, j2⟩ := ih (by omega) hw1 hw2 (if left ≠ 0 ∧ (n - left) % 16 = 0 then true else s)
    rw [elems, elems, k1, k2]
    simp only []
    rw [j1, j2]
    exact ⟨_, rfl, rfl⟩

section
variable {c : Ctx} (hc : CtxOk c) {m1 m2 : Mem} (hm1 : Bytes m1) (hm2 : Bytes m2) {d1 d2 : Deref} {b1 b2 : Nat → Nat → Option View}
  (hd : Full d1 d2 b1 b2) (lv : Nat)

/-- What is to be shown of a type. -/
def FU (c : Ctx) (m1 m2 : Mem) (d1 d2 : Deref) (b1 b2 : Nat → Nat → Option View) (lv : Nat) (ty : Ty) : Prop :=
  ∀ ⦃a1 a2 v⦄, see .little m1 b1 ty a1 = some v → see .little m2 b2 ty a2 = some v → ∀ lit ic si,
    ∃ x, print c m1 d1 lv ty a1 lit ic si = some x ∧ print c m2 d2 lv ty a2 lit ic si = some x

include hc hm1 hm2 hd
mutual
theorem fu : ∀ (ty : Ty), Good ty → FU c m1 m2 d1 d2 b1 b2 lv ty
  | .int e sign size, hg => by
    intro a1 a2 v h1 h2 lit ic si
    obtain ⟨hg1, hg2⟩ := hg
    rw [see] at h1 h2
    cases hb1 : readBytes m1 a1 size with
    | none => rw [hb1] at h1; exact absurd h1 (by simp)
    | some x1 =>
    cases hb2 : readBytes m2 a2 size with
    | none => rw [hb2] at h2; exact absurd h2 (by simp)
    | some x2 =>
    rw [hb1, Option.map_some, Option.some.injEq] at h1
    rw [hb2, Option.map_some, Option.some.injEq] at h2
    have l1 := readBytes_lt hm1 hb1
    have l2 := readBytes_lt hm2 hb2
    have p1 := printInt_text (e := e) (readBytes_len hb1) l1 hg1 hg2
    have p2 := printInt_text (e := e) (readBytes_len hb2) l2 hg1 hg2
    have ht := intText_of_value (sign := sign) l1 l2 (readBytes_len hb1) (readBytes_len hb2) (View.int.inj (h1.trans h2.symm))
    rw [← ht] at p2
    cases lit <;>
    · rw [print, print, hb1, hb2]
      simp only [hc.host, p1, p2]
      exact ⟨_, rfl, rfl⟩
  | .pointer to, _ => by
    intro a1 a2 v h1 h2 lit ic si
    rw [see] at h1 h2
    cases hb1 : readPtr .little m1 a1 with
    | none => rw [hb1] at h1; exact absurd h1 (by simp)
    | some p1 =>
    cases hb2 : readPtr .little m2 a2 with
    | none => rw [hb2] at h2; exact absurd h2 (by simp)
    | some p2 =>
    rw [hb1, Option.bind_some] at h1
    rw [hb2, Option.bind_some] at h2
    have key : ∀ ic si, ∃ x, (if p1 = 0 then some (['N', 'U', 'L', 'L'], si) else d1 to p1 ic si) = some x ∧
        (if p2 = 0 then some (['N', 'U', 'L', 'L'], si) else d2 to p2 ic si) = some x := by
      intro ic si
      by_cases z1 : p1 = 0
      · rw [if_pos z1, Option.some.injEq] at h1
        subst h1
        by_cases z2 : p2 = 0
        · rw [if_pos z1, if_pos z2]; exact ⟨_, rfl, rfl⟩
        · rw [if_neg z2] at h2; exact absurd h2 hd.null2
      · rw [if_neg z1] at h1
        by_cases z2 : p2 = 0
        · rw [if_pos z2, Option.some.injEq] at h2
          subst h2; exact absurd h1 hd.null1
        · rw [if_neg z2] at h2
          rw [if_neg z1, if_neg z2]; exact hd.eq h1 h2 ic si
    cases lit with
    | false =>
      rw [print, print, hc.host, hb1, hb2]
      exact key ic si
    | true =>
      obtain ⟨x, k1, k2⟩ := key (ic + 1) true
      rw [print, print, hc.host, hb1, hb2]
      simp only []
      rw [k1, k2]
      exact ⟨_, rfl, rfl⟩
  | .struct fs, hg => by
    intro a1 a2 v h1 h2 lit ic si
    rw [Good] at hg
    rw [see] at h1 h2
    cases f1 : seeFields .little m1 b1 fs a1 with
    | none => rw [f1] at h1; exact absurd h1 (by simp)
    | some u1 =>
    cases f2 : seeFields .little m2 b2 fs a2 with
    | none => rw [f2] at h2; exact absurd h2 (by simp)
    | some u2 =>
    rw [f1, Option.map_some, Option.some.injEq] at h1
    rw [f2, Option.map_some, Option.some.injEq] at h2
    obtain rfl := View.parts.inj (h1.trans h2.symm)
    obtain ⟨⟨x, s⟩, k1, k2⟩ := fuF fs hg f1 f2 (ic + 1) true
    cases lit <;>
    · rw [print, print, k1, k2]
      exact ⟨_, rfl, rfl⟩
  | .array el sz n, hg => by
    intro a1 a2 v h1 h2 lit ic si
    rw [Good] at hg
    have ihe := fu el hg
    rw [see] at h1 h2
    cases f1 : (List.range n).mapM fun i => see .little m1 b1 el (a1 + sz * i) with
    | none => rw [f1] at h1; exact absurd h1 (by simp)
    | some u1 =>
    cases f2 : (List.range n).mapM fun i => see .little m2 b2 el (a2 + sz * i) with
    | none => rw [f2] at h2; exact absurd h2 (by simp)
    | some u2 =>
    rw [f1, Option.map_some, Option.some.injEq] at h1
    rw [f2, Option.map_some, Option.some.injEq] at h2
    obtain rfl := View.parts.inj (h1.trans h2.symm)
    have key : ∀ ic si, ∃ x, elems c n (fun i s => print c m1 d1 lv el (a1 + sz * i) false ic s) ic n si = some x ∧
        elems c n (fun i s => print c m2 d2 lv el (a2 + sz * i) false ic s) ic n si = some x := by
      intro ic si
      refine full_elems (vs := u1) (fun k1 k2 => ihe k1 k2 false ic false) n (Nat.le_refl _) ?_ ?_ si
      · rw [Nat.sub_self, ← List.range_eq_range']; exact f1
      · rw [Nat.sub_self, ← List.range_eq_range']; exact f2
    cases lit with
    | false =>
      obtain ⟨⟨x, s⟩, k1, k2⟩ := key ic false
      rw [print, print, k1, k2]
      exact ⟨_, rfl, rfl⟩
    | true =>
      obtain ⟨⟨x, s⟩, k1, k2⟩ := key (ic + 1) true
      rw [print, print, k1, k2]
      exact ⟨_, rfl, rfl⟩
  | .validator base, hg => by
    intro a1 a2 v h1 h2 lit ic si
    rw [Good] at hg
    have ihe := fu base hg
    rw [see] at h1 h2
    cases lit with
    | false =>
      rw [print, print]
      exact ihe h1 h2 false ic si
    | true =>
      obtain ⟨⟨x, s⟩, k1, k2⟩ := ihe h1 h2 false (ic + 1) true
      rw [print, print, k1, k2]
      exact ⟨_, rfl, rfl⟩
theorem fuF : ∀ (fs : Fields), GoodFields fs → ∀ ⦃a1 a2 vs⦄, seeFields .little m1 b1 fs a1 = some vs → seeFields .little m2 b2 fs a2 = some vs →
    ∀ ic si, ∃ x, printFields c m1 d1 lv fs a1 ic si = some x ∧ printFields c m2 d2 lv fs a2 ic si = some x
  | .nil, _ => by
    intro a1 a2 vs _ _ ic si
    rw [printFields, printFields]; exact ⟨_, rfl, rfl⟩
  | .cons name off ty rest, hg => by
    intro a1 a2 vs h1 h2 ic si
    rw [GoodFields] at hg
    rw [seeFields] at h1 h2
    cases f1 : see .little m1 b1 ty (a1 + off) with
    | none => rw [f1] at h1; exact absurd h1 (by simp)
    | some u1 =>
    cases f2 : see .little m2 b2 ty (a2 + off) with
    | none => rw [f2] at h2; exact absurd h2 (by simp)
    | some u2 =>
    cases g1 : seeFields .little m1 b1 rest a1 with
    | none => rw [f1, g1] at h1; exact absurd h1 (by simp)
    | some w1 =>
    cases g2 : seeFields .little m2 b2 rest a2 with
    | none => rw [f2, g2] at h2; exact absurd h2 (by simp)
    | some w2 =>
    rw [f1, g1] at h1
    rw [f2, g2] at h2
    have e1 : u1 :: w1 = vs := Option.some.inj h1
    have e2 : u2 :: w2 = vs := Option.some.inj h2
    subst e1
    obtain ⟨rfl, rfl⟩ := List.cons.inj e2
    obtain ⟨⟨x, s⟩, k1, k2⟩ := fu ty hg.1 f1 f2 false ic false
    obtain ⟨⟨y, s'⟩, j1, j2⟩ := fuF rest hg.2 g1 g2 ic true
    rw [printFields, printFields, k1, k2]
    simp only []
    rw [j1, j2]
    exact ⟨_, rfl, rfl⟩
end
end

theorem behind_null {h : Host} {env : Nat → Option Ty} {m : Mem} {left to p : Nat} : behind h env m left to p ≠ some .null := by
  cases left with
  | zero => rw [behind]; simp
  | succ left =>
    rw [behind]
    split
    · simp
    · intro he
      obtain ⟨v, _, hv⟩ := Option.map_eq_some_iff.1 he
      exact absurd hv (by simp)

theorem deref_full {c : Ctx} (hc : CtxOk c) {m1 m2 : Mem} (hm1 : Bytes m1) (hm2 : Bytes m2) (left : Nat) :
    Full (derefAt c m1 left) (derefAt c m2 left) (behind .little c.env m1 left) (behind .little c.env m2 left) := by
  induction left with
  | zero =>
    refine ⟨?_, behind_null, behind_null⟩
    intro to p1 p2 v h1 h2 ic si
    rw [behind, Option.some.injEq] at h1 h2
    obtain rfl := View.address.inj (h1.trans h2.symm)
    exact ⟨_, rfl, rfl⟩
  | succ left ih =>
    refine ⟨?_, behind_null, behind_null⟩
    intro to p1 p2 v h1 h2 ic si
    rw [behind] at h1 h2
    rw [derefAt, derefAt]
    cases he : c.env to with
    | none =>
      rw [he] at h1 h2
      simp only [Option.some.injEq] at h1 h2
      obtain rfl := View.address.inj (h1.trans h2.symm)
      exact ⟨_, rfl, rfl⟩
    | some ty =>
      rw [he] at h1 h2
      simp only [] at h1 h2 ⊢
      obtain ⟨v1, w1, e1⟩ := Option.map_eq_some_iff.1 h1
      obtain ⟨v2, w2, e2⟩ := Option.map_eq_some_iff.1 h2
      obtain rfl := View.leadsTo.inj (e1.trans e2.symm)
      obtain ⟨⟨x, s⟩, k1, k2⟩ := fu hc hm1 hm2 ih (levelsMax - left) ty (hc.env to ty he) w1 w2 true ic false
      rw [k1, k2]
      exact ⟨_, rfl, rfl⟩

/-! ## The property -/

/-- What is seen of data when at most 20 pointers are followed. -/
def Spec.seen (c : Ctx) (m : Mem) (ty : Ty) (a : Nat) : Option View := see .little m (behind .little c.env m 20) ty a

theorem tabOk {c : Ctx} (hc : CtxOk c) : CtxOk { c with ind := ['\t'] } :=
  ⟨hc.host, hc.ptrInj, hc.ptrText, by intro ch h; simp only [List.head?_cons, Option.some.injEq] at h; subst h; decide, hc.env⟩

/-- **C120.** Data that can be read is printed, however its pointers are connected. -/
theorem C120_printed_partial {c : Ctx} (hc : CtxOk c) {m : Mem} (hm : Bytes m) {ty : Ty} (hg : Good ty) (a : Nat) :
    (∃ t, reflectPrint c m ty a = some t) ↔ (∃ v, seen c m ty a = some v) := by
  have hc' := tabOk hc
  constructor
  · intro ⟨t, h⟩
    rw [reflectPrint] at h
    split at h
    · exact absurd h (by simp)
    rename_i x s e
    obtain ⟨⟨v, hv, _⟩, _⟩ := ua hc' hm hm (deref_sound hc' hm hm levelsMax) 0 ty hg (r1 := []) (r2 := []) e e rfl (by simp)
    exact ⟨v, hv⟩
  · intro ⟨v, hv⟩
    obtain ⟨x, h1, _⟩ := fu hc' hm hm (deref_full hc' hm hm levelsMax) 0 ty hg hv hv true 0 true
    rw [reflectPrint, h1]
    exact ⟨_, rfl⟩

/-- **C120.** Two printed texts are the same exactly when the same is seen in memory: every integer, which pointers are NULL, what is behind the others
up to the twentieth pointer, and from there on the addresses. -/
theorem C120_text_partial {c : Ctx} (hc : CtxOk c) {m1 m2 : Mem} (hm1 : Bytes m1) (hm2 : Bytes m2) {ty : Ty} (hg : Good ty) {a1 a2 : Nat}
    {t1 t2 : List Char} (h1 : reflectPrint c m1 ty a1 = some t1) (h2 : reflectPrint c m2 ty a2 = some t2) :
    t1 = t2 ↔ seen c m1 ty a1 = seen c m2 ty a2 := by
  have hc' := tabOk hc
  constructor
  · intro h
    subst h
    rw [reflectPrint] at h1 h2
    split at h1
    · exact absurd h1 (by simp)
    rename_i x1 s1 e1
    split at h2
    · exact absurd h2 (by simp)
    rename_i x2 s2 e2
    rw [Option.some.injEq] at h1 h2
    obtain ⟨⟨v, w1, w2⟩, _⟩ := ua hc' hm1 hm2 (deref_sound hc' hm1 hm2 levelsMax) 0 ty hg e1 e2 (h1.trans h2.symm) (by simp)
    exact w1.trans w2.symm
  · intro h
    obtain ⟨v, hv⟩ := (C120_printed_partial hc hm1 hg a1).1 ⟨t1, h1⟩
    obtain ⟨x, k1, k2⟩ := fu hc' hm1 hm2 (deref_full hc' hm1 hm2 levelsMax) 0 ty hg hv (h.symm.trans hv) true 0 true
    rw [reflectPrint, k1] at h1
    rw [reflectPrint, k2] at h2
    exact Option.some.inj (h1.symm.trans h2)

/-! ## Braces -/

namespace Spec

/-- How many braces are open after a text when `d` are open before; `none` when one is closed that was not opened. -/
def walk : Nat → List Char → Option Nat
  | d, [] => some d
  | d, ch :: t => if ch = '{' then walk (d + 1) t else if ch = '}' then (match d with | 0 => none | d + 1 => walk d t) else walk d t

/-- Braces are balanced. -/
def Balanced (t : List Char) : Prop := walk 0 t = some 0

mutual
/-- Names of fields have balanced braces. -/
def Names : Ty → Prop
  | .int _ _ _ => True
  | .pointer _ => True
  | .struct fs => NamesFields fs
  | .array el _ _ => Names el
  | .validator base => Names base
/-- The same for fields. -/
def NamesFields : Fields → Prop
  | .nil => True
  | .cons name _ ty rest => (∀ n, name = some n → Balanced n) ∧ Names ty ∧ NamesFields rest
end

end Spec

theorem walk_append (d : Nat) (a b : List Char) : walk d (a ++ b) = (walk d a).bind fun d' => walk d' b := by
  induction a generalizing d with
  | nil => rfl
  | cons ch t ih =>
    simp only [List.cons_append, walk]
    split
    · exact ih _
    · split
      · cases d with
        | zero => rfl
        | succ d => exact ih _
      · exact ih _

theorem walk_up {t : List Char} {d e : Nat} (h : walk d t = some e) (k : Nat) : walk (d + k) t = some (e + k) := by
  induction t generalizing d with
  | nil => simp only [walk, Option.some.injEq] at h ⊢; omega
  | cons ch t ih =>
    simp only [walk] at h ⊢
    split
    · rename_i hc
      rw [if_pos hc] at h
      have := ih h
      rwa [show d + 1 + k = d + k + 1 by omega] at this
    · rename_i hc
      rw [if_neg hc] at h
      split
      · rename_i hc2
        rw [if_pos hc2] at h
        cases d with
        | zero => exact absurd h (by simp)
        | succ d => rw [show d + 1 + k = (d + k) + 1 by omega]; exact ih h
      · rename_i hc2
        rw [if_neg hc2] at h
        exact ih h

theorem Spec.Balanced.walk {t : List Char} (h : Balanced t) (d : Nat) : walk d t = some d := by
  have := walk_up h d
  simpa using this

theorem bal_append {a b : List Char} (ha : Balanced a) (hb : Balanced b) : Balanced (a ++ b) := by
  rw [Balanced, walk_append, ha.walk]; exact hb

theorem bal_none {t : List Char} (h : ∀ ch ∈ t, ch ≠ '{' ∧ ch ≠ '}') : Balanced t := by
  rw [Balanced]
  induction t with
  | nil => rfl
  | cons ch t ih =>
    rw [walk, if_neg (h ch (by simp)).1, if_neg (h ch (by simp)).2]
    exact ih (fun x hx => h x (by simp [hx]))

theorem bal_flat {t : List Char} (h : Balanced t) (n : Nat) : Balanced (List.replicate n t).flatten := by
  induction n with
  | zero => rfl
  | succ n ih => rw [List.replicate_succ, List.flatten_cons]; exact bal_append h ih

theorem bal_indent {c : Ctx} (h : Balanced c.ind) (n : Nat) (si : Bool) : Balanced (indent c n si) := by
  rw [indent]; split
  · exact bal_flat h n
  · rfl

/-- A text between a text that opens a brace and one that closes it. -/
theorem bal_between {a b z : List Char} (ha : walk 0 a = some 1) (hb : Balanced b) (hz : walk 1 z = some 0) : Balanced (a ++ b ++ z) := by
  rw [Balanced, List.append_assoc, walk_append, ha, Option.bind_some, walk_append, hb.walk, Option.bind_some]; exact hz

theorem walk_opening {c : Ctx} (hi : Balanced c.ind) (ht : ∀ l ty n, Balanced (c.typeText l ty n)) (lv : Nat) (ty : Ty) (ic : Nat) (si : Bool) :
    walk 0 (opening c lv ty ic si) = some 1 := by
  rw [opening, walk_append, walk_append, (bal_indent hi ic si).walk, Option.bind_some]
  have e1 : walk 0 ('(' :: c.typeText lv ty ic) = some 0 := by
    rw [walk, if_neg (by decide), if_neg (by decide)]; exact (ht lv ty ic).walk 0
  rw [e1]
  rfl

theorem walk_closing {c : Ctx} (hi : Balanced c.ind) (ic : Nat) : walk 1 (closing c ic) = some 0 := by
  rw [closing, walk, if_neg (by decide), if_neg (by decide), walk_append, (bal_indent hi _ _).walk]
  rfl

section
variable {c : Ctx} (hh : c.host = .little) (hi : Balanced c.ind) (ht : ∀ l ty n, Balanced (c.typeText l ty n)) {m : Mem} (hm : Bytes m) {d : Deref}
  (hd : ∀ {to p ic si t s}, d to p ic si = some (t, s) → Balanced t) (lv : Nat)

include hi in
theorem bal_elems {n ic : Nat} {o : Nat → Bool → Option (List Char × Bool)} (ho : ∀ {i t s}, o i false = some (t, s) → Balanced t) :
    ∀ (left : Nat) {si t s}, elems c n o ic left si = some (t, s) → Balanced t := by
  intro left
  induction left with
  | zero =>
    intro si t s h
    rw [elems, Option.some.injEq, Prod.mk.injEq] at h
    rw [← h.1]; rfl
  | succ left ih =>
    intro si t s h
    rw [elems] at h
    split at h
    · exact absurd h (by simp)
    rename_i x y e
    split at h
    · exact absurd h (by simp)
    rename_i z k f
    simp only [Option.some.injEq, Prod.mk.injEq] at h
    rw [← h.1]
    refine bal_append (bal_append (bal_indent hi _ _) (ho e)) (bal_append ?_ (ih f))
    split
    · rfl
    · split <;> rfl

theorem intText_brace {e : Endian} {sign : Bool} {size : Nat} {bs : List Nat} (hb : ∀ b ∈ bs, b < 256) :
    ∀ ch ∈ intText e sign size bs, ch ≠ '{' ∧ ch ≠ '}' := by
  rw [intText]
  have hdig : ∀ (n : Nat), ∀ ch ∈ Nat.toDigits 10 n, ch ≠ '{' ∧ ch ≠ '}' := by
    intro n ch h
    have := Nat.isDigit_of_mem_toDigits (b := 10) (by decide) (by decide) h
    constructor <;> rintro rfl <;> exact absurd this (by decide)
  split
  · rw [decimal]
    split
    · intro ch h
      rcases List.mem_cons.1 h with rfl | h
      · decide
      · exact hdig _ ch h
    · exact hdig _
  · intro ch h
    rcases List.mem_cons.1 h with rfl | h
    · decide
    rcases List.mem_cons.1 h with rfl | h
    · decide
    obtain ⟨b, hbm, h⟩ := List.mem_flatMap.1 h
    have := PrintInt.sig_lt .little e hb b (List.mem_reverse.1 hbm)
    have hx : ∀ n, n < 16 → hexDigit n ≠ '{' ∧ hexDigit n ≠ '}' := by decide
    simp only [hexByte, List.mem_cons, List.not_mem_nil, or_false] at h
    rcases h with rfl | rfl
    · exact hx _ (by omega)
    · exact hx _ (by omega)

include hh hi ht hm hd
mutual
theorem bal_print : ∀ (ty : Ty), Good ty → Names ty → ∀ ⦃a lit ic si t s⦄, print c m d lv ty a lit ic si = some (t, s) → Balanced t
  | .int e sign size, hg, _ => by
    intro a lit ic si t s h
    obtain ⟨hg1, hg2⟩ := hg
    cases hb : readBytes m a size with
    | none => cases lit <;> · rw [print, hb] at h; exact absurd h (by simp)
    | some x =>
    have l := readBytes_lt hm hb
    have p := printInt_text (e := e) (readBytes_len hb) l hg1 hg2
    have hbt : Balanced (intText e sign size x) := bal_none (intText_brace l)
    cases lit with
    | false =>
      rw [print, hb] at h
      simp only [hh, p, Option.some.injEq, Prod.mk.injEq] at h
      rw [← h.1]
      exact bal_append (bal_indent hi _ _) hbt
    | true =>
      rw [print, hb] at h
      simp only [hh, p, Option.some.injEq, Prod.mk.injEq] at h
      rw [← h.1]
      exact bal_between (walk_opening hi ht _ _ _ _) (bal_append (bal_indent hi _ _) hbt) (walk_closing hi _)
  | .pointer to, _, _ => by
    intro a lit ic si t s h
    have key : ∀ {p ic si u s}, (if p = 0 then some (['N', 'U', 'L', 'L'], si) else d to p ic si) = some (u, s) → Balanced u := by
      intro p ic si u s hk
      split at hk
      · rw [Option.some.injEq, Prod.mk.injEq] at hk
        rw [← hk.1]; rfl
      · exact hd hk
    cases lit with
    | false =>
      rw [print] at h
      split at h
      · exact absurd h (by simp)
      exact key h
    | true =>
      rw [print] at h
      split at h
      · exact absurd h (by simp)
      split at h
      · exact absurd h (by simp)
      rename_i e
      simp only [Option.some.injEq, Prod.mk.injEq] at h
      rw [← h.1]
      exact bal_between (walk_opening hi ht _ _ _ _) (key e) (walk_closing hi _)
  | .struct fs, hg, hn => by
    intro a lit ic si t s h
    rw [Good] at hg
    rw [Names] at hn
    cases lit with
    | false =>
      rw [print] at h
      split at h
      · exact absurd h (by simp)
      rename_i e
      simp only [Option.some.injEq, Prod.mk.injEq] at h
      rw [← h.1]
      refine bal_between ?_ (bal_fields fs hg hn e) ?_
      · rw [walk_append, (bal_indent hi _ _).walk]; rfl
      · rw [walk, if_neg (by decide), if_neg (by decide), walk_append, (bal_indent hi _ _).walk]; rfl
    | true =>
      rw [print] at h
      split at h
      · exact absurd h (by simp)
      rename_i e
      simp only [Option.some.injEq, Prod.mk.injEq] at h
      rw [← h.1]
      exact bal_between (walk_opening hi ht _ _ _ _) (bal_fields fs hg hn e) (walk_closing hi _)
  | .array el sz n, hg, hn => by
    intro a lit ic si t s h
    rw [Good] at hg
    rw [Names] at hn
    have ihe := bal_print el hg hn
    cases lit with
    | false =>
      rw [print] at h
      split at h
      · exact absurd h (by simp)
      rename_i e
      simp only [Option.some.injEq, Prod.mk.injEq] at h
      rw [← h.1]
      refine bal_between ?_ (bal_elems hi (fun k => ihe k) n e) ?_
      · rw [walk_append, (bal_indent hi _ _).walk]; rfl
      · rw [walk_append, (bal_indent hi _ _).walk]; rfl
    | true =>
      rw [print] at h
      split at h
      · exact absurd h (by simp)
      rename_i e
      simp only [Option.some.injEq, Prod.mk.injEq] at h
      rw [← h.1]
      exact bal_between (walk_opening hi ht _ _ _ _) (bal_elems hi (fun k => ihe k) n e) (walk_closing hi _)
  | .validator base, hg, hn => by
    intro a lit ic si t s h
    rw [Good] at hg
    rw [Names] at hn
    have ihe := bal_print base hg hn
    cases lit with
    | false =>
      rw [print] at h
      exact ihe h
    | true =>
      rw [print] at h
      split at h
      · exact absurd h (by simp)
      rename_i e
      simp only [Option.some.injEq, Prod.mk.injEq] at h
      rw [← h.1]
      exact bal_between (walk_opening hi ht _ _ _ _) (ihe e) (walk_closing hi _)
theorem bal_fields : ∀ (fs : Fields), GoodFields fs → NamesFields fs → ∀ ⦃a ic si t s⦄, printFields c m d lv fs a ic si = some (t, s) → Balanced t
  | .nil, _, _ => by
    intro a ic si t s h
    rw [printFields, Option.some.injEq, Prod.mk.injEq] at h
    rw [← h.1]; rfl
  | .cons name off ty rest, hg, hn => by
    intro a ic si t s h
    rw [GoodFields] at hg
    rw [NamesFields] at hn
    rw [printFields] at h
    split at h
    · exact absurd h (by simp)
    rename_i e
    split at h
    · exact absurd h (by simp)
    rename_i f
    simp only [Option.some.injEq, Prod.mk.injEq] at h
    rw [← h.1]
    refine bal_append (bal_append (bal_append (bal_indent hi _ _) ?_) (bal_print ty hg.1 hn.2.1 e)) (bal_append ?_ (bal_fields rest hg.2 hn.2.2 f))
    · cases name with
      | none => rfl
      | some n =>
        rw [label, Balanced, walk, if_neg (by decide), if_neg (by decide)]
        exact bal_append (hn.1 n rfl) rfl
    · cases rest <;> rfl
end
end

theorem bal_deref {c : Ctx} (hh : c.host = .little) (hi : Balanced c.ind) (ht : ∀ l ty n, Balanced (c.typeText l ty n)) (hp : ∀ p, Balanced (c.ptrText p))
    (he : ∀ i ty, c.env i = some ty → Good ty ∧ Names ty) {m : Mem} (hm : Bytes m) (left : Nat) :
    ∀ {to p ic si t s}, derefAt c m left to p ic si = some (t, s) → Balanced t := by
  induction left with
  | zero =>
    intro to p ic si t s h
    rw [derefAt, Option.some.injEq, Prod.mk.injEq] at h
    rw [← h.1]; exact bal_append rfl (hp p)
  | succ left ih =>
    intro to p ic si t s h
    rw [derefAt] at h
    split at h
    · rw [Option.some.injEq, Prod.mk.injEq] at h
      rw [← h.1]; exact bal_append rfl (hp p)
    · rename_i ty hty
      split at h
      · exact absurd h (by simp)
      rename_i e
      rw [Option.some.injEq, Prod.mk.injEq] at h
      rw [← h.1]
      exact bal_append (bal_indent hi _ _) (bal_append (a := ['&']) rfl (bal_print hh hi ht hm ih _ ty (he to ty hty).1 (he to ty hty).2 e))

/-- **C120.** The braces of a printed text are balanced when those of the names and of the texts of types and pointers are. -/
theorem C120_braces_partial {c : Ctx} (hc : CtxOk c) (ht : ∀ l ty n, Balanced (c.typeText l ty n)) (hp : ∀ p, Balanced (c.ptrText p))
    (he : ∀ i ty, c.env i = some ty → Names ty) {m : Mem} (hm : Bytes m) {ty : Ty} (hg : Good ty) (hn : Names ty) {a : Nat} {t : List Char}
    (h : reflectPrint c m ty a = some t) : Balanced t := by
  have hc' := tabOk hc
  rw [reflectPrint] at h
  split at h
  · exact absurd h (by simp)
  rename_i e
  rw [Option.some.injEq] at h
  rw [← h]
  have he' : ∀ i ty, (({ c with ind := ['\t'] } : Ctx)).env i = some ty → Good ty ∧ Names ty := fun i ty h => ⟨hc.env i ty h, he i ty h⟩
  exact bal_append (bal_print hc'.host rfl ht hm (bal_deref hc'.host rfl ht hp he' hm _) 0 ty hg hn e) rfl

/-! ## A concrete case: a ring of two nodes -/

/-- `struct { .v = byte, .next = pointer to the same struct }`. -/
def node : Ty := .struct (.cons (some ['v']) 0 (.int .native true 1) (.cons (some ['n']) 8 (.pointer 0) .nil))

/-- The text of types is left out and pointers are printed in unary. -/
def ctx : Ctx where
  host := .little
  env := fun i => if i = 0 then some node else none
  ind := ['\t']
  typeText := fun _ _ _ => []
  ptrText := fun p => List.replicate p '1'

theorem ctxOk : CtxOk ctx := by
  refine ⟨rfl, ?_, ?_, ?_, ?_⟩
  · intro p q h
    have := congrArg List.length h
    simpa [ctx] using this
  · intro p ch h
    have := (List.mem_replicate.1 h).2
    subst this; rfl
  · intro ch h
    simp only [ctx, List.head?_cons, Option.some.injEq] at h
    subst h; decide
  · intro i ty h
    simp only [ctx] at h
    split at h
    · rw [Option.some.injEq] at h
      subst h
      exact ⟨⟨fun _ => by decide, by decide⟩, trivial, trivial⟩
    · exact absurd h (by simp)

/-- Nodes at 16 and 32 that point to one another, with the values 5 and -1. -/
def ring : Mem := fun a => if a = 16 then some 5 else if a = 24 then some 32 else if a = 32 then some 255 else if a = 40 then some 16
  else if a < 64 then some 0 else none

theorem ringBytes : Bytes ring := by
  intro a b h
  simp only [ring] at h
  repeat (split at h; · first | (rw [Option.some.injEq] at h; omega) | exact absurd h (by simp))
  exact absurd h (by simp)

theorem nodeGood : Good node := ⟨⟨fun _ => by decide, by decide⟩, trivial, trivial⟩

/-- The ring is seen and so printed. -/
example : ∃ t, reflectPrint ctx ring node 16 = some t := by
  refine (C120_printed_partial ctxOk ringBytes nodeGood 16).2 ?_
  have : (seen ctx ring node 16).isSome = true := by decide +kernel
  exact ⟨_, (Option.some_get this).symm⟩

/-- A last node. -/
def last : Mem := fun a => if a = 0 then some 254 else if a < 16 then some 0 else none

example : reflectPrint ctx last node 0 =
    some (['(', ')', '{', '\n', '\t', '.', 'v', ' ', '=', ' ', '-', '2', ',', '\n', '\t', '.', 'n', ' ', '=', ' ', 'N', 'U', 'L', 'L', '\n', '}', '\n']) := by
  decide +kernel

#print axioms C120_printed_partial
#print axioms C120_text_partial
#print axioms C120_braces_partial

end Verif.PrintData
