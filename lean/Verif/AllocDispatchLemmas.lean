import Verif.AllocDispatchSpec
/-!
# Lemmas on choosing an allocator (C102)
-/
namespace Verif.AllocDispatch

open Spec

theorem upd_self {α : Type} (f : Nat → α) (i : Nat) (v : α) : upd f i v i = v := by simp [upd]

theorem upd_ne {α : Type} (f : Nat → α) {i j : Nat} (v : α) (h : j ≠ i) : upd f i v j = f j := by simp [upd, h]

theorem upd_upd {α : Type} (f : Nat → α) (i : Nat) (v w : α) : upd (upd f i v) i w = upd f i w := by
  funext j; simp only [upd]; split <;> rfl

/-- Storing an item in a block. -/
def Blk.set (B : Blk) (o n : Nat) (x : Item) : Blk :=
  { B with cells := fun i => if o ≤ i ∧ i < o + n then .part x (i - o) else B.cells i }

/-- A block contains an item. -/
def Has (B : Blk) (o n : Nat) (x : Item) : Prop := o + n ≤ B.size ∧ ∀ k, k < n → B.cells (o + k) = .part x k

theorem put_eq {H : Heap} {p : Ptr} {n : Nat} {x : Item} {B : Blk} (h : H.blk p.1 = some B) (hs : p.2 + n ≤ B.size) :
    H.put p n x = some { H with blk := upd H.blk p.1 (some (B.set p.2 n x)) } := by
  simp only [Heap.put, h, if_pos hs, Blk.set]

theorem get_eq {H : Heap} {p : Ptr} {n : Nat} {x : Item} {B : Blk} (h : H.blk p.1 = some B) (hn : 0 < n) (hs : Has B p.2 n x) :
    H.get p n = some x := by
  have h0 := hs.2 0 hn
  rw [Nat.add_zero] at h0
  simp only [Heap.get, h, if_pos hs.1, h0, if_pos hs.2]

theorem Has.set_self (B : Blk) {o n : Nat} (x : Item) (h : o + n ≤ B.size) : Has (B.set o n x) o n x := by
  refine ⟨h, fun k hk => ?_⟩
  simp only [Blk.set]
  rw [if_pos ⟨by omega, by omega⟩, Nat.add_sub_cancel_left]

theorem Has.set_other {B : Blk} {o n : Nat} {x : Item} (h : Has B o n x) {o' n' : Nat} (y : Item) (d : o + n ≤ o' ∨ o' + n' ≤ o) :
    Has (B.set o' n' y) o n x := by
  refine ⟨h.1, fun k hk => ?_⟩
  simp only [Blk.set]
  rw [if_neg (by omega)]
  exact h.2 k hk

/-- The offset of the header in the block of a maker. -/
def hoff : Maker → Nat
  | .static _ => 8
  | .std => 0
  | .custom _ => 24
  | .callback _ => 8
  | .added _ _ => 0

/-- The number of the allocator of a maker. -/
def idx : Maker → Nat
  | .static _ => 0
  | .std => 1
  | .custom _ => 2
  | .callback _ => 3
  | .added i _ => i

/-- The family of the blocks of a maker. -/
def fam : Maker → Option Fam
  | .static _ => none
  | .std => some 0
  | .custom f => some f
  | .callback _ => some 0
  | .added _ f => some f

/-- The size stored in front of static memory. -/
def capSize : Option Nat → Nat
  | none => 0
  | some n => 16 + n

/-- What a maker stores in front of the header. -/
def front : Maker → List (Nat × Item)
  | .static cap => [(0, .size (capSize cap))]
  | .std => []
  | .custom f => [(0, .fn .alloc (some f)), (8, .fn .realloc (some f)), (16, .fn .free (some f))]
  | .callback c => [(0, .cb c)]
  | .added _ _ => []

theorem front_lt {m : Maker} {a : Nat} {x : Item} (h : (a, x) ∈ front m) : a + 8 ≤ hoff m := by
  cases m <;> simp [front, hoff] at h ⊢ <;> omega

/-- A block of an object. -/
structure Own (B : Blk) (o : Obj) : Prop where
  fam : B.fam = fam o.maker
  size : hoff o.maker + 16 + o.size ≤ B.size
  hdr : Has B (hoff o.maker) 16 (.hdr ⟨idx o.maker, o.refs, o.destructor⟩)
  front : ∀ a x, (a, x) ∈ front o.maker → Has B a 8 x
  bytes : ∀ i b, i < o.size → o.bytes i = some b → B.cells (hoff o.maker + 16 + i) = .byte b
  cap : ∀ n, o.maker = .static (some n) → 24 + n ≤ B.size

/-- The table still has what a maker needs; `c`: every added allocator can free. -/
def MakerOk (c : Prop) (table : Nat → Kind) : Maker → Prop
  | .added i f => 4 ≤ i ∧ i < 20 ∧ ∃ a r d, table i = .plain a r d ∧ Of f r ∧ Of f d ∧ (c → d = some f)
  | _ => True

/-- The invariant. -/
structure Inv (c : Prop) (S : St) (A : Abs) : Prop where
  stack : S.stack = A.stack
  table : S.table = A.table
  groups : S.groups = A.groups
  ran : S.ran = A.ran
  events : S.events = A.events
  t0 : A.table 0 = .static
  t1 : A.table 1 = .std
  t2 : A.table 2 = .custom
  t3 : A.table 3 = .callback
  t4 : ∀ i, 4 ≤ i → ∃ a r d, A.table i = .plain a r d ∧ ∀ f, a = some f → Of f r ∧ Of f d ∧ (c → d = some f)
  null : ∀ h, A.objs h = none → S.slots h = none
  own : ∀ h o, A.objs h = some o → ∃ p B, S.slots h = some p ∧ p.2 = hoff o.maker + 16 ∧ S.heap.blk p.1 = some B ∧ Own B o
  refs : ∀ h o, A.objs h = some o → o.refs < 2 ^ 31
  maker : ∀ h o, A.objs h = some o → MakerOk c A.table o.maker
  inj : ∀ h h' p p', S.slots h = some p → S.slots h' = some p' → p.1 = p'.1 → h = h'
  next : ∀ i B, S.heap.blk i = some B → i < S.heap.next
  held : c → ∀ i B, S.heap.blk i = some B → B.fam ≠ none → ∃ h p, S.slots h = some p ∧ p.1 = i

theorem inv_init (c : Prop) (stack : Nat) (fams : Nat → Fam) (groups : Nat → Grp) :
    Inv c (AllocDispatch.init stack fams groups) (Spec.init stack fams groups) := by
  refine ⟨rfl, rfl, rfl, rfl, rfl, rfl, rfl, rfl, rfl, ?_, fun _ _ => rfl, ?_, ?_, ?_, ?_, ?_, ?_⟩
  · intro i hi
    match i, hi with
    | i + 4, _ =>
      show ∃ a r d, (if i + 4 < 10 then _ else _) = _ ∧ _
      split
      · exact ⟨_, _, _, rfl, fun f hf => by cases hf; exact ⟨.inr rfl, .inr rfl, fun _ => rfl⟩⟩
      · exact ⟨_, _, _, rfl, fun f hf => by cases hf⟩
  · intro h o e; cases e
  · intro h o e; cases e
  · intro h o e; cases e
  · intro h h' p p' e; cases e
  · intro i B e; cases e
  · intro _ i B e; cases e

/-- Changing the block of the object of `h`. -/
theorem Inv.change {c : Prop} {S : St} {A : Abs} (I : Inv c S A) {h : Nat} {o o' : Obj} {p : Ptr} {B B' : Blk}
    (e : A.objs h = some o) (hp : S.slots h = some p) (hB : S.heap.blk p.1 = some B) (hm : o'.maker = o.maker)
    (hr : o'.refs < 2 ^ 31) (hO : Own B' o') :
    Inv c { S with heap := { S.heap with blk := upd S.heap.blk p.1 (some B') } } { A with objs := upd A.objs h (some o') } := by
  obtain ⟨q, B0, hq, hq2, _, _⟩ := I.own h o e
  rw [hp] at hq
  cases hq
  refine ⟨I.stack, I.table, I.groups, I.ran, I.events, I.t0, I.t1, I.t2, I.t3, I.t4, ?_, ?_, ?_, ?_, I.inj, ?_, ?_⟩
  · intro k hk
    by_cases hkh : k = h
    · subst hkh; simp [upd_self] at hk
    · exact I.null k (by simpa [upd_ne _ _ hkh] using hk)
  · intro k u hk
    by_cases hkh : k = h
    · subst hkh
      simp only [upd_self, Option.some.injEq] at hk
      subst hk
      exact ⟨p, B', hp, by rw [hm]; exact hq2, upd_self _ _ _, hO⟩
    · simp only [upd_ne _ _ hkh] at hk
      obtain ⟨q, Bq, h1, h2, h3, h4⟩ := I.own k u hk
      refine ⟨q, Bq, h1, h2, ?_, h4⟩
      dsimp only
      rw [upd_ne _ _ fun hh => hkh (I.inj k h q p h1 hp hh)]
      exact h3
  · intro k u hk
    by_cases hkh : k = h
    · subst hkh
      simp only [upd_self, Option.some.injEq] at hk
      subst hk
      exact hr
    · exact I.refs k u (by simpa [upd_ne _ _ hkh] using hk)
  · intro k u hk
    by_cases hkh : k = h
    · subst hkh
      simp only [upd_self, Option.some.injEq] at hk
      subst hk
      rw [hm]
      exact I.maker k o e
    · exact I.maker k u (by simpa [upd_ne _ _ hkh] using hk)
  · intro i Bi hi
    by_cases hip : i = p.1
    · subst hip; exact I.next _ _ hB
    · exact I.next i Bi (by simpa [upd_ne _ _ hip] using hi)
  · intro hc i Bi hi hf
    by_cases hip : i = p.1
    · exact ⟨h, p, hp, hip.symm⟩
    · exact I.held hc i Bi (by simpa [upd_ne _ _ hip] using hi) hf

/-- A new block for the object of `h`, which has none. -/
theorem Inv.fresh {c : Prop} {S : St} {A : Abs} (I : Inv c S A) {h : Nat} {o : Obj} {B : Blk} (e : A.objs h = none)
    (hr : o.refs < 2 ^ 31) (hm : MakerOk c A.table o.maker) (hO : Own B o) :
    Inv c { S with heap := ⟨S.heap.next + 1, upd S.heap.blk S.heap.next (some B)⟩,
                   slots := upd S.slots h (some (S.heap.next, hoff o.maker + 16)) } { A with objs := upd A.objs h (some o) } := by
  have hnew : ∀ k q, S.slots k = some q → q.1 < S.heap.next := by
    intro k q hk
    cases eo : A.objs k with
    | none => rw [I.null k eo] at hk; cases hk
    | some u =>
      obtain ⟨q', Bq, h1, _, h3, _⟩ := I.own k u eo
      rw [hk] at h1
      cases h1
      exact I.next _ _ h3
  refine ⟨I.stack, I.table, I.groups, I.ran, I.events, I.t0, I.t1, I.t2, I.t3, I.t4, ?_, ?_, ?_, ?_, ?_, ?_, ?_⟩
  · intro k hk
    by_cases hkh : k = h
    · subst hkh; simp [upd_self] at hk
    · dsimp only
      rw [upd_ne _ _ hkh]
      exact I.null k (by simpa [upd_ne _ _ hkh] using hk)
  · intro k u hk
    by_cases hkh : k = h
    · subst hkh
      simp only [upd_self, Option.some.injEq] at hk
      subst hk
      exact ⟨_, B, upd_self _ _ _, rfl, upd_self _ _ _, hO⟩
    · simp only [upd_ne _ _ hkh] at hk
      obtain ⟨q, Bq, h1, h2, h3, h4⟩ := I.own k u hk
      refine ⟨q, Bq, by dsimp only; rw [upd_ne _ _ hkh]; exact h1, h2, ?_, h4⟩
      dsimp only
      rw [upd_ne _ _ (Nat.ne_of_lt (hnew k q h1))]
      exact h3
  · intro k u hk
    by_cases hkh : k = h
    · subst hkh
      simp only [upd_self, Option.some.injEq] at hk
      subst hk
      exact hr
    · exact I.refs k u (by simpa [upd_ne _ _ hkh] using hk)
  · intro k u hk
    by_cases hkh : k = h
    · subst hkh
      simp only [upd_self, Option.some.injEq] at hk
      subst hk
      exact hm
    · exact I.maker k u (by simpa [upd_ne _ _ hkh] using hk)
  · intro k k' q q' hk hk' hqq
    dsimp only at hk hk'
    by_cases h1 : k = h <;> by_cases h2 : k' = h
    · rw [h1, h2]
    · subst h1
      rw [upd_self] at hk
      rw [upd_ne _ _ h2] at hk'
      cases hk
      have := hnew k' q' hk'
      dsimp only at hqq
      omega
    · subst h2
      rw [upd_self] at hk'
      rw [upd_ne _ _ h1] at hk
      cases hk'
      have := hnew k q hk
      dsimp only at hqq
      omega
    · rw [upd_ne _ _ h1] at hk
      rw [upd_ne _ _ h2] at hk'
      exact I.inj k k' q q' hk hk' hqq
  · intro i Bi hi
    dsimp only at hi ⊢
    by_cases hip : i = S.heap.next
    · omega
    · rw [upd_ne _ _ hip] at hi
      have := I.next i Bi hi
      omega
  · intro hc i Bi hi hf
    dsimp only at hi ⊢
    by_cases hip : i = S.heap.next
    · exact ⟨h, _, upd_self _ _ _, hip.symm⟩
    · rw [upd_ne _ _ hip] at hi
      obtain ⟨k, q, hk, hq⟩ := I.held hc i Bi hi hf
      refine ⟨k, q, ?_, hq⟩
      have : k ≠ h := by
        intro hkh
        rw [hkh, I.null h e] at hk
        cases hk
      rw [upd_ne _ _ this]
      exact hk

/-- A new block for the object of `h`, whose old block goes. -/
theorem Inv.replace {c : Prop} {S : St} {A : Abs} (I : Inv c S A) {h : Nat} {o o' : Obj} {p : Ptr} {B : Blk}
    (e : A.objs h = some o) (hp : S.slots h = some p) (hm : o'.maker = o.maker) (hr : o'.refs < 2 ^ 31) (hO : Own B o') :
    Inv c { S with heap := ⟨S.heap.next + 1, upd (upd S.heap.blk p.1 none) S.heap.next (some B)⟩,
                   slots := upd S.slots h (some (S.heap.next, hoff o'.maker + 16)) } { A with objs := upd A.objs h (some o') } := by
  have hnew : ∀ k q, S.slots k = some q → q.1 < S.heap.next := by
    intro k q hk
    cases eo : A.objs k with
    | none => rw [I.null k eo] at hk; cases hk
    | some u =>
      obtain ⟨q', Bq, h1, _, h3, _⟩ := I.own k u eo
      rw [hk] at h1
      cases h1
      exact I.next _ _ h3
  refine ⟨I.stack, I.table, I.groups, I.ran, I.events, I.t0, I.t1, I.t2, I.t3, I.t4, ?_, ?_, ?_, ?_, ?_, ?_, ?_⟩
  · intro k hk
    by_cases hkh : k = h
    · subst hkh; simp [upd_self] at hk
    · dsimp only
      rw [upd_ne _ _ hkh]
      exact I.null k (by simpa [upd_ne _ _ hkh] using hk)
  · intro k u hk
    by_cases hkh : k = h
    · subst hkh
      simp only [upd_self, Option.some.injEq] at hk
      subst hk
      exact ⟨_, B, upd_self _ _ _, rfl, upd_self _ _ _, hO⟩
    · simp only [upd_ne _ _ hkh] at hk
      obtain ⟨q, Bq, h1, h2, h3, h4⟩ := I.own k u hk
      refine ⟨q, Bq, by dsimp only; rw [upd_ne _ _ hkh]; exact h1, h2, ?_, h4⟩
      dsimp only
      rw [upd_ne _ _ (Nat.ne_of_lt (hnew k q h1)), upd_ne _ _ fun hh => hkh (I.inj k h q p h1 hp hh)]
      exact h3
  · intro k u hk
    by_cases hkh : k = h
    · subst hkh
      simp only [upd_self, Option.some.injEq] at hk
      subst hk
      exact hr
    · exact I.refs k u (by simpa [upd_ne _ _ hkh] using hk)
  · intro k u hk
    by_cases hkh : k = h
    · subst hkh
      simp only [upd_self, Option.some.injEq] at hk
      subst hk
      rw [hm]
      exact I.maker k o e
    · exact I.maker k u (by simpa [upd_ne _ _ hkh] using hk)
  · intro k k' q q' hk hk' hqq
    dsimp only at hk hk'
    by_cases h1 : k = h <;> by_cases h2 : k' = h
    · rw [h1, h2]
    · subst h1
      rw [upd_self] at hk
      rw [upd_ne _ _ h2] at hk'
      cases hk
      have := hnew k' q' hk'
      dsimp only at hqq
      omega
    · subst h2
      rw [upd_self] at hk'
      rw [upd_ne _ _ h1] at hk
      cases hk'
      have := hnew k q hk
      dsimp only at hqq
      omega
    · rw [upd_ne _ _ h1] at hk
      rw [upd_ne _ _ h2] at hk'
      exact I.inj k k' q q' hk hk' hqq
  · intro i Bi hi
    dsimp only at hi ⊢
    by_cases hip : i = S.heap.next
    · omega
    · rw [upd_ne _ _ hip] at hi
      by_cases hi2 : i = p.1
      · subst hi2; rw [upd_self] at hi; cases hi
      · rw [upd_ne _ _ hi2] at hi
        have := I.next i Bi hi
        omega
  · intro hc i Bi hi hf
    dsimp only at hi ⊢
    by_cases hip : i = S.heap.next
    · exact ⟨h, _, upd_self _ _ _, hip.symm⟩
    · rw [upd_ne _ _ hip] at hi
      by_cases hi2 : i = p.1
      · subst hi2; rw [upd_self] at hi; cases hi
      · rw [upd_ne _ _ hi2] at hi
        obtain ⟨k, q, hk, hq⟩ := I.held hc i Bi hi hf
        refine ⟨k, q, ?_, hq⟩
        have : k ≠ h := by
          intro hkh
          rw [hkh, hp] at hk
          cases hk
          exact hi2 hq.symm
        rw [upd_ne _ _ this]
        exact hk

/-- The object of `h` goes; its block too, unless it is static or the allocator cannot free. -/
theorem Inv.drop {c : Prop} {S : St} {A : Abs} (I : Inv c S A) {h : Nat} {o : Obj} {p : Ptr} {B B' : Blk} {v : Option Blk}
    (e : A.objs h = some o) (hp : S.slots h = some p) (hB : S.heap.blk p.1 = some B)
    (hv : v = none ∨ v = some B' ∧ (c → B'.fam = none)) :
    Inv c { S with heap := { S.heap with blk := upd S.heap.blk p.1 v }, slots := upd S.slots h none }
      { A with objs := upd A.objs h none } := by
  refine ⟨I.stack, I.table, I.groups, I.ran, I.events, I.t0, I.t1, I.t2, I.t3, I.t4, ?_, ?_, ?_, ?_, ?_, ?_, ?_⟩
  · intro k hk
    dsimp only
    by_cases hkh : k = h
    · subst hkh; exact upd_self _ _ _
    · rw [upd_ne _ _ hkh]
      exact I.null k (by simpa [upd_ne _ _ hkh] using hk)
  · intro k u hk
    by_cases hkh : k = h
    · subst hkh; simp [upd_self] at hk
    · simp only [upd_ne _ _ hkh] at hk
      obtain ⟨q, Bq, h1, h2, h3, h4⟩ := I.own k u hk
      refine ⟨q, Bq, by dsimp only; rw [upd_ne _ _ hkh]; exact h1, h2, ?_, h4⟩
      dsimp only
      rw [upd_ne _ _ fun hh => hkh (I.inj k h q p h1 hp hh)]
      exact h3
  · intro k u hk
    by_cases hkh : k = h
    · subst hkh; simp [upd_self] at hk
    · exact I.refs k u (by simpa [upd_ne _ _ hkh] using hk)
  · intro k u hk
    by_cases hkh : k = h
    · subst hkh; simp [upd_self] at hk
    · exact I.maker k u (by simpa [upd_ne _ _ hkh] using hk)
  · intro k k' q q' hk hk' hqq
    dsimp only at hk hk'
    have h1 : k ≠ h := by intro hh; subst hh; rw [upd_self] at hk; cases hk
    have h2 : k' ≠ h := by intro hh; subst hh; rw [upd_self] at hk'; cases hk'
    rw [upd_ne _ _ h1] at hk
    rw [upd_ne _ _ h2] at hk'
    exact I.inj k k' q q' hk hk' hqq
  · intro i Bi hi
    dsimp only at hi ⊢
    by_cases hip : i = p.1
    · rw [hip]; exact I.next _ _ hB
    · rw [upd_ne _ _ hip] at hi; exact I.next i Bi hi
  · intro hc i Bi hi hf
    dsimp only at hi ⊢
    by_cases hip : i = p.1
    · subst hip
      rw [upd_self] at hi
      rcases hv with hv | ⟨hv, hv'⟩
      · rw [hv] at hi; cases hi
      · rw [hv] at hi; cases hi; exact absurd (hv' hc) hf
    · rw [upd_ne _ _ hip] at hi
      obtain ⟨k, q, hk, hq⟩ := I.held hc i Bi hi hf
      refine ⟨k, q, ?_, hq⟩
      have : k ≠ h := by
        intro hkh
        rw [hkh, hp] at hk
        cases hk
        exact hip hq.symm
      rw [upd_ne _ _ this]
      exact hk

/-- Changes of the log and the groups. -/
theorem Inv.log {c : Prop} {S : St} {A : Abs} (I : Inv c S A) (gs : Nat → Grp) (ds : List Nat) (es : List (Nat × Event)) :
    Inv c { S with groups := gs, ran := S.ran ++ ds, events := S.events ++ es }
      { A with groups := gs, ran := A.ran ++ ds, events := A.events ++ es } :=
  ⟨I.stack, I.table, rfl, by dsimp only; rw [I.ran], by dsimp only; rw [I.events], I.t0, I.t1, I.t2, I.t3, I.t4, I.null, I.own, I.refs, I.maker, I.inj, I.next, I.held⟩

/-! ## The functions -/

theorem wrap_eq {n : Nat} (h : n < 2 ^ 64) : wrap n = n := Nat.mod_eq_of_lt h

theorem wrap32_eq {n : Int} (h1 : -1 ≤ n) (h2 : n < 2 ^ 31) : wrap32 n = n := by
  unfold wrap32
  rw [Int.bmod_eq_of_le] <;> omega

/-- A header in front of the memory of an object. -/
theorem header_eq {H : Heap} {p : Ptr} {o : Obj} {B : Blk} (hp : p.2 = hoff o.maker + 16) (hB : H.blk p.1 = some B) (hO : Own B o)
    (hi : idx o.maker < 20) :
    header H p = some ((p.1, hoff o.maker), ⟨idx o.maker, o.refs, o.destructor⟩) := by
  have hb : back p 16 = some (p.1, hoff o.maker) := by
    unfold back
    rw [if_pos (by omega)]
    congr 2
    omega
  unfold header
  rw [hb]
  dsimp only
  rw [get_eq (p := (p.1, hoff o.maker)) hB (by omega) hO.hdr]
  dsimp only
  rw [if_pos ⟨by omega, by omega⟩]

theorem idx_lt {c : Prop} {t : Nat → Kind} {m : Maker} (h : MakerOk c t m) : idx m < 20 := by
  cases m with
  | added i f => exact h.2.1
  | static _ => exact (by decide : 0 < 20)
  | std => exact (by decide : 1 < 20)
  | custom _ => exact (by decide : 2 < 20)
  | callback _ => exact (by decide : 3 < 20)

/-- A new header. -/
theorem Own.header {B : Blk} {o : Obj} (h : Own B o) (refs : Nat) (d : Option Nat) :
    Own (B.set (hoff o.maker) 16 (.hdr ⟨idx o.maker, refs, d⟩)) { o with refs := refs, destructor := d } := by
  refine ⟨h.fam, h.size, Has.set_self _ _ (by have := h.size; omega), ?_, ?_, ?_⟩
  · intro a x hx
    exact (h.front a x hx).set_other _ (.inl (front_lt hx))
  · intro i b hi hb
    have := h.bytes i b hi hb
    dsimp only at *
    simp only [Blk.set]
    rw [if_neg (by omega)]
    exact this
  · exact h.cap

/-- A new byte. -/
theorem Own.write {B : Blk} {o : Obj} (h : Own B o) (i : Nat) (b : UInt8) :
    Own { B with cells := upd B.cells (hoff o.maker + 16 + i) (.byte b) } { o with bytes := upd o.bytes i (some b) } := by
  refine ⟨h.fam, h.size, ⟨h.hdr.1, ?_⟩, ?_, ?_, h.cap⟩
  · intro k hk
    dsimp only
    rw [upd_ne _ _ (by omega)]
    exact h.hdr.2 k hk
  · intro a x hx
    refine ⟨(h.front a x hx).1, ?_⟩
    intro k hk
    have := front_lt hx
    dsimp only at *
    rw [upd_ne _ _ (by omega)]
    exact (h.front a x hx).2 k hk
  · intro j b' hj hb'
    dsimp only at *
    by_cases hji : j = i
    · subst hji
      rw [upd_self] at hb' ⊢
      cases hb'
      rfl
    · rw [upd_ne _ _ hji] at hb'
      rw [upd_ne _ _ (by omega)]
      exact h.bytes j b' hj hb'

/-- A block that keeps the bytes of another. -/
theorem Own.grow {B B' : Blk} {o : Obj} (h : Own B o) {n : Nat} (hf : B'.fam = B.fam) (hs : hoff o.maker + 16 + n ≤ B'.size)
    (hc : ∀ i, i < B.size → B'.cells i = B.cells i)
    (hcap : ∀ m, o.maker = .static (some m) → 24 + m ≤ B'.size) :
    Own B' { o with size := n, bytes := fun i => if i < o.size then o.bytes i else none } := by
  have hsz := h.size
  refine ⟨by rw [hf]; exact h.fam, hs, ⟨by dsimp only; omega, ?_⟩, ?_, ?_, hcap⟩
  · intro k hk
    dsimp only
    rw [hc _ (by omega)]
    exact h.hdr.2 k hk
  · intro a x hx
    have hfl := front_lt hx
    dsimp only at hfl
    refine ⟨by omega, ?_⟩
    intro k hk
    rw [hc _ (by omega)]
    exact (h.front a x hx).2 k hk
  · intro j b hj hb
    dsimp only at *
    split at hb
    · rw [hc _ (by omega)]
      exact h.bytes j b (by assumption) hb
    · cases hb

/-- The header of new memory. -/
theorem own_new {B : Blk} {m : Maker} {size : Nat} (hf : B.fam = AllocDispatch.fam m) (hs : hoff m + 16 + size ≤ B.size)
    (hx : ∀ a x, (a, x) ∈ AllocDispatch.front m → Has B a 8 x) (hcap : ∀ n, m ≠ .static (some n)) :
    Own (B.set (hoff m) 16 (.hdr ⟨idx m, 1, none⟩)) ⟨m, size, 1, none, fun _ => none⟩ := by
  refine ⟨hf, hs, Has.set_self _ _ (by omega), ?_, ?_, fun n hn => absurd hn (hcap n)⟩
  · intro a x h
    exact (hx a x h).set_other _ (.inl (front_lt h))
  · intro i b _ hb; cases hb

/-- Calling an allocator that gives memory. -/
theorem callAlloc_some {rs : Resize} {H : Heap} {t : Nat → Kind} {ty : Ty} {size : Nat} {fill : Nat → UInt8} {m : Maker}
    (h2 : t 0 = .static ∧ t 1 = .std ∧ t 2 = .custom ∧ t 3 = .callback) (h3 : ∀ i, 4 ≤ i → ∃ a r d, t i = .plain a r d)
    (hm : makerOf t ty = some m) (hs : size + 40 < 2 ^ 64)
    (hc : ty.allocator = 2 → ty.data = .null ∨ (∃ r d, ty.data = .fns none r d) ∨ ∃ f, ty.data = .fns (some f) (some f) (some f))
    (hk : ty.allocator = 3 → ty.data = .null ∨ ∃ c, ty.data = .cb c ∧ Grows rs (some c) false size) :
    (idx m : Int) = ty.allocator ∧ ∃ B : Blk, B.fam = AllocDispatch.fam m ∧ hoff m + 16 + size ≤ B.size ∧
      (∀ a x, (a, x) ∈ AllocDispatch.front m → Has B a 8 x) ∧
      callAlloc rs H (t ty.allocator.toNat) ty.data (size + 16) (some fill) =
        some (⟨H.next + 1, upd H.blk H.next (some B)⟩, some (H.next, hoff m), tells m [.allocatePre, .allocatePost]) := by
  obtain ⟨al, data⟩ := ty
  dsimp only at *
  unfold makerOf at hm
  dsimp only at hm
  split at hm
  · cases hm
  rename_i hneg
  obtain ⟨n, rfl⟩ : ∃ n : Nat, al = n := ⟨al.toNat, by omega⟩
  simp only [Int.toNat_natCast] at *
  match n with
  | 0 => rw [h2.1] at hm; cases hm
  | 1 =>
    rw [h2.2.1] at hm ⊢
    cases hm
    exact ⟨rfl, _, rfl, by simp only [hoff]; omega, fun a x h => by simp [AllocDispatch.front] at h, rfl⟩
  | 2 =>
    rw [h2.2.2.1] at hm ⊢
    rcases hc rfl with rfl | ⟨r, d, rfl⟩ | ⟨f, rfl⟩
    · cases hm
    · cases hm
    · cases hm
      refine ⟨rfl, ?_⟩
      let B0 : Blk := ⟨some f, size + 16 + 24, fun i => .byte (fill i)⟩
      refine ⟨((B0.set 0 8 (.fn .alloc (some f))).set 8 8 (.fn .realloc (some f))).set 16 8 (.fn .free (some f)), rfl, ?_, ?_, ?_⟩
      · show 24 + 16 + size ≤ size + 16 + 24; omega
      · intro a x h
        simp only [AllocDispatch.front, List.mem_cons, Prod.mk.injEq, List.not_mem_nil, or_false] at h
        have hb : B0.size = size + 16 + 24 := rfl
        rcases h with ⟨rfl, rfl⟩ | ⟨rfl, rfl⟩ | ⟨rfl, rfl⟩
        · exact ((Has.set_self _ _ (by omega)).set_other _ (.inl (by omega))).set_other _ (.inl (by omega))
        · exact (Has.set_self _ _ (by show 8 + 8 ≤ B0.size; omega)).set_other _ (.inl (by omega))
        · exact Has.set_self _ _ (by show 16 + 8 ≤ B0.size; omega)
      · simp only [callAlloc, customAlloc, rawAlloc]
        rw [wrap_eq (by omega)]
        rw [put_eq (B := B0) (upd_self _ _ _) (by show 0 + 8 ≤ size + 16 + 24; omega)]
        simp only [Option.bind_eq_bind, Option.bind_some]
        rw [put_eq (upd_self _ _ _) (by show 8 + 8 ≤ size + 16 + 24; omega)]
        simp only [Option.bind_some]
        rw [put_eq (upd_self _ _ _) (by show 16 + 8 ≤ size + 16 + 24; omega)]
        simp only [Option.bind_some, Option.map_some, upd_upd]
        rfl
  | 3 =>
    rw [h2.2.2.2] at hm ⊢
    have key : ∀ c, callbackOf data = some c → m = .callback c → size + 16 ≤ resized rs c false (size + 16) →
        resized rs c false (size + 16) + 8 < 2 ^ 64 → (idx m : Int) = ((3 : Nat) : Int) ∧ ∃ B : Blk, B.fam = AllocDispatch.fam m ∧ hoff m + 16 + size ≤ B.size ∧
      (∀ a x, (a, x) ∈ AllocDispatch.front m → Has B a 8 x) ∧
      callAlloc rs H .callback data (size + 16) (some fill) =
        some (⟨H.next + 1, upd H.blk H.next (some B)⟩, some (H.next, hoff m), tells m [.allocatePre, .allocatePost]) := by
      intro c hcb e h1 h2
      subst e
      refine ⟨rfl, ?_⟩
      let B0 : Blk := ⟨some 0, resized rs c false (size + 16) + 8, fun i => .byte (fill i)⟩
      have hb : B0.size = resized rs c false (size + 16) + 8 := rfl
      refine ⟨B0.set 0 8 (.cb c), rfl, ?_, ?_, ?_⟩
      · show 8 + 16 + size ≤ B0.size; omega
      · intro a x h
        simp only [AllocDispatch.front, List.mem_cons, Prod.mk.injEq, List.not_mem_nil, or_false] at h
        obtain ⟨rfl, rfl⟩ := h
        exact Has.set_self _ _ (by omega)
      · simp only [callAlloc, hcb, callbackAlloc, rawAlloc]
        rw [wrap_eq h2]
        rw [put_eq (B := B0) (upd_self _ _ _) (by show 0 + 8 ≤ B0.size; omega)]
        simp only [Option.bind_eq_bind, Option.bind_some, Option.map_some, upd_upd]
        cases c <;> rfl
    rcases hk rfl with rfl | ⟨c, rfl, hg⟩
    · cases hm
      exact key none rfl rfl (Nat.le_refl _) (by show size + 16 + 8 < _; omega)
    · cases hm
      exact key (some c) rfl rfl (hg c rfl).1 (hg c rfl).2
  | n + 4 =>
    obtain ⟨a, r, d, e⟩ := h3 (n + 4) (by omega)
    rw [e] at hm ⊢
    cases a with
    | none => cases hm
    | some f =>
      cases hm
      exact ⟨rfl, _, rfl, by simp only [hoff]; omega, fun a x h => by simp [AllocDispatch.front] at h, rfl⟩

/-- Calling an allocator that gives none. -/
theorem callAlloc_none {rs : Resize} {H : Heap} {t : Nat → Kind} {ty : Ty} {size : Nat} {env : Env}
    (h2 : t 0 = .static ∧ t 1 = .std ∧ t 2 = .custom ∧ t 3 = .callback) (h3 : ∀ i, 4 ≤ i → ∃ a r d, t i = .plain a r d)
    (ha : 0 ≤ ty.allocator) (hm : makerOf t ty = none)
    (hc : ty.allocator = 2 → ty.data = .null ∨ (∃ r d, ty.data = .fns none r d) ∨ ∃ f, ty.data = .fns (some f) (some f) (some f)) :
    callAlloc rs H (t ty.allocator.toNat) ty.data (size + 16) env = some (H, none, []) := by
  obtain ⟨al, data⟩ := ty
  dsimp only at *
  obtain ⟨n, rfl⟩ : ∃ n : Nat, al = n := ⟨al.toNat, by omega⟩
  unfold makerOf at hm
  dsimp only at hm
  rw [if_neg (by omega)] at hm
  simp only [Int.toNat_natCast] at *
  match n with
  | 0 => rw [h2.1]; rfl
  | 1 => rw [h2.2.1] at hm; cases hm
  | 2 =>
    rw [h2.2.2.1] at hm ⊢
    rcases hc rfl with rfl | ⟨r, d, rfl⟩ | ⟨f, rfl⟩
    · rfl
    · rfl
    · cases hm
  | 3 => rw [h2.2.2.2] at hm; dsimp only at hm; split at hm <;> cases hm
  | n + 4 =>
    obtain ⟨a, r, d, e⟩ := h3 (n + 4) (by omega)
    rw [e] at hm ⊢
    cases a with
    | none => rfl
    | some f => cases hm

/-- Calling an allocator when there is no memory. -/
theorem callAlloc_fail {rs : Resize} {H : Heap} {t : Nat → Kind} {ty : Ty} {size : Nat} {m : Maker}
    (h2 : t 0 = .static ∧ t 1 = .std ∧ t 2 = .custom ∧ t 3 = .callback) (h3 : ∀ i, 4 ≤ i → ∃ a r d, t i = .plain a r d)
    (hm : makerOf t ty = some m)
    (hc : ty.allocator = 2 → ty.data = .null ∨ (∃ r d, ty.data = .fns none r d) ∨ ∃ f, ty.data = .fns (some f) (some f) (some f))
    (hk : ty.allocator = 3 → ty.data = .null ∨ ∃ c, ty.data = .cb c ∧ Grows rs (some c) false size) :
    callAlloc rs H (t ty.allocator.toNat) ty.data (size + 16) none = some (H, none, tells m [.allocatePre, .allocatePost]) := by
  obtain ⟨al, data⟩ := ty
  dsimp only at *
  unfold makerOf at hm
  dsimp only at hm
  split at hm
  · cases hm
  obtain ⟨n, rfl⟩ : ∃ n : Nat, al = n := ⟨al.toNat, by omega⟩
  simp only [Int.toNat_natCast] at *
  match n with
  | 0 => rw [h2.1] at hm; cases hm
  | 1 => rw [h2.2.1] at hm ⊢; cases hm; rfl
  | 2 =>
    rw [h2.2.2.1] at hm ⊢
    rcases hc rfl with rfl | ⟨r, d, rfl⟩ | ⟨f, rfl⟩
    · cases hm
    · cases hm
    · cases hm; rfl
  | 3 =>
    rw [h2.2.2.2] at hm ⊢
    rcases hk rfl with rfl | ⟨c, rfl, hg⟩
    · cases hm; rfl
    · cases hm; rfl
  | n + 4 =>
    obtain ⟨a, r, d, e⟩ := h3 (n + 4) (by omega)
    rw [e] at hm ⊢
    cases a with
    | none => cases hm
    | some f => cases hm; rfl

theorem Inv.tabs {c : Prop} {S : St} {A : Abs} (I : Inv c S A) :
    (A.table 0 = .static ∧ A.table 1 = .std ∧ A.table 2 = .custom ∧ A.table 3 = .callback) ∧ ∀ i, 4 ≤ i → ∃ a r d, A.table i = .plain a r d :=
  ⟨⟨I.t0, I.t1, I.t2, I.t3⟩, fun i hi => let ⟨a, r, d, e, _⟩ := I.t4 i hi; ⟨a, r, d, e⟩⟩

/-- Who makes an object is in the table. -/
theorem Inv.made {c : Prop} {S : St} {A : Abs} (I : Inv c S A) {ty : Ty} {m : Maker} (h20 : ty.allocator < 20)
    (hm : makerOf A.table ty = some m) : MakerOk c A.table m := by
  unfold makerOf at hm
  split at hm
  · cases hm
  rename_i hneg
  obtain ⟨n, hn⟩ : ∃ n : Nat, ty.allocator = n := ⟨ty.allocator.toNat, by omega⟩
  rw [hn] at hm
  simp only [Int.toNat_natCast] at hm
  match n with
  | 0 => rw [I.t0] at hm; cases hm
  | 1 => rw [I.t1] at hm; cases hm; trivial
  | 2 => rw [I.t2] at hm; dsimp only at hm; split at hm <;> cases hm; trivial
  | 3 => rw [I.t3] at hm; dsimp only at hm; split at hm <;> cases hm <;> trivial
  | n + 4 =>
    obtain ⟨a, r, d, e, hf⟩ := I.t4 (n + 4) (by omega)
    rw [e] at hm
    cases a with
    | none => cases hm
    | some f =>
      cases hm
      obtain ⟨g1, g2, g3⟩ := hf f rfl
      exact ⟨by omega, by omega, _, _, _, e, g1, g2, g3⟩

theorem made_static {t : Nat → Kind} {ty : Ty} {m : Maker} (hm : makerOf t ty = some m) (n : Nat) : m ≠ .static (some n) := by
  rintro rfl
  unfold makerOf at hm
  split at hm
  · cases hm
  · split at hm <;> first | (cases hm; done) | (split at hm <;> cases hm)

/-- Making an object. -/
theorem make_inv {c : Prop} {rs : Resize} {S : St} {A : Abs} (I : Inv c S A) {h : Nat} {ty : Ty} {size : Nat} {env : Env}
    (e : A.objs h = none) (hf : MakeOk rs A ty size) :
    ∃ S' r, allocate rs S ty size env = some (S', r) ∧ S'.slots = S.slots ∧ r.isSome = (Spec.make A h ty size env).2 ∧
      Inv c { S' with slots := upd S.slots h r } (Spec.make A h ty size env).1 := by
  obtain ⟨hs, leaf, gs, hp, h20, hc, hk⟩ := hf
  have hself : upd S.slots h none = S.slots := by
    funext k
    by_cases hkh : k = h
    · subst hkh; rw [upd_self, I.null _ e]
    · rw [upd_ne _ _ hkh]
  have ht := I.tabs
  unfold allocate Spec.make
  rw [I.stack, I.groups, hp]
  dsimp only
  unfold allocateLeaf
  dsimp only
  rw [I.table]
  cases hm : makerOf A.table leaf with
  | none =>
    dsimp only
    have hI := I.log gs [] []
    simp only [List.append_nil] at hI
    by_cases hneg : leaf.allocator < 0
    · rw [if_pos hneg]
      exact ⟨_, _, rfl, rfl, rfl, by dsimp only; rw [hself]; simpa [I.table, I.stack] using hI⟩
    · rw [if_neg hneg, if_neg (by omega), wrap_eq (by omega), if_neg (by omega),
        callAlloc_none ht.1 ht.2 (by omega) hm hc]
      refine ⟨_, _, rfl, rfl, rfl, ?_⟩
      dsimp only
      rw [hself]
      simpa [I.table, I.stack] using hI
  | some m =>
    dsimp only
    have hneg : ¬ leaf.allocator < 0 := by
      intro hh
      simp [makerOf, hh] at hm
    rw [if_neg hneg, if_neg (by omega), wrap_eq (by omega), if_neg (by omega)]
    have hI := I.log gs [] (tells m [.allocatePre, .allocatePost])
    simp only [List.append_nil] at hI
    cases env with
    | none =>
      rw [callAlloc_fail ht.1 ht.2 hm hc hk]
      refine ⟨_, _, rfl, rfl, rfl, ?_⟩
      dsimp only
      rw [hself]
      simpa [I.table, I.stack] using hI
    | some fill =>
      obtain ⟨hidx, B, hBf, hBs, hBx, hcall⟩ := callAlloc_some (H := S.heap) (fill := fill) ht.1 ht.2 hm hs hc hk
      rw [hcall]
      dsimp only
      rw [put_eq (B := B) (upd_self _ _ _) (by dsimp only; omega)]
      refine ⟨_, _, rfl, rfl, rfl, ?_⟩
      have := hI.fresh (h := h) (o := ⟨m, size, 1, none, fun _ => none⟩) e (by show 1 < 2 ^ 31; decide) (I.made h20 hm) (own_new hBf hBs hBx (made_static hm))
      dsimp only at this ⊢
      rw [upd_upd, ← hidx]
      simpa [I.table, I.stack] using this

/-- Calling the reallocator of the maker of an object: it gives no memory, leaves the memory where it is, or gives a new block
with the same bytes. -/
theorem callRealloc_eq {c : Prop} {rs : Resize} {H : Heap} {t : Nat → Kind} {o : Obj} {i : Nat} {B : Blk}
    (ht : t 0 = .static ∧ t 1 = .std ∧ t 2 = .custom ∧ t 3 = .callback) (hM : MakerOk c t o.maker)
    (hB : H.blk i = some B) (hO : Own B o) (data : Data) {size : Nat} {env : Env}
    (hs : size + 40 < 2 ^ 64) (hg : ∀ c, o.maker = .callback c → Grows rs c true size) :
    (reallocates t o.maker size env = false ∧
      callRealloc rs H (t (idx o.maker)) data (i, hoff o.maker) (size + 16) env =
        some (H, none, tells o.maker [.reallocatePre, .reallocatePost])) ∨
    (reallocates t o.maker size env = true ∧ hoff o.maker + 16 + size ≤ B.size ∧
      callRealloc rs H (t (idx o.maker)) data (i, hoff o.maker) (size + 16) env =
        some (H, some (i, hoff o.maker), tells o.maker [.reallocatePre, .reallocatePost])) ∨
    (reallocates t o.maker size env = true ∧ (∀ n, o.maker ≠ .static n) ∧ ∃ B' : Blk, B'.fam = B.fam ∧ hoff o.maker + 16 + size ≤ B'.size ∧
      (∀ j, j < B.size → B'.cells j = B.cells j) ∧
      callRealloc rs H (t (idx o.maker)) data (i, hoff o.maker) (size + 16) env =
        some (⟨H.next + 1, upd (upd H.blk i none) H.next (some B')⟩, some (H.next, hoff o.maker),
          tells o.maker [.reallocatePre, .reallocatePost])) := by
  obtain ⟨m, osz, refs, d, bytes⟩ := o
  have hfam := hO.fam
  have hfr := hO.front
  have hcap := hO.cap
  dsimp only at *
  cases m with
  | static cap =>
    have hx := get_eq (p := (i, 0)) hB (by decide) (hfr 0 (.size (capSize cap)) (by simp [AllocDispatch.front]))
    rw [idx, ht.1]
    have hb : back (i, hoff (.static cap)) 8 = some (i, 0) := rfl
    simp only [callRealloc, staticRealloc, hb, hx]
    cases cap with
    | none =>
      refine .inl ⟨rfl, ?_⟩
      rw [if_neg (by simp only [capSize]; omega)]
      rfl
    | some n =>
      by_cases hn : size ≤ n
      · refine .inr (.inl ⟨by simp [reallocates, hn], by have := hcap n rfl; simp only [hoff]; omega, ?_⟩)
        rw [if_pos (by simp only [capSize]; omega)]
        rfl
      · refine .inl ⟨by simp [reallocates, hn], ?_⟩
        rw [if_neg (by simp only [capSize]; omega)]
        rfl
  | std =>
    rw [idx, ht.2.1]
    simp only [callRealloc, rawRealloc, hB]
    rw [if_pos ⟨rfl, hfam⟩]
    cases env with
    | none => exact .inl ⟨rfl, rfl⟩
    | some fill =>
      refine .inr (.inr ⟨rfl, (fun n hn => by cases hn), _, hfam.symm, ?_, ?_, rfl⟩)
      · simp only [hoff]; omega
      · intro j hj; dsimp only; rw [if_pos hj]
  | custom f =>
    have hx := get_eq (p := (i, 0 + 8)) hB (by decide) (hfr 8 (.fn .realloc (some f)) (by simp [AllocDispatch.front]))
    rw [idx, ht.2.2.1]
    have hb : back (i, hoff (.custom f)) 24 = some (i, 0) := rfl
    simp only [callRealloc, customRealloc, hb, hx, rawRealloc, hB]
    rw [if_pos ⟨trivial, hfam⟩, wrap_eq (by omega)]
    cases env with
    | none => exact .inl ⟨rfl, rfl⟩
    | some fill =>
      refine .inr (.inr ⟨rfl, (fun n hn => by cases hn), _, hfam.symm, ?_, ?_, rfl⟩)
      · simp only [hoff]; omega
      · intro j hj; dsimp only; rw [if_pos hj]
  | callback cb =>
    have hx := get_eq (p := (i, 0)) hB (by decide) (hfr 0 (.cb cb) (by simp [AllocDispatch.front]))
    rw [idx, ht.2.2.2]
    have hb : back (i, hoff (.callback cb)) 8 = some (i, 0) := rfl
    have hr : size + 16 ≤ resized rs cb true (size + 16) ∧ resized rs cb true (size + 16) + 8 < 2 ^ 64 := by
      cases cb with
      | none => simp only [resized]; omega
      | some c' => exact hg _ rfl c' rfl
    simp only [callRealloc, callbackRealloc, hb, hx, rawRealloc, hB]
    rw [if_pos ⟨trivial, hfam⟩, wrap_eq hr.2]
    cases env with
    | none => exact .inl ⟨rfl, by cases cb <;> rfl⟩
    | some fill =>
      refine .inr (.inr ⟨rfl, (fun n hn => by cases hn), ⟨some 0, resized rs cb true (size + 16) + 8, fun j => if j < B.size then B.cells j else .byte (fill j)⟩, hfam.symm, ?_, ?_, by cases cb <;> rfl⟩)
      · simp only [hoff]; omega
      · intro j hj; dsimp only; rw [if_pos hj]
  | added k f =>
    obtain ⟨_, _, a, r, d', e, hr, hd, _⟩ := hM
    rw [idx, e]
    rcases hr with rfl | rfl
    · refine .inl ⟨by simp [reallocates, e], rfl⟩
    · simp only [callRealloc, rawRealloc, hB]
      rw [if_pos ⟨rfl, hfam⟩]
      cases env with
      | none => exact .inl ⟨by simp [reallocates, e], rfl⟩
      | some fill =>
        refine .inr (.inr ⟨by simp [reallocates, e], (fun n hn => by cases hn), _, hfam.symm, ?_, ?_, rfl⟩)
        · simp only [hoff]; omega
        · intro j hj; dsimp only; rw [if_pos hj]

/-- Calling the deallocator of the maker of an object: it leaves the block only if it is static or the allocator cannot free. -/
theorem callFree_eq {c : Prop} {H : Heap} {t : Nat → Kind} {o : Obj} {i : Nat} {B : Blk}
    (ht : t 0 = .static ∧ t 1 = .std ∧ t 2 = .custom ∧ t 3 = .callback) (hM : MakerOk c t o.maker)
    (hB : H.blk i = some B) (hO : Own B o) :
    callFree H (t (idx o.maker)) (i, hoff o.maker) = some ({ H with blk := upd H.blk i none }, tells o.maker [.deallocatePre]) ∨
    ((c → B.fam = none) ∧ callFree H (t (idx o.maker)) (i, hoff o.maker) = some (H, tells o.maker [.deallocatePre])) := by
  obtain ⟨m, osz, refs, d, bytes⟩ := o
  have hfam := hO.fam
  have hfr := hO.front
  dsimp only at *
  cases m with
  | static cap =>
    rw [idx, ht.1]
    exact .inr ⟨fun _ => hfam, rfl⟩
  | std =>
    rw [idx, ht.2.1]
    simp only [callFree, rawFree, hB]
    rw [if_pos ⟨rfl, hfam⟩]
    exact .inl rfl
  | custom f =>
    have hx := get_eq (p := (i, 0 + 16)) hB (by decide) (hfr 16 (.fn .free (some f)) (by simp [AllocDispatch.front]))
    rw [idx, ht.2.2.1]
    have hb : back (i, hoff (.custom f)) 24 = some (i, 0) := rfl
    simp only [callFree, customFree, hb, hx, rawFree, hB]
    rw [if_pos ⟨trivial, hfam⟩]
    exact .inl rfl
  | callback cb =>
    have hx := get_eq (p := (i, 0)) hB (by decide) (hfr 0 (.cb cb) (by simp [AllocDispatch.front]))
    rw [idx, ht.2.2.2]
    have hb : back (i, hoff (.callback cb)) 8 = some (i, 0) := rfl
    simp only [callFree, callbackFree, hb, hx, rawFree, hB]
    rw [if_pos ⟨trivial, hfam⟩]
    exact .inl (by cases cb <;> rfl)
  | added k f =>
    obtain ⟨_, _, a, r, d', e, hr, hd, hc⟩ := hM
    rw [idx, e]
    rcases hd with rfl | rfl
    · exact .inr ⟨(fun h => by cases hc h), rfl⟩
    · simp only [callFree, rawFree, hB]
      rw [if_pos ⟨rfl, hfam⟩]
      exact .inl rfl

/-- What the client sees. -/
theorem Inv.sees {c : Prop} {S : St} {A : Abs} (I : Inv c S A) : Sees S A := by
  refine ⟨I.null, ?_, I.ran, I.events⟩
  intro h o e
  obtain ⟨p, B, h1, h2, h3, h4⟩ := I.own h o e
  refine ⟨p, h1, ?_, ?_⟩
  · unfold refCount
    rw [header_eq h2 h3 h4 (idx_lt (I.maker h o e))]
    rfl
  · intro i hi
    have := h4.size
    refine ⟨B.cells (p.2 + i), ?_, ?_⟩
    · simp only [Heap.read, h3]
      rw [if_pos (by omega)]
    · intro b hb
      rw [h2]
      exact h4.bytes i b hi hb

/-- One call. -/
theorem step_inv {c : Prop} {rs : Resize} {S : St} {A : Abs} (I : Inv c S A) {op : Op} (hf : Fine rs A op) (hc : c → CanFree op) :
    ∃ S', step rs S op = some (S', (Spec.next A op).2) ∧ Inv c S' (Spec.next A op).1 := by
  have ht := I.tabs
  cases op with
  | add index a r d =>
    obtain ⟨h3, h20, hfam, hobj⟩ := hf
    refine ⟨{ S with table := upd S.table index.toNat (.plain a r d) }, ?_, ?_⟩
    · simp only [step, AllocDispatch.add]
      rw [if_pos ⟨h3, h20⟩]
      rfl
    · obtain ⟨n, rfl⟩ : ∃ n : Nat, index = n := ⟨index.toNat, by omega⟩
      simp only [Int.toNat_natCast, Spec.next] at *
      have hn : 4 ≤ n := by omega
      refine ⟨I.stack, by dsimp only; rw [I.table], I.groups, I.ran, I.events, ?_, ?_, ?_, ?_, ?_, I.null, I.own, I.refs, ?_, I.inj, I.next, I.held⟩
      · dsimp only; rw [upd_ne _ _ (by omega)]; exact I.t0
      · dsimp only; rw [upd_ne _ _ (by omega)]; exact I.t1
      · dsimp only; rw [upd_ne _ _ (by omega)]; exact I.t2
      · dsimp only; rw [upd_ne _ _ (by omega)]; exact I.t3
      · intro i hi
        dsimp only
        by_cases hin : i = n
        · subst hin
          rw [upd_self]
          refine ⟨a, r, d, rfl, fun f hff => ⟨(hfam f hff).1, (hfam f hff).2, fun h => ?_⟩⟩
          rcases (hfam f hff).2 with hd | hd
          · exact absurd hd (hc h)
          · exact hd
        · rw [upd_ne _ _ hin]
          exact I.t4 i hi
      · intro h o e
        have hm := I.maker h o e
        dsimp only
        cases em : o.maker with
        | added k f =>
          rw [em] at hm
          obtain ⟨g1, g2, g3⟩ := hm
          by_cases hk : k = n
          · subst hk
            obtain ⟨u1, u2⟩ := hobj h o f e em
            refine ⟨g1, g2, a, r, d, upd_self _ _ _, u1, u2, fun hh => ?_⟩
            rcases u2 with hd | hd
            · exact absurd hd (hc hh)
            · exact hd
          · refine ⟨g1, g2, ?_⟩
            rw [upd_ne _ _ hk]
            exact g3
        | static _ => trivial
        | std => trivial
        | custom _ => trivial
        | callback _ => trivial
  | static h bss n fill =>
    let B0 : Blk := ⟨none, 24 + n, fun i => .byte (fill (i - 24))⟩
    let cap : Option Nat := if bss then none else some n
    let B := (B0.set 0 8 (.size (capSize cap))).set 8 16 (.hdr ⟨0, 0, none⟩)
    have hO : Own B ⟨.static cap, n, 0, none, fun i => some (fill i)⟩ := by
      refine ⟨rfl, ?_, Has.set_self _ _ (by show 8 + 16 ≤ 24 + n; omega), ?_, ?_, ?_⟩
      · show 8 + 16 + n ≤ 24 + n; omega
      · intro a x hx
        simp only [AllocDispatch.front, List.mem_cons, Prod.mk.injEq, List.not_mem_nil, or_false] at hx
        obtain ⟨rfl, rfl⟩ := hx
        exact (Has.set_self _ _ (by show 0 + 8 ≤ 24 + n; omega)).set_other _ (.inl (by omega))
      · intro i b hi hb
        simp only [hoff, B, Blk.set, B0]
        rw [if_neg (by omega), if_neg (by omega)]
        cases hb
        rw [show 8 + 16 + i - 24 = i by omega]
      · intro m hm
        simp only [Maker.static.injEq, cap] at hm
        split at hm
        · cases hm
        · cases hm; exact Nat.le_refl _
    refine ⟨_, ?_, I.fresh hf (by show 0 < 2 ^ 31; decide) trivial hO⟩
    have hcs : (if bss = true then 0 else 16 + n) = capSize cap := by cases bss <;> rfl
    simp only [step, AllocDispatch.static, Spec.next]
    rw [put_eq (B := B0) (upd_self _ _ _) (by show 0 + 8 ≤ 24 + n; omega)]
    simp only [Option.bind_eq_bind, Option.bind_some]
    rw [put_eq (upd_self _ _ _) (by show 8 + 16 ≤ 24 + n; omega)]
    simp only [Option.bind_some, Option.map_some, upd_upd, hcs]
    rfl
  | malloc h ty size env =>
    obtain ⟨e, hmk⟩ := hf
    obtain ⟨S', r, h1, h2, h3, h4⟩ := make_inv (env := env) I e hmk
    refine ⟨_, ?_, h4⟩
    simp only [step, h1, Option.map_some, h3]
    rfl
  | realloc h ty size env =>
    cases e : A.objs h with
    | none =>
      simp only [Fine, e] at hf
      obtain ⟨S', r, h1, h2, h3, h4⟩ := make_inv (env := env) I e hf
      have hn : Spec.next A (.realloc h ty size env) = Spec.make A h ty size env := by simp only [Spec.next, e]
      rw [hn]
      refine ⟨_, ?_, h4⟩
      simp only [step, I.null h e, reallocate, h1, Option.map_some, h3]
      cases r with
      | some r => rw [← h3]; rfl
      | none =>
        rw [← h3]
        have : upd S.slots h none = S'.slots := by
          rw [h2]
          funext k
          by_cases hkh : k = h
          · subst hkh; rw [upd_self, I.null _ e]
          · rw [upd_ne _ _ hkh]
        rw [this]
        rfl
    | some o =>
      simp only [Fine, e] at hf
      obtain ⟨hs, hg⟩ := hf
      obtain ⟨p, B, h1, h2, h3, h4⟩ := I.own h o e
      have hM := I.maker h o e
      have hb : back p 16 = some (p.1, hoff o.maker) := by
        unfold back
        rw [if_pos (by omega)]
        congr 2
        omega
      have hI := I.log A.groups [] (tells o.maker [.reallocatePre, .reallocatePost])
      simp only [List.append_nil] at hI
      have hi := idx_lt hM
      have hr := I.refs h o e
      simp only [step, h1, reallocate, hb, Spec.next, e]
      rw [get_eq (p := (p.1, hoff o.maker)) h3 (by omega) h4.hdr]
      dsimp only
      rw [if_neg (by omega), wrap_eq (by omega), if_pos (by omega), Int.toNat_natCast, I.table]
      rcases callRealloc_eq (rs := rs) (env := env) ht.1 hM h3 h4 (if ty.allocator = (idx o.maker : Int) then ty.data else .null) hs hg with
        ⟨g1, g2⟩ | ⟨g1, g2, g3⟩ | ⟨g1, gs, B', g2, g3, g4, g5⟩
      · rw [g2, g1]
        refine ⟨_, rfl, ?_⟩
        simpa [I.table, I.stack, I.groups] using hI
      · rw [g3, g1]
        refine ⟨_, rfl, ?_⟩
        have := hI.change (h := h) (o' := { o with size := size, bytes := fun i => if i < o.size then o.bytes i else none }) e h1 h3 rfl hr
          (h4.grow rfl g2 (fun _ _ => rfl) h4.cap)
        have hsame : upd S.heap.blk p.1 (some B) = S.heap.blk := by
          funext k
          by_cases hk : k = p.1
          · subst hk; rw [upd_self, h3]
          · rw [upd_ne _ _ hk]
        have hslot : upd S.slots h (some (p.1, hoff o.maker + 16)) = S.slots := by
          funext k
          by_cases hk : k = h
          · subst hk; rw [upd_self, h1, ← h2]
          · rw [upd_ne _ _ hk]
        dsimp only at this
        rw [hsame] at this
        simpa [I.table, I.stack, I.groups, hslot] using this
      · rw [g5, g1]
        refine ⟨_, rfl, ?_⟩
        have := hI.replace (h := h) (o' := { o with size := size, bytes := fun i => if i < o.size then o.bytes i else none }) e h1 rfl hr
          (h4.grow g2 g3 g4 fun m hm => absurd hm (gs _))
        simpa [I.table, I.stack, I.groups] using this
  | retain h =>
    cases e : A.objs h with
    | none => exact ⟨S, by simp only [step, I.null h e, Spec.next, e], by simpa only [Spec.next, e] using I⟩
    | some o =>
      obtain ⟨p, B, h1, h2, h3, h4⟩ := I.own h o e
      have hr := hf o e
      refine ⟨_, ?_, by
        simp only [Spec.next, e]
        exact I.change e h1 h3 rfl hr (h4.header (o.refs + 1) o.destructor)⟩
      simp only [step, h1, retain, header_eq h2 h3 h4 (idx_lt (I.maker h o e)), Spec.next, e, Option.bind_eq_bind, Option.bind_some]
      rw [put_eq (p := (p.1, hoff o.maker)) h3 h4.hdr.1]
      simp only [Option.bind_some, Option.map_some]
      rw [wrap32_eq (by omega) (by omega)]
      rfl
  | free h =>
    cases e : A.objs h with
    | none => exact ⟨S, by simp only [step, I.null h e, Spec.next, e], by simpa only [Spec.next, e] using I⟩
    | some o =>
      obtain ⟨p, B, h1, h2, h3, h4⟩ := I.own h o e
      have hr := I.refs h o e
      have h0 : 0 < o.refs := hf o e
      have hM := I.maker h o e
      simp only [step, h1, deallocate, header_eq h2 h3 h4 (idx_lt hM), Spec.next, e, Option.bind_eq_bind, Option.bind_some]
      rw [put_eq (p := (p.1, hoff o.maker)) h3 h4.hdr.1]
      simp only [Option.bind_some]
      rw [wrap32_eq (by omega) (by omega), if_neg (by omega)]
      have hsub : ((o.refs : Int) - 1) = ((o.refs - 1 : Nat) : Int) := by omega
      have hO' := h4.header (o.refs - 1) o.destructor
      by_cases hone : o.refs = 1
      · rw [if_pos (by omega), if_pos hone, Int.toNat_natCast, I.table]
        have hI := I.log A.groups o.destructor.toList (tells o.maker [.deallocatePre])
        rw [hsub]
        rcases callFree_eq (o := { o with refs := o.refs - 1, destructor := o.destructor }) (H := { S.heap with blk := upd S.heap.blk p.1 (some (B.set (hoff o.maker) 16 (.hdr ⟨idx o.maker, (o.refs - 1 : Nat), o.destructor⟩))) })
          ht.1 hM (upd_self _ _ _) hO' with g | ⟨g1, g2⟩
        · dsimp only at g
          rw [g]
          refine ⟨_, rfl, ?_⟩
          have := hI.drop (h := h) (B' := B) (v := none) e h1 h3 (.inl rfl)
          simp only [upd_upd]
          simpa [I.table, I.stack, I.groups] using this
        · dsimp only at g2
          rw [g2]
          refine ⟨_, rfl, ?_⟩
          have := hI.drop (h := h) e h1 h3 (.inr ⟨rfl, g1⟩)
          simpa [I.table, I.stack, I.groups] using this
      · rw [if_neg (by omega), if_neg hone]
        refine ⟨_, rfl, ?_⟩
        rw [hsub]
        have := I.change (o' := { o with refs := o.refs - 1, destructor := o.destructor }) e h1 h3 rfl (by show o.refs - 1 < 2 ^ 31; omega) hO'
        simpa using this
  | setDestructor h d =>
    cases e : A.objs h with
    | none => exact absurd e hf
    | some o =>
      obtain ⟨p, B, h1, h2, h3, h4⟩ := I.own h o e
      refine ⟨_, ?_, by
        simp only [Spec.next, e]
        exact I.change e h1 h3 rfl (I.refs h o e) (h4.header o.refs d)⟩
      simp only [step, h1, setDestructor, header_eq h2 h3 h4 (idx_lt (I.maker h o e)), Spec.next, e, Option.bind_eq_bind, Option.bind_some]
      rw [put_eq (p := (p.1, hoff o.maker)) h3 h4.hdr.1]
      rfl
  | write h i b =>
    obtain ⟨o, e, hi⟩ := hf
    obtain ⟨p, B, h1, h2, h3, h4⟩ := I.own h o e
    have := h4.size
    refine ⟨_, ?_, by
      simp only [Spec.next, e]
      exact I.change e h1 h3 rfl (I.refs h o e) (h4.write i b)⟩
    simp only [step, h1, Heap.write, h3, Spec.next, e]
    rw [if_pos (by omega), h2]
    rfl

/-- A history. -/
theorem run_inv {c : Prop} {rs : Resize} {ops : List Op} {S : St} {A : Abs} (I : Inv c S A) (hf : FineAll rs A ops)
    (hc : c → ∀ op ∈ ops, CanFree op) :
    ∃ S', run rs S ops = some (S', (Spec.nexts A ops).2) ∧ Inv c S' (Spec.nexts A ops).1 := by
  induction ops generalizing S A with
  | nil => exact ⟨S, rfl, I⟩
  | cons op ops ih =>
    obtain ⟨S1, h1, I1⟩ := step_inv I hf.1 fun h => hc h op (.head _)
    obtain ⟨S2, h2, I2⟩ := ih I1 hf.2 fun h op' hop => hc h op' (.tail _ hop)
    refine ⟨S2, ?_, I2⟩
    simp only [run, h1, h2]
    rfl

end Verif.AllocDispatch
