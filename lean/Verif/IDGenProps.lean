import Verif.IDGenSpec
import Verif.Conc
/-!
# C12: concurrently assigned IDs are unique
-/
namespace Verif.IDGen
open Verif.Conc Spec

theorem isOut_snoc (id : Nat) (log : List Ev) (e : Ev) : isOut id (log ++ [e]) = match e with
    | .take k _ => if k = id then true else isOut id log
    | .give k => if k = id then false else isOut id log
    | .fail _ => isOut id log := by
  cases e <;> simp only [isOut, List.foldl_append, List.foldl_cons, List.foldl_nil]

theorem good_snoc {size : Nat} {log : List Ev} (h : Good size log) (e : Ev) (he : match e with
    | .take id idle => id < size ∧ isOut id log = false ∧ ∀ x ∈ idle, id ≤ x
    | .give id => isOut id log = true
    | .fail idle => idle = []) : Good size (log ++ [e]) := by
  intro a x b hab
  rcases List.eq_nil_or_concat b with rfl | ⟨b', z, rfl⟩
  · obtain ⟨h1, h2⟩ := List.append_inj' hab rfl
    cases h2; subst h1; exact he
  · have : log ++ [e] = (a ++ x :: b') ++ [z] := by rw [hab]; simp
    obtain ⟨h1, -⟩ := List.append_inj' this rfl
    exact h a x b' h1

/-- The number of times a thread has `id`, or is recycling it. -/
def own (id : Nat) (t : Thr) : Nat := t.held.count id + (if t.pc = .check id then 1 else 0) + (if t.pc = .store id then 1 else 0)

def atAbort (t : Thr) : Nat := if t.pc = .abort then 1 else 0

/-- What is known about byte `id`. -/
def ByteOK (c : Cfg) (y : Sys) (id b : Nat) : Prop :=
  (id < c.size → (b = 0 ∧ sumBy (own id) y.thrs = 0 ∧ isOut id y.log = false) ∨ (b = 255 ∧ sumBy (own id) y.thrs = 1 ∧ isOut id y.log = true)) ∧
  (c.size ≤ id → b = 255)

/-- What is known about a thread. -/
def PcOK (c : Cfg) (y : Sys) (i : Nat) : PC → Prop
  | .sample k => (c.size ≤ k ∨ (c.strict = false ∧ k % c.w = 0)) ∧ ∀ x ∈ y.unused i, k ≤ x
  | .try k stop => stop ≤ c.padded ∧ (c.size ≤ stop ∨ (c.strict = false ∧ stop % c.w = 0)) ∧ (∀ x ∈ y.unused i, k ≤ x) ∧ k ≤ stop
  | .abort => False
  | _ => True

structure Inv (c : Cfg) (y : Sys) : Prop where
  len : y.pool.length = c.padded
  byte : ∀ {id b : Nat}, y.pool[id]? = some b → ByteOK c y id b
  range : ∀ id, c.size ≤ id → sumBy (own id) y.thrs = 0
  pcs : ∀ {i : Nat} {t : Thr}, y.thrs[i]? = some t → PcOK c y i t.pc
  unused : ∀ i, ∀ x ∈ y.unused i, x < c.size ∧ y.pool[x]? = some 0
  good : Good c.size y.log

/-- The generators that can be created: at least one ID (ConcurrentIDGenerator.c:41), a sample has at least one byte. -/
structure Valid (c : Cfg) : Prop where
  size : 1 ≤ c.size
  w : 1 ≤ c.w

theorem size_le_padded {c : Cfg} (v : Valid c) : c.size ≤ c.padded := by
  unfold Cfg.padded
  split
  · exact Nat.le_refl _
  · have h1 := Nat.div_add_mod (c.size - 1) c.w
    have h2 := Nat.mod_lt (c.size - 1) v.w
    have h3 := v.size
    rw [Nat.add_mul, Nat.one_mul, Nat.mul_comm]
    omega

theorem sample_fits {c : Cfg} (v : Valid c) (hs : c.strict = false) {k : Nat} (hk : k % c.w = 0) (h : k < c.size) : k + c.w ≤ c.padded := by
  unfold Cfg.padded
  rw [if_neg (by simp [hs])]
  have h0 : k / c.w ≤ (c.size - 1) / c.w := Nat.div_le_div_right (by omega)
  have h1 := Nat.div_add_mod k c.w
  have h2 : c.w * (k / c.w) ≤ c.w * ((c.size - 1) / c.w) := Nat.mul_le_mul_left _ h0
  rw [Nat.add_mul, Nat.one_mul, Nat.mul_comm ((c.size - 1) / c.w)]
  omega

theorem set_byte {l : List Nat} {k v id b : Nat} (h : (l.set k v)[id]? = some b) : (id = k ∧ b = v) ∨ (id ≠ k ∧ l[id]? = some b) := by
  rw [List.getElem?_set] at h
  split at h
  · next e => subst e; split at h <;> simp_all
  · next e => exact .inr ⟨fun e' => e e'.symm, h⟩

theorem thr_set {l : List Thr} {i j : Nat} {t t' : Thr} (h : (l.set i t)[j]? = some t') : (j = i ∧ t' = t) ∨ (j ≠ i ∧ l[j]? = some t') := by
  rw [List.getElem?_set] at h
  split at h
  · next e => subst e; split at h <;> simp_all
  · next e => exact .inr ⟨fun e' => e e'.symm, h⟩

theorem inv_init {c : Cfg} (v : Valid c) (n : Nat) : Inv c (init c n) := by
  have hp := size_le_padded v
  have h0 : ∀ id, sumBy (own id) (List.replicate n (⟨.idle, []⟩ : Thr)) = 0 := by
    intro id; rw [sumBy_replicate]; simp [own]
  refine ⟨by simp [init]; omega, ?_, fun id _ => h0 id, ?_, by simp [init], ?_⟩
  · intro id b h
    simp only [init, List.getElem?_append, List.length_replicate] at h
    refine ⟨fun hid => .inl ⟨?_, h0 id, rfl⟩, fun hid => ?_⟩
    · rw [if_pos hid, List.getElem?_replicate] at h; simp_all
    · rw [if_neg (by omega), List.getElem?_replicate] at h; split at h <;> simp_all
  · intro i t h
    simp only [init, List.getElem?_replicate] at h
    split at h
    · cases h; trivial
    · cases h
  · intro a e b h; simp [init] at h

/-- A step of a thread that changes no byte, no ID and no log entry. -/
theorem inv_move {c : Cfg} {y : Sys} (I : Inv c y) {i : Nat} {p q : PC} {h : List Nat} (ht : y.thrs[i]? = some ⟨p, h⟩)
    (ho : ∀ id, own id ⟨q, h⟩ = own id ⟨p, h⟩) (hq : PcOK c y i q) : Inv c { y with thrs := y.thrs.set i ⟨q, h⟩ } := by
  have hsum : ∀ id, sumBy (own id) (y.thrs.set i ⟨q, h⟩) = sumBy (own id) y.thrs := by
    intro id
    have := sumBy_set (own id) ht ⟨q, h⟩
    have := ho id
    omega
  refine ⟨I.len, ?_, fun id hid => (hsum id).trans (I.range id hid), ?_, I.unused, I.good⟩
  · intro id b hb
    have := I.byte hb
    simp only [ByteOK, hsum] at this ⊢
    exact this
  · intro j t hj
    rcases thr_set hj with ⟨rfl, rfl⟩ | ⟨_, hj⟩
    · exact hq
    · exact I.pcs hj

/-- A holder's ID is taken. -/
theorem Inv.owned {c : Cfg} {y : Sys} (v : Valid c) (I : Inv c y) {id : Nat} (h : 0 < sumBy (own id) y.thrs) :
    id < c.size ∧ y.pool[id]? = some 255 ∧ sumBy (own id) y.thrs = 1 ∧ isOut id y.log = true := by
  have hlt : id < c.size := by
    apply Decidable.byContradiction; intro hn
    have := I.range id (by omega)
    omega
  obtain ⟨b, hb⟩ : ∃ b, y.pool[id]? = some b := ⟨_, List.getElem?_eq_getElem (by rw [I.len]; have := size_le_padded v; omega)⟩
  rcases (I.byte hb).1 hlt with ⟨_, h2, _⟩ | ⟨h1, h2, h3⟩
  · omega
  · exact ⟨hlt, by rw [hb, h1], h2, h3⟩

theorem own_idle {id : Nat} {h : List Nat} : own id ⟨.idle, h⟩ = h.count id := by simp [own]
theorem own_sample {id k : Nat} {h : List Nat} : own id ⟨.sample k, h⟩ = h.count id := by simp [own]
theorem own_try {id k s : Nat} {h : List Nat} : own id ⟨.try k s, h⟩ = h.count id := by simp [own]
theorem own_abort {id : Nat} {h : List Nat} : own id ⟨.abort, h⟩ = h.count id := by simp [own]
theorem own_check {id k : Nat} {h : List Nat} : own id ⟨.check k, h⟩ = h.count id + if k = id then 1 else 0 := by simp [own]
theorem own_store {id k : Nat} {h : List Nat} : own id ⟨.store k, h⟩ = h.count id + if k = id then 1 else 0 := by simp [own]

theorem count_cons' {id k : Nat} {h : List Nat} : (k :: h).count id = h.count id + if k = id then 1 else 0 := by
  rw [List.count_cons]; simp

theorem count_erase' {id k : Nat} {h : List Nat} (hk : k ∈ h) : (h.erase k).count id + (if k = id then 1 else 0) = h.count id := by
  rw [List.count_erase]
  by_cases e : k = id
  · subst e
    have := List.count_pos_iff.2 hk
    simp; omega
  · simp [e]

theorem Inv.step {c : Cfg} {y y' : Sys} (v : Valid c) (I : Inv c y) (h : Step c y y') : Inv c y' := by
  have hpad := size_le_padded v
  cases h with
  | @call i h ht =>
    have hsum : ∀ id, sumBy (own id) (y.thrs.set i ⟨if c.strict then .try 0 c.size else .sample 0, h⟩) = sumBy (own id) y.thrs := by
      intro id
      have := sumBy_set (own id) ht ⟨if c.strict then .try 0 c.size else .sample 0, h⟩
      have : own id ⟨if c.strict then .try 0 c.size else .sample 0, h⟩ = own id ⟨.idle, h⟩ := by split <;> simp [own]
      omega
    refine ⟨I.len, ?_, fun id hid => (hsum id).trans (I.range id hid), ?_, ?_, I.good⟩
    · intro id b hb
      have := I.byte hb
      simp only [ByteOK, hsum] at this ⊢
      exact this
    · intro j t hj
      rcases thr_set hj with ⟨rfl, rfl⟩ | ⟨hn, hj⟩
      · dsimp only
        split
        · next hs =>
          refine ⟨by unfold Cfg.padded; rw [if_pos hs]; exact Nat.le_refl _, .inl (Nat.le_refl _), fun _ _ => Nat.zero_le _, Nat.zero_le _⟩
        · next hs => exact ⟨.inr ⟨by simpa using hs, Nat.zero_mod _⟩, fun _ _ => Nat.zero_le _⟩
      · have := I.pcs hj
        revert this
        cases t.pc <;> simp only [PcOK, if_neg hn, imp_self]
    · intro j x hx
      simp only at hx
      split at hx
      · simpa [Sys.free] using hx
      · exact I.unused j x hx
  | @full i k h ht hk hf =>
    have hp := I.pcs ht
    simp only [PcOK] at hp
    refine inv_move I ht (fun id => by simp [own]) ?_
    obtain ⟨h1, h2⟩ := hp
    have h3 : c.strict = false ∧ k % c.w = 0 := by
      rcases h1 with h1 | h1
      · omega
      · exact h1
    refine ⟨.inr ⟨h3.1, by rw [Nat.add_mod_right]; exact h3.2⟩, fun x hx => ?_⟩
    -- an idle ID in the sample would have shown
    apply Decidable.byContradiction; intro hlt
    obtain ⟨x1, x2⟩ := I.unused i x hx
    have hge := h2 x hx
    simp only [sampleFull, List.all_eq_true, beq_iff_eq] at hf
    have : (0 : Nat) ∈ (y.pool.drop k).take c.w := by
      rw [List.mem_iff_getElem?]
      refine ⟨x - k, ?_⟩
      rw [List.getElem?_take, if_pos (by omega), List.getElem?_drop, show k + (x - k) = x by omega]
      exact x2
    have := hf 0 this
    omega
  | @some i k h ht hk hf =>
    have hp := I.pcs ht
    simp only [PcOK] at hp
    obtain ⟨h1, h2⟩ := hp
    have h3 : c.strict = false ∧ k % c.w = 0 := by
      rcases h1 with h1 | h1
      · omega
      · exact h1
    refine inv_move I ht (fun id => by simp [own]) ?_
    exact ⟨sample_fits v h3.1 h3.2 hk, .inr ⟨h3.1, by rw [Nat.add_mod_right]; exact h3.2⟩, h2, by omega⟩
  | @fail i k h ht hk =>
    have hp := I.pcs ht
    simp only [PcOK] at hp
    have I' := inv_move I ht (q := .idle) (fun id => by simp [own]) trivial
    have hu : y.unused i = [] := by
      rw [List.eq_nil_iff_forall_not_mem]
      intro x hx
      have := hp.2 x hx
      have := (I.unused i x hx).1
      omega
    refine ⟨I'.len, ?_, I'.range, I'.pcs, I'.unused, good_snoc I.good _ hu⟩
    intro id b hb
    have := I'.byte hb
    simp only [ByteOK, isOut_snoc] at this ⊢
    exact this
  | @taken i k stop b h ht hk hb hb0 =>
    have hp := I.pcs ht
    simp only [PcOK] at hp
    have hb255 : b = 255 := by
      have := I.byte hb
      by_cases hs : k < c.size
      · rcases this.1 hs with h1 | h1
        · exact absurd h1.1 hb0
        · exact h1.1
      · exact this.2 (by omega)
    have hset : y.pool.set k 255 = y.pool := by
      apply List.ext_getElem?
      intro j
      rw [List.getElem?_set]
      split
      · next e => subst e; split
                  · rw [hb, hb255]
                  · next hn => rw [List.getElem?_eq_none (by omega)]
      · rfl
    rw [hset]
    refine inv_move I ht (fun id => by simp [own]) ⟨hp.1, hp.2.1, fun x hx => ?_, by omega⟩
    have h1 := hp.2.2.1 x hx
    have : x ≠ k := by
      intro e; subst e
      have := (I.unused i x hx).2
      rw [hb] at this; cases this; exact hb0 rfl
    omega
  | @assign i k stop h ht hk hb =>
    have hp := I.pcs ht
    simp only [PcOK] at hp
    have hks : k < c.size := by
      apply Decidable.byContradiction; intro hn
      have := (I.byte hb).2 (by omega)
      omega
    obtain ⟨-, s0, o0⟩ : (0 : Nat) = 0 ∧ sumBy (own k) y.thrs = 0 ∧ isOut k y.log = false := by
      rcases (I.byte hb).1 hks with h1 | h1
      · exact h1
      · omega
    have hsum : ∀ id, sumBy (own id) (y.thrs.set i ⟨.idle, k :: h⟩) = sumBy (own id) y.thrs + if k = id then 1 else 0 := by
      intro id
      have := sumBy_set (own id) ht ⟨.idle, k :: h⟩
      rw [own_idle, own_try, count_cons'] at this
      omega
    refine ⟨by simp [I.len], ?_, ?_, ?_, ?_, ?_⟩
    · intro id b hb'
      simp only [ByteOK, hsum, isOut_snoc]
      rcases set_byte hb' with ⟨rfl, rfl⟩ | ⟨hn, hb'⟩
      · refine ⟨fun _ => .inr ⟨rfl, ?_, ?_⟩, fun _ => rfl⟩
        · rw [s0, if_pos rfl]
        · rw [if_pos rfl]
      · have := I.byte hb'
        rw [if_neg (Ne.symm hn), if_neg (Ne.symm hn), Nat.add_zero]
        exact this
    · intro id hid
      dsimp only
      rw [hsum, I.range id hid, if_neg (by omega)]
    · intro j t hj
      rcases thr_set hj with ⟨rfl, rfl⟩ | ⟨hn, hj⟩
      · trivial
      · have := I.pcs hj
        revert this
        cases t.pc <;> simp only [PcOK, List.mem_filter, imp_self]
        · rintro ⟨a, b⟩; exact ⟨a, fun x hx => b x hx.1⟩
        · rintro ⟨a, a', b, d⟩; exact ⟨a, a', fun x hx => b x hx.1, d⟩
    · intro j x hx
      simp only [List.mem_filter, ne_eq, decide_not, Bool.not_eq_eq_eq_not, Bool.not_true, decide_eq_false_iff_not] at hx
      obtain ⟨h1, h2⟩ := I.unused j x hx.1
      refine ⟨h1, ?_⟩
      dsimp only
      rw [List.getElem?_set, if_neg (Ne.symm hx.2)]
      exact h2
    · exact good_snoc I.good _ ⟨hks, o0, hp.2.2.1⟩
  | @next i k stop h ht hk =>
    have hp := I.pcs ht
    simp only [PcOK] at hp
    refine inv_move I ht (fun id => by simp [own]) ⟨hp.2.1, fun x hx => ?_⟩
    have := hp.2.2.1 x hx
    omega
  | @pass i j id h h' p ht hm ht' =>
    have hsum : ∀ id', sumBy (own id') ((y.thrs.set i ⟨.idle, h.erase id⟩).set j ⟨p, id :: h'⟩) = sumBy (own id') y.thrs := by
      intro id'
      have a := sumBy_set (own id') ht ⟨.idle, h.erase id⟩
      have b := sumBy_set (own id') ht' ⟨p, id :: h'⟩
      have d := count_erase' (id := id') hm
      have e : own id' ⟨p, id :: h'⟩ = own id' ⟨p, h'⟩ + if id = id' then 1 else 0 := by
        simp only [own, count_cons']; omega
      rw [own_idle, own_idle] at a
      omega
    refine ⟨I.len, ?_, fun x hx => (hsum x).trans (I.range x hx), ?_, I.unused, I.good⟩
    · intro x b hb
      have := I.byte hb
      simp only [ByteOK, hsum] at this ⊢
      exact this
    · intro l t hl
      rcases thr_set hl with ⟨rfl, rfl⟩ | ⟨hn, hl⟩
      · rcases thr_set ht' with ⟨rfl, e⟩ | ⟨_, hj⟩
        · cases e; trivial
        · have := I.pcs hj
          exact this
      · rcases thr_set hl with ⟨rfl, rfl⟩ | ⟨_, hj⟩
        · trivial
        · exact I.pcs hj
  | @recycle i id h ht hm =>
    have hpos : 0 < sumBy (own id) y.thrs := by
      have := le_sumBy (own id) ht
      rw [own_idle] at this
      have := List.count_pos_iff.2 hm
      omega
    obtain ⟨o1, o2, o3, o4⟩ := I.owned v hpos
    rw [if_pos o1]
    have hsum : ∀ id', sumBy (own id') (y.thrs.set i ⟨.check id, h.erase id⟩) = sumBy (own id') y.thrs := by
      intro id'
      have a := sumBy_set (own id') ht ⟨.check id, h.erase id⟩
      have d := count_erase' (id := id') hm
      rw [own_idle, own_check] at a
      omega
    refine ⟨I.len, ?_, fun x hx => (hsum x).trans (I.range x hx), ?_, I.unused, I.good⟩
    · intro x b hb
      have := I.byte hb
      simp only [ByteOK, hsum] at this ⊢
      exact this
    · intro l t hl
      rcases thr_set hl with ⟨rfl, rfl⟩ | ⟨hn, hl⟩
      · trivial
      · exact I.pcs hl
  | @check i id b h ht hb =>
    have hpos : 0 < sumBy (own id) y.thrs := by
      have := le_sumBy (own id) ht
      rw [own_check, if_pos rfl] at this
      omega
    obtain ⟨o1, o2, o3, o4⟩ := I.owned v hpos
    rw [o2] at hb; cases hb
    rw [if_pos (by decide)]
    exact inv_move I ht (fun id => by simp [own]) trivial
  | @store i id h ht =>
    have hpos : 0 < sumBy (own id) y.thrs := by
      have := le_sumBy (own id) ht
      rw [own_store, if_pos rfl] at this
      omega
    obtain ⟨o1, o2, o3, o4⟩ := I.owned v hpos
    have hsum : ∀ id', sumBy (own id') (y.thrs.set i ⟨.idle, h⟩) + (if id = id' then 1 else 0) = sumBy (own id') y.thrs := by
      intro id'
      have a := sumBy_set (own id') ht ⟨.idle, h⟩
      rw [own_idle, own_store] at a
      omega
    refine ⟨by simp [I.len], ?_, ?_, ?_, ?_, good_snoc I.good _ o4⟩
    · intro x b hb'
      simp only [ByteOK, isOut_snoc]
      have hx := hsum x
      rcases set_byte hb' with ⟨rfl, rfl⟩ | ⟨hn, hb'⟩
      · rw [if_pos rfl] at hx
        exact ⟨fun _ => .inl ⟨rfl, by omega, by rw [if_pos rfl]⟩, fun _ => by omega⟩
      · have := I.byte hb'
        rw [if_neg (Ne.symm hn)] at hx ⊢
        simp only [ByteOK] at this
        rw [← hx, Nat.add_zero] at this
        exact this
    · intro x hx
      have := hsum x
      have := I.range x hx
      dsimp only
      omega
    · intro l t hl
      rcases thr_set hl with ⟨rfl, rfl⟩ | ⟨hn, hl⟩
      · trivial
      · exact I.pcs hl
    · intro j x hx
      obtain ⟨h1, h2⟩ := I.unused j x hx
      refine ⟨h1, ?_⟩
      dsimp only
      rw [List.getElem?_set]
      split
      · next e =>
        rw [if_pos (by rw [I.len]; omega)]
      · exact h2

theorem Reach.inv {c : Cfg} {n : Nat} {y : Sys} (v : Valid c) (h : Reach c n y) : Inv c y := by
  induction h with
  | init => exact inv_init v n
  | step _ s ih => exact ih.step v s

/-- **C12.** For every generator and any number of threads, at every moment of every interleaving: no two holders (or one holder twice) have the same ID, every ID held is in the generator's range, no assertion fails,
no byte outside the pool is accessed, and the log is good: an ID is handed out only while it is not out, and it is the smallest of the IDs that nobody had during the call; a try fails only if
there was no ID that nobody had during the whole call. -/
theorem C12_ids_unique (c : Cfg) (v : Valid c) (n : Nat) (y : Sys) (h : Reach c n y) :
    Good c.size y.log ∧
    (∀ id, (y.thrs.flatMap Thr.held).count id ≤ 1) ∧ (∀ t ∈ y.thrs, ∀ id ∈ t.held, id < c.size ∧ isOut id y.log = true) ∧
    (∀ t ∈ y.thrs, t.pc ≠ .abort) ∧
    (∀ t ∈ y.thrs, ∀ k, t.pc = .sample k → k < c.size → k + c.w ≤ y.pool.length) ∧
    (∀ t ∈ y.thrs, ∀ k stop, t.pc = .try k stop → k < stop → k < y.pool.length) ∧
    (∀ t ∈ y.thrs, ∀ id, t.pc = .check id ∨ t.pc = .store id → id < y.pool.length) := by
  have I := h.inv v
  have hpad := size_le_padded v
  have hle : ∀ id, sumBy (own id) y.thrs ≤ 1 := by
    intro id
    apply Decidable.byContradiction; intro hn
    have := (I.owned v (id := id) (by omega)).2.2.1
    omega
  have hcount : ∀ id (l : List Thr), (l.flatMap Thr.held).count id ≤ sumBy (own id) l := by
    intro id l
    induction l with
    | nil => simp
    | cons t l ih =>
      rw [List.flatMap_cons, List.count_append, sumBy_cons]
      have : t.held.count id ≤ own id t := by unfold own; omega
      omega
  have hmem : ∀ t ∈ y.thrs, ∀ id, 0 < own id t → 0 < sumBy (own id) y.thrs := by
    intro t ht id hpos
    obtain ⟨i, hi⟩ := List.mem_iff_getElem?.1 ht
    have := le_sumBy (own id) hi
    omega
  refine ⟨I.good, fun id => Nat.le_trans (hcount id _) (hle id), ?_, ?_, ?_, ?_, ?_⟩
  · intro t ht id hid
    have := I.owned v (hmem t ht id (by have := List.count_pos_iff.2 hid; unfold own; omega))
    exact ⟨this.1, this.2.2.2⟩
  · intro t ht hab
    obtain ⟨i, hi⟩ := List.mem_iff_getElem?.1 ht
    have := I.pcs hi
    rw [hab] at this; exact this
  · intro t ht k hk hlt
    obtain ⟨i, hi⟩ := List.mem_iff_getElem?.1 ht
    have := I.pcs hi
    rw [hk] at this
    rw [I.len]
    rcases this.1 with h1 | h1
    · omega
    · exact sample_fits v h1.1 h1.2 hlt
  · intro t ht k stop hk hlt
    obtain ⟨i, hi⟩ := List.mem_iff_getElem?.1 ht
    have := I.pcs hi
    rw [hk] at this
    rw [I.len]
    have := this.1
    omega
  · intro t ht id hk
    have := (I.owned v (hmem t ht id (by rcases hk with hk | hk <;> simp [own, hk]))).1
    rw [I.len]; omega

/-- Non-vacuity: two threads take the two IDs of a generator of size 2 (padded to 8 bytes), one is recycled and taken again. -/
example : ∃ y, Reach ⟨2, 8, false⟩ 2 y ∧ y.log = [.take 0 [0, 1], .take 1 [1], .give 0, .take 0 [0]] ∧ Valid ⟨2, 8, false⟩ := by
  have h := Reach.init (c := ⟨2, 8, false⟩) (n := 2)
  have h := h.step (Step.call (i := 0) rfl)
  have h := h.step (Step.call (i := 1) rfl)
  have h := h.step (Step.some (i := 0) rfl (by decide) rfl)
  have h := h.step (Step.some (i := 1) rfl (by decide) rfl)
  have h := h.step (Step.assign (i := 0) rfl (by decide) rfl)
  have h := h.step (Step.taken (i := 1) rfl (by decide) rfl (by decide))
  have h := h.step (Step.assign (i := 1) rfl (by decide) rfl)
  have h := h.step (Step.recycle (i := 0) (id := 0) rfl (by decide))
  have h := h.step (Step.check (i := 0) rfl rfl)
  have h := h.step (Step.store (i := 0) rfl)
  have h := h.step (Step.call (i := 1) rfl)
  have h := h.step (Step.some (i := 1) rfl (by decide) rfl)
  have h := h.step (Step.assign (i := 1) rfl (by decide) rfl)
  exact ⟨_, h, rfl, by decide, by decide⟩

#print axioms C12_ids_unique
end Verif.IDGen
