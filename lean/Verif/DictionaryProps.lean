import Verif.Dictionary
import Verif.DictionarySpec
import Verif.HashMapWalkProps
/-!
# Destructors of the dictionary (second half of C41)
-/
namespace Verif.Dictionary
open Verif.BitTricks (U64)
open Verif.HashMap (Cfg Map Item rows contents at' isEmpty isInit toIndex toPair_live mem_contents itemAt_eq Good Setting Fits Agrees)
open Verif.HashMap.Spec (Op has update erase lookup Consistent)
open Spec (Ledger)
variable {K V : Type}

/-- The largest bucket count. -/
def maxBuckets : Nat := 472907503

/-- What a user may do: there is room for the handles (`2^34` keys always fit), and, if the call makes the dictionary grow, no key is waiting for its first value at that moment. -/
structure Allowed (full : Nat → Nat → Bool) (L : Nat) (d : Dict K V) (b : Ledger K V) (op : Op K V) : Prop where
  room : (b.step d.cfg.eq op).live.length ≤ L
  calm : Spec.inserts op = true → full d.m.count d.cfg.c = true → ∀ p ∈ b.live, p.2.isSome = true

/-- States reached from a new dictionary by allowed calls, with their ledger. -/
inductive Reach (full : Nat → Nat → Bool) (L : Nat) (cfg : Cfg K) (kd vd : Bool) : Dict K V → Ledger K V → Prop
  | start : Reach full L cfg kd vd (create cfg kd vd) Ledger.empty
  | call {d b op d'} : Reach full L cfg kd vd d b → Allowed full L d b op → exec full d op = some d' → Reach full L cfg kd vd d' (b.step cfg.eq op)

/-! ### lists -/

theorem erase_other {eq : K → K → Bool} {l : List (K × Option V)} {k : K} (h : ∀ p ∈ l, eq k p.1 = false) : erase eq l k = l := by
  rw [erase, List.filter_eq_self]; intro p hp; rw [h p hp]; rfl

theorem update_other {eq : K → K → Bool} {l : List (K × Option V)} {k : K} {w : Option V} (h : ∀ p ∈ l, eq k p.1 = false) : update eq l k w = l := by
  rw [update]; conv => rhs; rw [← List.map_id l]
  apply List.map_congr_left; intro p hp; rw [h p hp]; rfl

theorem take_out {cfg : Cfg K} (hs : Consistent cfg.eq cfg.hash) {k k' : K} {o : Option V} : ∀ {l : List (K × Option V)},
    l.Pairwise (fun p q => cfg.eq p.1 q.1 = false) → (k', o) ∈ l → cfg.eq k k' = true →
    l.Perm ((k', o) :: erase cfg.eq l k) ∧ ∀ w, (update cfg.eq l k w).Perm ((k', w) :: erase cfg.eq l k)
  | p :: t, hd, hm, hk => by
    by_cases hp : cfg.eq k p.1 = true
    · have ho := HashMap.distinct_other hs hd hp
      have he : (k', o) = p := by
        rcases List.mem_cons.1 hm with h | h
        · exact h
        · have := ho _ h; simp only at this; rw [hk] at this; cases this
      subst he
      have e1 : erase cfg.eq ((k', o) :: t) k = t := by
        rw [erase, List.filter_cons]; simp only [hk, Bool.not_true, Bool.false_eq_true, if_false]
        exact erase_other ho
      refine ⟨by rw [e1], fun w => ?_⟩
      rw [e1, update, List.map_cons]; simp only [hk, if_true]
      rw [show (t.map fun p => if cfg.eq k p.1 = true then (p.1, w) else p) = update cfg.eq t k w from rfl, update_other ho]
    · have hm' : (k', o) ∈ t := by
        rcases List.mem_cons.1 hm with h | h
        · exact absurd hk (by rw [← h] at hp; exact hp)
        · exact h
      have hp' : cfg.eq k p.1 = false := by simpa using hp
      obtain ⟨a, c⟩ := take_out hs (List.pairwise_cons.1 hd).2 hm' hk
      have e1 : erase cfg.eq (p :: t) k = p :: erase cfg.eq t k := by
        rw [erase, List.filter_cons]; simp only [hp', Bool.not_false, if_true]; rfl
      refine ⟨?_, fun w => ?_⟩
      · rw [e1]; exact (a.cons p).trans (List.Perm.swap _ _ _)
      · rw [e1, update, List.map_cons]; simp only [hp', Bool.false_eq_true, if_false]
        exact ((c w).cons p).trans (List.Perm.swap _ _ _)

/-! ### what the steps do -/

/-- The item an entry stands for. -/
structure At (d : Dict K V) (k : K) (e : U64) (it : Item K V) : Prop where
  nz : e ≠ 0
  place : ∃ b i, at' (rows d.cfg d.m) b i = some it ∧ toIndex d.cfg e = some (some (b, i))
  live : isEmpty it.tag = false
  key : d.cfg.eq k it.key = true

theorem destroyValue_at {d : Dict K V} {k : K} {e : U64} {it : Item K V} (h : At d k e it) :
    destroyValue d e = some { d with vlog := d.vlog ++ if d.vd && isInit it.tag then [it.value] else [] } := by
  obtain ⟨b, i, h1, h2⟩ := h.place
  rw [← itemAt_eq] at h1
  have a1 : HashMap.entryIsInitialized d.cfg d.m e = some (isInit it.tag) := by simp [HashMap.entryIsInitialized, h2, h1, h.live]
  have a2 : HashMap.getEntry d.cfg d.m e = some (some it.value) := by simp [HashMap.getEntry, h2, h1, h.live]
  clear h h2
  cases d with | mk cf m kd vd kl vl =>
  simp only at a1 a2
  cases vd
  · simp [destroyValue]
  · cases hi : isInit it.tag <;> simp [destroyValue, a1, a2, hi]

theorem destroyKey_at {d : Dict K V} {k : K} {e : U64} {it : Item K V} (h : At d k e it) :
    destroyKey d e = some { d with klog := d.klog ++ if d.kd then [it.key] else [] } := by
  obtain ⟨b, i, h1, h2⟩ := h.place
  rw [← itemAt_eq] at h1
  have a1 : HashMap.getKey d.cfg d.m e = some (some it.key) := by simp [HashMap.getKey, h2, h1, h.live]
  clear h h2
  cases d with | mk cf m kd vd kl vl =>
  simp only at a1
  cases kd <;> simp [destroyKey, a1]

theorem setEntry_at {L : Nat} {d : Dict K V} {l : List (K × Option V)} (s : Setting d.cfg L) (g : Good d.cfg L d.m l) {k : K} {e : U64} {it : Item K V} (h : At d k e it) (v : V) :
    ∃ m', setEntry d e v = some { d with m := m', vlog := d.vlog ++ if d.vd && isInit it.tag then [it.value] else [] } ∧ Good d.cfg L m' (update d.cfg.eq l k (some v)) := by
  obtain ⟨b, i, h1, h2⟩ := h.place
  obtain ⟨m', e1, u⟩ := HashMap.setEntry_effect h1 h.live h2 k h.key (some v)
  refine ⟨m', ?_, (HashMap.good_updated s g u).1⟩
  rw [setEntry, if_neg h.nz, destroyValue_at h]
  simp only [Option.bind_eq_bind, Option.bind_some, e1]; rfl

theorem removeEntry_at {L : Nat} {d : Dict K V} {l : List (K × Option V)} (s : Setting d.cfg L) (g : Good d.cfg L d.m l) {k : K} {e : U64} {it : Item K V} (h : At d k e it) :
    ∃ m', removeEntry d e = some { d with m := m', klog := d.klog ++ (if d.kd then [it.key] else []), vlog := d.vlog ++ if d.vd && isInit it.tag then [it.value] else [] } ∧
      Good d.cfg L m' (erase d.cfg.eq l k) := by
  obtain ⟨b, i, h1, h2⟩ := h.place
  obtain ⟨m', e1, u⟩ := HashMap.removeAt_effect h1 h.live h2 k h.key
  refine ⟨m', ?_, HashMap.good_removed s g u⟩
  have h' : At { d with klog := d.klog ++ if d.kd then [it.key] else [] } k e it := ⟨h.nz, h.place, h.live, h.key⟩
  rw [removeEntry, if_neg h.nz, destroyKey_at h]
  simp only [Option.bind_eq_bind, Option.bind_some, destroyValue_at h', HashMap.removeEntry, e1]; rfl

/-- The invariant. -/
structure Inv (L : Nat) (cfg : Cfg K) (kd vd : Bool) (d : Dict K V) (b : Ledger K V) : Prop where
  eq : d.cfg.eq = cfg.eq
  hash : d.cfg.hash = cfg.hash
  pos : 1 ≤ d.cfg.c
  small : d.cfg.c ≤ maxBuckets
  isKd : d.kd = kd
  isVd : d.vd = vd
  good : Good d.cfg L d.m b.live
  len : b.live.length ≤ L
  keys : kd = true → b.keys.Perm (b.live.map (·.1) ++ d.klog)
  values : vd = true → (b.values.map some).Perm ((b.live.filterMap (·.2)).map some ++ d.vlog)
  nokeys : kd = false → d.klog = []
  novalues : vd = false → d.vlog = []

theorem setting {L : Nat} {cfg : Cfg K} (hs : Consistent cfg.eq cfg.hash) (hL : L ≤ 2 ^ 34) {kd vd : Bool} {d : Dict K V} {b : Ledger K V} (h : Inv L cfg kd vd d b) : Setting d.cfg L := by
  refine HashMap.setting_of_fits (by rw [h.eq, h.hash]; exact hs) ⟨h.pos, ?_, ?_⟩
  · have := h.small; unfold maxBuckets at this; omega
  · have := h.small; unfold maxBuckets at this
    calc L * (2 * (d.cfg.c + 1)) ≤ 2 ^ 34 * (2 * (472907503 + 1)) := Nat.mul_le_mul hL (by omega)
      _ ≤ 2 ^ 64 := by decide

theorem nextSize_le {c : Nat} (h : c ≤ maxBuckets) (hp : 1 ≤ c) : nextSize c ≤ maxBuckets ∧ 1 ≤ nextSize c := by
  unfold nextSize
  cases hf : bucketSizes.find? (fun n => decide (n > c)) with
  | none => exact ⟨h, hp⟩
  | some n =>
    have h1 := List.mem_of_find?_eq_some hf
    have h2 := List.find?_some hf
    have : ∀ x ∈ bucketSizes, x ≤ maxBuckets := by unfold maxBuckets bucketSizes; decide
    simp only [gt_iff_lt, decide_eq_true_eq] at h2
    exact ⟨this n h1, by simp only [Option.getD_some]; omega⟩

/-- Rehashing a map in which every key has a value. -/
theorem rehash_good {cfg : Cfg K} {L : Nat} {c' : Nat} (s : Setting cfg L) (s' : Setting { cfg with c := c' } L) {m : Map K V} {l : List (K × Option V)} (g : Good cfg L m l)
    (hl : l.length ≤ L) (hall : ∀ p ∈ l, p.2.isSome = true) :
    ∃ m', HashMap.rehash cfg m c' = some ({ cfg with c := c' }, m') ∧ Good { cfg with c := c' } L m' l := by
  obtain ⟨e0, h1, h2⟩ := HashMap.head_entry s g.wf
  have hplen : (HashMap.places 0 (rows cfg m)).length = m.count := by rw [g.wf.count, HashMap.contents_places, List.length_map]
  have hle : m.count ≤ L := by rw [g.wf.count, g.perm.length_eq]; exact hl
  obtain ⟨m', q1, q2, q3⟩ := HashMap.rehash_loop s s' rfl g.wf (HashMap.places 0 (rows cfg m)) [] e0 HashMap.create (m.count + 1) rfl h2 (by omega) (HashMap.wf_create _ L)
    (by rw [HashMap.contents_create]; exact List.Perm.refl _) (by omega)
  rw [List.nil_append] at q3
  have hcm : contents (rows cfg m) = _ := HashMap.contents_places (rows cfg m)
  have hval : ∀ p ∈ HashMap.places 0 (rows cfg m), isInit p.2.2.tag = true := by
    intro p hp
    have hpc : (p.2.2.key, if isInit p.2.2.tag then p.2.2.value else none) ∈ contents (rows cfg m) := by
      rw [hcm]; exact List.mem_map.2 ⟨p, hp, rfl⟩
    have := hall _ (g.perm.subset hpc)
    cases hc : isInit p.2.2.tag
    · simp only [hc] at this; cases this
    · rfl
  have hperm : (contents (rows { cfg with c := c' } m')).Perm l := by
    refine q3.trans (List.Perm.trans ?_ g.perm)
    rw [hcm]
    apply List.Perm.of_eq
    apply List.map_congr_left
    intro p hp
    rw [hval p hp]; rfl
  refine ⟨m', by simp only [HashMap.rehash, h1, Option.bind_eq_bind, Option.bind_some, q1]; rfl, q2, ?_, hperm⟩
  intro b i it h1 h2 h3
  have := hall _ (hperm.subset (mem_contents.2 ⟨b, i, it, h1, toPair_live h2⟩))
  simp only [h3] at this
  simpa using this

theorem grow_inv {full : Nat → Nat → Bool} {L : Nat} {cfg : Cfg K} (hs : Consistent cfg.eq cfg.hash) (hL : L ≤ 2 ^ 34) {kd vd : Bool} {d : Dict K V} {b : Ledger K V}
    (h : Inv L cfg kd vd d b) (hc : full d.m.count d.cfg.c = true → ∀ p ∈ b.live, p.2.isSome = true) : ∃ d', grow full d = some d' ∧ Inv L cfg kd vd d' b := by
  unfold grow
  split
  · next hf =>
    obtain ⟨n1, n2⟩ := nextSize_le h.small h.pos
    have s' : Setting { d.cfg with c := nextSize d.cfg.c } L := by
      refine HashMap.setting_of_fits (by show Consistent d.cfg.eq d.cfg.hash; rw [h.eq, h.hash]; exact hs) ⟨n2, ?_, ?_⟩
      · show nextSize d.cfg.c + 1 < 2 ^ 63; unfold maxBuckets at n1; omega
      · show L * (2 * (nextSize d.cfg.c + 1)) ≤ 2 ^ 64
        unfold maxBuckets at n1
        calc L * (2 * (nextSize d.cfg.c + 1)) ≤ 2 ^ 34 * (2 * (472907503 + 1)) := Nat.mul_le_mul hL (by omega)
          _ ≤ 2 ^ 64 := by decide
    obtain ⟨m', e, g⟩ := rehash_good (setting hs hL h) s' h.good h.len (hc hf)
    exact ⟨{ d with cfg := { d.cfg with c := nextSize d.cfg.c }, m := m' }, by simp only [e, Option.bind_eq_bind, Option.bind_some]; rfl,
      ⟨h.eq, h.hash, n2, n1, h.isKd, h.isVd, g, h.len, h.keys, h.values, h.nokeys, h.novalues⟩⟩
  · exact ⟨d, rfl, h⟩

/-- Looking a key up. -/
theorem find_cases {L : Nat} {cfg : Cfg K} (hs : Consistent cfg.eq cfg.hash) (hL : L ≤ 2 ^ 34) {kd vd : Bool} {d : Dict K V} {b : Ledger K V} (h : Inv L cfg kd vd d b) (k : K) :
    (∃ e it, At d k e it ∧ findKey d k = some e ∧ HashMap.entryForKey d.cfg d.m k = some (d.m, e, false) ∧ has cfg.eq b.live k = true ∧
      HashMap.removeValue d.cfg d.m k = HashMap.removeAt d.cfg d.m e ∧
      (it.key, if isInit it.tag then it.value else none) ∈ b.live) ∨
    (findKey d k = some 0 ∧ has cfg.eq b.live k = false ∧ erase cfg.eq b.live k = b.live ∧ HashMap.removeValue d.cfg d.m k = some d.m ∧ (b.live.length + 1 ≤ L → ∃ m' e it, HashMap.entryForKey d.cfg d.m k = some (m', e, true) ∧
      At { d with m := m' } k e it ∧ it.key = k ∧ isInit it.tag = false ∧ Good d.cfg L m' (b.live ++ [(k, none)]))) := by
  have s := setting hs hL h
  rcases HashMap.find_effect s h.good.wf k with ⟨bk, i, it, e, h1, h2, h3, h4, h5, h6, h7, h8, h9, h10⟩ | ⟨hn, h1, h2, h3, m', bk, i, u, he⟩
  · refine .inl ⟨e, it, ⟨h5, ⟨bk, i, h1, h6⟩, h2, h3⟩, h7, h8, ?_, h10, ?_⟩
    · rw [← h.eq]; exact HashMap.has_live h.good.perm h1 h2 h3
    · exact h.good.perm.subset (mem_contents.2 ⟨bk, i, it, h1, toPair_live h2⟩)
  · refine .inr ⟨h1, by rw [← h.eq]; exact HashMap.not_has hn h.good.perm, by rw [← h.eq]; exact HashMap.erase_none hn h.good.perm, h3, fun hlen => ?_⟩
    obtain ⟨e, it, e1, e2, e3, e4, e5, e6⟩ := HashMap.create_new s h.good hlen u he
    have g1 := (HashMap.good_added s h.good (by simp) hlen u).1
    refine ⟨m', e, it, e3, ⟨e1, ⟨bk, i, e4, e2⟩, e5, by show d.cfg.eq k it.key = true; rw [e6]; exact s.cons.refl k⟩, e6, ?_, g1⟩
    obtain ⟨-, x, old, -, h3, -⟩ := u
    rw [h3.at_self.1] at e4
    cases e4
    exact HashMap.isInit_mh _ _

theorem update_append {eq : K → K → Bool} {l : List (K × Option V)} {k : K} {o w : Option V} (hr : eq k k = true) (h : has eq l k = false) :
    update eq (l ++ [(k, o)]) k w = l ++ [(k, w)] := by
  rw [update, List.map_append]
  congr 1
  · rw [has, List.any_eq_false] at h
    exact update_other (fun p hp => by simpa using h p hp)
  · simp [hr]

/-- The entry `k` of an initialised/uninitialised item, replaced by a value. -/
theorem inv_set {L : Nat} {cfg : Cfg K} (hs : Consistent cfg.eq cfg.hash) (hL : L ≤ 2 ^ 34) {kd vd : Bool} {d : Dict K V} {b : Ledger K V} (h : Inv L cfg kd vd d b) {k : K} {e : U64}
    {it : Item K V} (ha : At d k e it) (hm : (it.key, if isInit it.tag then it.value else none) ∈ b.live) (v : V) :
    ∃ d', setEntry d e v = some d' ∧ Inv L cfg kd vd d' ⟨update cfg.eq b.live k (some v), b.keys, b.values ++ [v]⟩ := by
  have s := setting hs hL h
  obtain ⟨m', e1, g⟩ := setEntry_at s h.good ha v
  refine ⟨_, e1, h.eq, h.hash, h.pos, h.small, h.isKd, h.isVd, by rw [← h.eq]; exact g, by simp only [update, List.length_map]; exact h.len, ?_, ?_, h.nokeys, ?_⟩
  · intro hk
    simp only [update, List.map_map]
    rw [show b.live.map ((fun x => x.1) ∘ fun p => if cfg.eq k p.1 = true then (p.1, some v) else p) = b.live.map (·.1) from by
      apply List.map_congr_left; intro p _; simp only [Function.comp]; split <;> rfl]
    exact h.keys hk
  · intro hv
    have hd := HashMap.pairwise_perm s.cons h.good.perm h.good.wf.distinct
    obtain ⟨t1, t2⟩ := take_out s.cons hd hm ha.key
    rw [← h.eq]
    have q1 := (t1.filterMap (·.2)).map (some : V → Option V)
    have q2 := ((t2 (some v)).filterMap (·.2)).map (some : V → Option V)
    have hvd : d.vd = true := h.isVd.trans hv
    simp only [List.map_append, List.map_cons, List.map_nil, hvd, Bool.true_and]
    have base := h.values hv
    cases hi : isInit it.tag
    · simp only [hi, Bool.false_eq_true, if_false, List.append_nil, List.filterMap_cons] at q1 q2 ⊢
      refine List.Perm.trans ((base.trans (q1.append_right _)).append_right _) ?_
      refine List.Perm.trans ?_ (q2.append_right _).symm
      simp only [List.map_cons, List.cons_append]
      exact List.perm_append_singleton _ _
    · obtain ⟨bk, i, p1, p2⟩ := ha.place
      have hsome := h.good.init bk i it p1 ha.live hi
      obtain ⟨w, hw⟩ := Option.isSome_iff_exists.1 hsome
      simp only [hi, if_true, hw, List.filterMap_cons, List.map_cons] at q1 q2 ⊢
      refine List.Perm.trans ((base.trans (q1.append_right _)).append_right _) ?_
      refine List.Perm.trans ?_ (q2.append_right _).symm
      simp only [List.cons_append, List.append_assoc]
      refine List.Perm.trans ?_ (List.perm_append_singleton (some v) _) |>.trans (List.Perm.refl _)
      simp only [List.append_assoc]
      refine List.Perm.trans (List.perm_middle.symm) ?_
      exact List.Perm.append_left _ List.perm_middle.symm
  · intro hv
    have hvd : d.vd = false := h.isVd.trans hv
    simp [hvd, h.novalues hv]

/-- Creating an entry without value. -/
theorem inv_create {L : Nat} {cfg : Cfg K} {kd vd : Bool} {d : Dict K V} {b : Ledger K V} (h : Inv L cfg kd vd d b) {k : K} {m' : Map K V}
    (hlen : b.live.length + 1 ≤ L) (g : Good d.cfg L m' (b.live ++ [(k, none)])) :
    Inv L cfg kd vd { d with m := m' } ⟨b.live ++ [(k, none)], b.keys ++ [k], b.values⟩ := by
  refine ⟨h.eq, h.hash, h.pos, h.small, h.isKd, h.isVd, g, by simpa using hlen, ?_, ?_, h.nokeys, h.novalues⟩
  · intro hk
    simp only [List.map_append, List.map_cons, List.map_nil, List.append_assoc]
    refine (((h.keys hk).append_right _)).trans ?_
    simp only [List.append_assoc]
    exact List.Perm.append_left _ List.perm_append_comm
  · intro hv
    simpa using h.values hv

/-- Removing. -/
theorem inv_remove {L : Nat} {cfg : Cfg K} (hs : Consistent cfg.eq cfg.hash) (hL : L ≤ 2 ^ 34) {kd vd : Bool} {d : Dict K V} {b : Ledger K V} (h : Inv L cfg kd vd d b) {k : K} {e : U64}
    {it : Item K V} (ha : At d k e it) (hm : (it.key, if isInit it.tag then it.value else none) ∈ b.live) :
    ∃ d', removeEntry d e = some d' ∧ Inv L cfg kd vd d' ⟨erase cfg.eq b.live k, b.keys, b.values⟩ := by
  have s := setting hs hL h
  obtain ⟨m', e1, g⟩ := removeEntry_at s h.good ha
  have hd := HashMap.pairwise_perm s.cons h.good.perm h.good.wf.distinct
  obtain ⟨t1, -⟩ := take_out s.cons hd hm ha.key
  refine ⟨_, e1, h.eq, h.hash, h.pos, h.small, h.isKd, h.isVd, by rw [← h.eq]; exact g, Nat.le_trans (List.length_filter_le _ _) h.len, ?_, ?_, ?_, ?_⟩
  · intro hk
    have hkd : d.kd = true := h.isKd.trans hk
    simp only [hkd, if_true]
    rw [← h.eq]
    refine (h.keys hk).trans (((t1.map (·.1)).append_right _).trans ?_)
    simp only [List.map_cons, List.cons_append, ← List.append_assoc]
    exact (List.perm_append_singleton _ _).symm
  · intro hv
    have hvd : d.vd = true := h.isVd.trans hv
    have q1 := (t1.filterMap (·.2)).map (some : V → Option V)
    simp only [hvd, Bool.true_and]
    rw [← h.eq]
    refine (h.values hv).trans ((q1.append_right _).trans ?_)
    cases hi : isInit it.tag
    · simp only [Bool.false_eq_true, if_false, List.append_nil, List.filterMap_cons]
      exact List.Perm.refl _
    · obtain ⟨bk, i, p1, p2⟩ := ha.place
      have hsome := h.good.init bk i it p1 ha.live hi
      obtain ⟨w, hw⟩ := Option.isSome_iff_exists.1 hsome
      simp only [if_true, hw, List.filterMap_cons, List.map_cons, List.cons_append, ← List.append_assoc]
      exact (List.perm_append_singleton _ _).symm
  · intro hk
    have hkd : d.kd = false := h.isKd.trans hk
    simp [hkd, h.nokeys hk]
  · intro hv
    have hvd : d.vd = false := h.isVd.trans hv
    simp [hvd, h.novalues hv]

/-- The state after `EntryForKey`: the entry stands for the key. -/
theorem inv_entryForKey {full : Nat → Nat → Bool} {L : Nat} {cfg : Cfg K} (hs : Consistent cfg.eq cfg.hash) (hL : L ≤ 2 ^ 34) {kd vd : Bool} {d : Dict K V} {b : Ledger K V}
    (h : Inv L cfg kd vd d b) (hc : full d.m.count d.cfg.c = true → ∀ p ∈ b.live, p.2.isSome = true) (k : K) (hlen : has cfg.eq b.live k = false → b.live.length + 1 ≤ L) :
    ∃ d' e it, entryForKey full d k = some (d', e) ∧ At d' k e it ∧ Inv L cfg kd vd d' (b.step cfg.eq (.create k)) ∧
      (it.key, if isInit it.tag then it.value else none) ∈ (b.step cfg.eq (.create k)).live := by
  obtain ⟨d1, e1, h1⟩ := grow_inv hs hL h hc
  rcases find_cases hs hL h1 k with ⟨e, it, a1, a2, a3, a4, -, a5⟩ | ⟨a1, a2, -, -, a3⟩
  · refine ⟨d1, e, it, ?_, a1, ?_, ?_⟩
    · rw [entryForKey, e1]; simp only [Option.bind_eq_bind, Option.bind_some, a3]; rfl
    · simpa [Ledger.step, HashMap.Spec.step, Spec.keyIn, Spec.valueIn, a4] using h1
    · simpa [Ledger.step, HashMap.Spec.step, a4] using a5
  · obtain ⟨m', e, it, c1, c2, c3, c4, c5⟩ := a3 (hlen a2)
    refine ⟨{ d1 with m := m' }, e, it, ?_, c2, ?_, ?_⟩
    · rw [entryForKey, e1]; simp only [Option.bind_eq_bind, Option.bind_some, c1]; rfl
    · have := inv_create h1 (hlen a2) c5
      simpa [Ledger.step, HashMap.Spec.step, Spec.keyIn, Spec.valueIn, a2] using this
    · simp [Ledger.step, HashMap.Spec.step, a2, c3, c4]

theorem create_set {eq : K → K → Bool} (b : Ledger K V) {k : K} (hr : eq k k = true) (v : V) :
    (⟨update eq (b.step eq (.create k)).live k (some v), (b.step eq (.create k)).keys, (b.step eq (.create k)).values ++ [v]⟩ : Ledger K V) = b.step eq (.createSet k v) := by
  cases hh : has eq b.live k
  · simp [Ledger.step, HashMap.Spec.step, Spec.keyIn, Spec.valueIn, hh, update_append hr hh]
  · simp [Ledger.step, HashMap.Spec.step, Spec.keyIn, Spec.valueIn, hh]

theorem room_of {L : Nat} {eq : K → K → Bool} {b : Ledger K V} {op : Op K V} {k : K} (ho : op = .create k ∨ ∃ v, op = .set k v ∨ op = .createSet k v) (h : (b.step eq op).live.length ≤ L)
    (hh : has eq b.live k = false) : b.live.length + 1 ≤ L := by
  rcases ho with rfl | ⟨v, rfl | rfl⟩ <;> simpa [Ledger.step, HashMap.Spec.step, hh] using h

theorem exec_inv {full : Nat → Nat → Bool} {L : Nat} {cfg : Cfg K} (hs : Consistent cfg.eq cfg.hash) (hL : L ≤ 2 ^ 34) {kd vd : Bool} {d : Dict K V} {b : Ledger K V}
    (h : Inv L cfg kd vd d b) (op : Op K V) (ha : Allowed full L d b op) : ∃ d', exec full d op = some d' ∧ Inv L cfg kd vd d' (b.step cfg.eq op) := by
  have hroom := ha.room
  rw [h.eq] at hroom
  cases op with
  | create k =>
    obtain ⟨d', e, it, e1, -, h1, -⟩ := inv_entryForKey hs hL h (ha.calm rfl) k (room_of (.inl rfl) hroom)
    exact ⟨d', by simp [exec, e1], h1⟩
  | createSet k v =>
    obtain ⟨d', e, it, e1, a1, h1, hm⟩ := inv_entryForKey hs hL h (ha.calm rfl) k (room_of (.inr ⟨v, .inr rfl⟩) hroom)
    obtain ⟨d2, e2, h2⟩ := inv_set hs hL h1 a1 hm v
    rw [create_set b (hs.refl k)] at h2
    exact ⟨d2, by simp only [exec, e1, Option.bind_eq_bind, Option.bind_some, e2], h2⟩
  | set k v =>
    have hstep : b.step cfg.eq (.set k v) = b.step cfg.eq (.createSet k v) := rfl
    cases hvd : d.vd
    · obtain ⟨d1, e1, h1⟩ := grow_inv hs hL h (ha.calm rfl)
      have s := setting hs hL h1
      have hroom' : (HashMap.Spec.step d1.cfg.eq b.live (.set k v)).length ≤ L := by rw [h1.eq]; exact hroom
      obtain ⟨m', f1, g1, -⟩ := HashMap.step_good s h1.good (.set k v) hroom'
      have f1' : HashMap.setValue d1.cfg d1.m k (some v) = some m' := f1
      refine ⟨{ d1 with m := m' }, ?_, h1.eq, h1.hash, h1.pos, h1.small, h1.isKd, h1.isVd, ?_, hroom, ?_, ?_, h1.nokeys, h1.novalues⟩
      · simp only [exec, setValue, hvd, Bool.false_eq_true, if_false, e1, Option.bind_eq_bind, Option.bind_some, f1']; rfl
      · rw [h1.eq] at g1; exact g1
      · intro hk
        have base := h1.keys hk
        cases hh : has cfg.eq b.live k
        · simp only [Ledger.step, HashMap.Spec.step, Spec.keyIn, hh, Bool.false_eq_true, if_false, List.map_append, List.map_cons, List.map_nil, List.append_assoc]
          refine (base.append_right _).trans ?_
          simp only [List.append_assoc]
          exact List.Perm.append_left _ List.perm_append_comm
        · simp only [Ledger.step, HashMap.Spec.step, Spec.keyIn, hh, if_true, update, List.map_map, List.append_nil]
          rw [show b.live.map ((fun x => x.1) ∘ fun p => if cfg.eq k p.1 = true then (p.1, some v) else p) = b.live.map (·.1) from by
            apply List.map_congr_left; intro p _; simp only [Function.comp]; split <;> rfl]
          exact base
      · intro hv; rw [← h.isVd, hvd] at hv; cases hv
    · obtain ⟨d', e, it, e1, a1, h1, hm⟩ := inv_entryForKey hs hL h (ha.calm rfl) k (room_of (.inr ⟨v, .inl rfl⟩) hroom)
      obtain ⟨d2, e2, h2⟩ := inv_set hs hL h1 a1 hm v
      rw [create_set b (hs.refl k)] at h2
      exact ⟨d2, by simp only [exec, setValue, hvd, if_true, e1, Option.bind_eq_bind, Option.bind_some, if_neg a1.nz, e2], h2⟩
  | setEntry k v =>
    rcases find_cases hs hL h k with ⟨e, it, a1, a2, a3, a4, -, a5⟩ | ⟨a1, a2, -, -, a3⟩
    · obtain ⟨d2, e2, h2⟩ := inv_set hs hL h a1 a5 v
      refine ⟨d2, by simp only [exec, a2, Option.bind_eq_bind, Option.bind_some, e2], ?_⟩
      simpa [Ledger.step, HashMap.Spec.step, Spec.keyIn, Spec.valueIn, a4] using h2
    · refine ⟨d, by simp only [exec, a1, Option.bind_eq_bind, Option.bind_some]; rfl, ?_⟩
      simpa [Ledger.step, HashMap.Spec.step, Spec.keyIn, Spec.valueIn, a2] using h
  | remove k =>
    have hrm : b.step cfg.eq (.remove k) = ⟨erase cfg.eq b.live k, b.keys, b.values⟩ := by simp [Ledger.step, HashMap.Spec.step, Spec.keyIn, Spec.valueIn]
    rw [hrm]
    rcases find_cases hs hL h k with ⟨e, it, a1, a2, a3, a4, a6, a5⟩ | ⟨a1, a2, a4, a5, -⟩
    · obtain ⟨d2, e2, h2⟩ := inv_remove hs hL h a1 a5
      refine ⟨d2, ?_, h2⟩
      rw [exec, removeValue]
      split
      · next hn =>
        rw [Bool.and_eq_true] at hn
        have k1 : d.kd = false := by simpa using hn.1
        have k2 : d.vd = false := by simpa using hn.2
        rw [removeEntry, if_neg a1.nz, destroyKey_at a1] at e2
        have a1' : At { d with klog := d.klog ++ if d.kd then [it.key] else [] } k e it := ⟨a1.nz, a1.place, a1.live, a1.key⟩
        simp only [Option.bind_eq_bind, Option.bind_some, destroyValue_at a1', HashMap.removeEntry] at e2
        simp only [a6]
        rw [← e2]
        simp [k1, k2]
      · simp only [a2, Option.bind_eq_bind, Option.bind_some, e2]
    · rw [a4]
      refine ⟨d, ?_, h⟩
      rw [exec, removeValue]
      split
      · simp only [a5, Option.bind_eq_bind, Option.bind_some]; rfl
      · simp only [a1, Option.bind_eq_bind, Option.bind_some]; rfl
  | removeEntry k =>
    have hrm : b.step cfg.eq (.removeEntry k) = ⟨erase cfg.eq b.live k, b.keys, b.values⟩ := by simp [Ledger.step, HashMap.Spec.step, Spec.keyIn, Spec.valueIn]
    rw [hrm]
    rcases find_cases hs hL h k with ⟨e, it, a1, a2, a3, a4, -, a5⟩ | ⟨a1, a2, a4, -⟩
    · obtain ⟨d2, e2, h2⟩ := inv_remove hs hL h a1 a5
      exact ⟨d2, by simp only [exec, a2, Option.bind_eq_bind, Option.bind_some, e2], h2⟩
    · rw [a4]
      exact ⟨d, by simp only [exec, a1, Option.bind_eq_bind, Option.bind_some]; rfl, h⟩

theorem reach_inv {full : Nat → Nat → Bool} {L : Nat} {cfg : Cfg K} (hs : Consistent cfg.eq cfg.hash) (hL : L ≤ 2 ^ 34) (hc : 1 ≤ cfg.c) (hm : cfg.c ≤ maxBuckets) {kd vd : Bool}
    {d : Dict K V} {b : Ledger K V} (h : Reach full L cfg kd vd d b) : Inv L cfg kd vd d b := by
  induction h with
  | start => exact ⟨rfl, rfl, hc, hm, rfl, rfl, HashMap.good_create cfg L, Nat.zero_le _, fun _ => List.Perm.refl _, fun _ => List.Perm.refl _, fun _ => rfl, fun _ => rfl⟩
  | call _ ha he ih =>
    obtain ⟨d', e1, h1⟩ := exec_inv hs hL ih _ ha
    rw [he] at e1; cases e1; exact h1

/-! ### destruction -/

theorem destroy_loop {L : Nat} (c : List (HashMap.Place K V)) : ∀ (d : Dict K V) (s : Setting d.cfg L) (h : HashMap.WF d.cfg d.m L) (a : List (HashMap.Place K V)) (e : U64) (fuel : Nat),
    HashMap.places 0 (rows d.cfg d.m) = a ++ c → HashMap.EntryOf d.cfg c.head? e → c.length < fuel →
    destroyLoop d fuel e = some { d with klog := d.klog ++ (if d.kd then c.map fun p => p.2.2.key else []),
                                         vlog := d.vlog ++ (if d.vd then (c.filter fun p => isInit p.2.2.tag).map fun p => p.2.2.value else []) } := by
  induction c with
  | nil =>
    intro d s h a e fuel hsp he hf
    cases he
    obtain ⟨fuel, rfl⟩ : ∃ f, fuel = f + 1 := ⟨fuel - 1, by simp at hf; omega⟩
    have : HashMap.getKey d.cfg d.m 0 = some none := by rw [HashMap.getKey, HashMap.toIndex_zero]; rfl
    rw [destroyLoop, this]
    simp
  | cons p c ih =>
    intro d s h a e fuel hsp he hf
    obtain ⟨fuel, rfl⟩ : ∃ f, fuel = f + 1 := ⟨fuel - 1, by omega⟩
    have hpm : p ∈ HashMap.places 0 (rows d.cfg d.m) := by rw [hsp]; simp
    obtain ⟨k1, -⟩ := HashMap.handle_key hpm he
    obtain ⟨⟨e', n1, n2⟩, -⟩ := HashMap.next_entry s h hsp he
    obtain ⟨pa, pl⟩ := HashMap.places_at hpm
    have hat : At (if d.kd then { d with klog := d.klog ++ [p.2.2.key] } else d) p.2.2.key e p.2.2 := by
      split
      · exact ⟨he.2.1, ⟨p.1, p.2.1, pa, he.2.2⟩, pl, s.cons.refl _⟩
      · exact ⟨he.2.1, ⟨p.1, p.2.1, pa, he.2.2⟩, pl, s.cons.refl _⟩
    rw [destroyLoop, k1]
    simp only [Option.bind_eq_bind, Option.bind_some, destroyValue_at hat]
    simp only [apply_ite Dict.cfg, apply_ite Dict.m, ite_self, n1, Option.bind_some]
    have := ih { d with klog := d.klog ++ (if d.kd then [p.2.2.key] else []), vlog := d.vlog ++ if d.vd && isInit p.2.2.tag then [p.2.2.value] else [] } s h (a ++ [p]) e' fuel
      (by rw [hsp]; simp) n2 (by simp at hf; omega)
    refine Eq.trans (congrArg (fun z => destroyLoop z fuel e') ?_) (this.trans ?_)
    · cases d with | mk cf m kd vd kl vl => cases kd <;> cases vd <;> simp
    · cases d with | mk cf m kd vd kl vl => cases kd <;> cases vd <;> cases hi : isInit p.2.2.tag <;> simp [hi]

theorem destroy_eq {L : Nat} {d : Dict K V} (s : Setting d.cfg L) {l : List (K × Option V)} (g : Good d.cfg L d.m l) :
    ∃ d', destroy d = some d' ∧
      (d.kd = true → ∃ ks : List K, d'.klog = d.klog ++ ks ∧ ks.Perm (l.map (·.1))) ∧
      (d.vd = true → ∃ vs : List (Option V), d'.vlog = d.vlog ++ vs ∧ vs.Perm ((l.filterMap (·.2)).map some)) ∧
      (d.kd = false → d'.klog = d.klog) ∧ (d.vd = false → d'.vlog = d.vlog) := by
  obtain ⟨e0, h1, h2⟩ := HashMap.head_entry s g.wf
  have hplen : (HashMap.places 0 (rows d.cfg d.m)).length = d.m.count := by rw [g.wf.count, HashMap.contents_places, List.length_map]
  have hl := destroy_loop (HashMap.places 0 (rows d.cfg d.m)) d s g.wf [] e0 (d.m.count + 1) rfl h2 (by omega)
  have hcm : contents (rows d.cfg d.m) = _ := HashMap.contents_places (rows d.cfg d.m)
  have hkeys : ((HashMap.places 0 (rows d.cfg d.m)).map fun p => p.2.2.key).Perm (l.map (·.1)) := by
    refine List.Perm.trans ?_ (g.perm.map _)
    rw [hcm, List.map_map]; exact List.Perm.refl _
  have hvals : (((HashMap.places 0 (rows d.cfg d.m)).filter fun p => isInit p.2.2.tag).map fun p => p.2.2.value).Perm ((l.filterMap (·.2)).map some) := by
    refine List.Perm.trans ?_ ((g.perm.filterMap _).map _)
    rw [hcm]
    apply List.Perm.of_eq
    have hin : ∀ p ∈ HashMap.places 0 (rows d.cfg d.m), isInit p.2.2.tag = true → p.2.2.value.isSome = true := fun p hp hi =>
      g.init _ _ _ (HashMap.places_at hp).1 (HashMap.places_at hp).2 hi
    clear hl hkeys hcm hplen h2
    generalize HashMap.places 0 (rows d.cfg d.m) = c at hin
    induction c with
    | nil => rfl
    | cons p c ih =>
      have ih := ih (fun q hq => hin q (by simp [hq]))
      cases hi : isInit p.2.2.tag
      · simp only [List.filter_cons, hi, Bool.false_eq_true, if_false, List.map_cons, List.filterMap_cons]; exact ih
      · obtain ⟨w, hw⟩ := Option.isSome_iff_exists.1 (hin p (by simp) hi)
        simp only [List.filter_cons, hi, if_true, List.map_cons, List.filterMap_cons, hw]
        rw [ih]
  unfold destroy
  split
  · simp only [h1, Option.bind_eq_bind, Option.bind_some, hl]
    refine ⟨_, rfl, ?_, ?_, ?_, ?_⟩
    · intro hk; exact ⟨_, by simp only [hk, if_true], hkeys⟩
    · intro hv; exact ⟨_, by simp only [hv, if_true], hvals⟩
    · intro hk; simp [hk]
    · intro hv; simp [hv]
  · next hn =>
    simp only [Bool.or_eq_true, not_or, Bool.not_eq_true] at hn
    exact ⟨d, rfl, fun hk => absurd hk (by simp [hn.1]), fun hv => absurd hv (by simp [hn.2]), fun _ => rfl, fun _ => rfl⟩

/-- **C41, dictionary (partial).** Whatever the growth test, after any sequence of allowed calls from a new dictionary, with or without key and value destructors:

* the dictionary answers as the finite map of the ledger, and no allowed call is undefined behaviour;
* with a key destructor, the keys ever stored are, occurrence by occurrence, the keys stored now and the keys destroyed so far; the same with a value destructor for the values;
* without a destructor nothing is destroyed;
* destroying the dictionary then leaves every key and every value ever stored destroyed exactly once.

Missing: growing while some key still waits for its first value (`Allowed.calm`), see `C41_dictionary_refuted` and `C41_dictionary_double_refuted`; allocation failure. -/
theorem C41_dictionary_partial (full : Nat → Nat → Bool) (L : Nat) (cfg : Cfg K) (hs : Consistent cfg.eq cfg.hash) (hL : L ≤ 2 ^ 34) (hc : 1 ≤ cfg.c) (hm : cfg.c ≤ maxBuckets)
    (kd vd : Bool) (d : Dict K V) (b : Ledger K V) (h : Reach full L cfg kd vd d b) :
    Agrees d.cfg d.m b.live ∧
    (∀ op, Allowed full L d b op → ∃ d', exec full d op = some d') ∧
    (kd = true → b.keys.Perm (b.live.map (·.1) ++ d.klog)) ∧ (vd = true → (b.values.map some).Perm ((b.live.filterMap (·.2)).map some ++ d.vlog)) ∧
    (kd = false → d.klog = []) ∧ (vd = false → d.vlog = []) ∧
    ∃ d', destroy d = some d' ∧ (kd = true → d'.klog.Perm b.keys) ∧ (vd = true → d'.vlog.Perm (b.values.map some)) ∧
      (kd = false → d'.klog = []) ∧ (vd = false → d'.vlog = []) := by
  have i := reach_inv hs hL hc hm h
  have s := setting hs hL i
  obtain ⟨d', e, a1, a2, a3, a4⟩ := destroy_eq s i.good
  refine ⟨HashMap.agrees s i.good.wf i.good.init i.good.perm, fun op ha => (exec_inv hs hL i op ha).imp fun _ h => h.1, i.keys, i.values, i.nokeys, i.novalues, d', e, ?_, ?_, ?_, ?_⟩
  · intro hk
    obtain ⟨ks, k1, k2⟩ := a1 (i.isKd.trans hk)
    rw [k1]
    exact (List.perm_append_comm.trans (k2.append_right _)).trans (i.keys hk).symm
  · intro hv
    obtain ⟨ks, k1, k2⟩ := a2 (i.isVd.trans hv)
    rw [k1]
    exact (List.perm_append_comm.trans (k2.append_right _)).trans (i.values hv).symm
  · intro hk; rw [a3 (i.isKd.trans hk), i.nokeys hk]
  · intro hv; rw [a4 (i.isVd.trans hv), i.novalues hv]

/-! ### growth while a key has no value -/

/-- The growth test for three buckets: three quarters of 3 is 2.25. -/
def exFull (n c : Nat) : Bool := decide (3 * c ≤ 4 * n)
def exCfg : Cfg Nat := ⟨fun k => BitVec.ofNat 64 k, fun a b => a == b, 3⟩

/-- Runs calls. -/
def runCalls (d : Dict Nat String) : List (Op Nat String) → Option (Dict Nat String)
  | [] => some d
  | op :: ops => do runCalls (← exec exFull d op) ops

/-- Three keys are created and never given a value; the fourth call makes the dictionary grow; destroying it calls the value destructor three times, on bytes nobody ever stored. -/
theorem C41_dictionary_refuted : ∃ d d', runCalls (create exCfg false true) [.create 1, .create 2, .create 3, .create 4] = some d ∧ d.vlog = [] ∧
    destroy d = some d' ∧ d'.vlog = [none, none, none] := by
  refine ⟨_, _, rfl, rfl, rfl, rfl⟩

/-- A value is stored and removed, hence destroyed; its slot is taken by a key that gets no value; the dictionary grows; destroying it destroys that value a second time although it was stored once. -/
theorem C41_dictionary_double_refuted : ∃ d d', runCalls (create exCfg false true) [.set 1 "a", .remove 1, .create 4, .set 2 "b", .set 3 "c", .set 5 "d"] = some d ∧ d.vlog = [some "a"] ∧
    destroy d = some d' ∧ d'.vlog.count (some "a") = 2 := by
  refine ⟨_, _, rfl, rfl, rfl, rfl⟩

/-- Non-vacuity: a history in which the dictionary grows, a value is replaced and a key removed. -/
example : ∃ d b, Reach exFull 10 exCfg true true d b ∧ d.cfg.c = 6 ∧ d.klog = [2] ∧ d.vlog = [some "a", some "b"] ∧ b.live.length = 3 := by
  have h0 : Reach exFull 10 exCfg true true (create exCfg true true : Dict Nat String) Ledger.empty := .start
  have h1 := h0.call (op := .set 1 "a") ⟨by decide, by decide⟩ rfl
  have h2 := h1.call (op := .set 1 "A") ⟨by decide, by decide⟩ rfl
  have h3 := h2.call (op := .createSet 2 "b") ⟨by decide, by decide⟩ rfl
  have h4 := h3.call (op := .set 4 "c") ⟨by decide, by decide⟩ rfl
  have h5 := h4.call (op := .set 7 "d") ⟨by decide, by decide⟩ rfl
  have h6 := h5.call (op := .remove 2) ⟨by decide, by decide⟩ rfl
  exact ⟨_, _, h6, rfl, rfl, rfl, rfl⟩

#print axioms C41_dictionary_partial
#print axioms C41_dictionary_refuted
#print axioms C41_dictionary_double_refuted
end Verif.Dictionary
