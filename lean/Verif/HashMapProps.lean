import Verif.HashMapOps
/-!
# C07 and C09: the hash map is a finite map, and handles stay valid
-/
namespace Verif.HashMap
open Verif.BitTricks (U64)
variable {K V : Type}

/-- The calls a client makes for each edit. -/
def step (cfg : Cfg K) (m : Map K V) : Spec.Op K V → Option (Map K V)
  | .set k v => setValue cfg m k (some v)
  | .create k => do
    let (m, _, _) ← entryForKey cfg m k
    return m
  | .setEntry k v => do setEntry cfg m (← findKey cfg m k) (some v)
  | .createSet k v => do
    let (m, e, _) ← entryForKey cfg m k
    setEntry cfg m e (some v)
  | .remove k => removeValue cfg m k
  | .removeEntry k => do removeEntry cfg m (← findKey cfg m k)

def run (cfg : Cfg K) (m : Map K V) (ops : List (Spec.Op K V)) : Option (Map K V) := ops.foldlM (step cfg) m

/-- The map's answers are those of the abstract map `l`: the count; an absent key has no value and no entry; a present key has an entry whose key is
an equal key; the entry is initialised exactly when the key was given a value, and then both lookups return that value. -/
structure Agrees (cfg : Cfg K) (m : Map K V) (l : List (K × Option V)) : Prop where
  count : m.count = l.length
  absent : ∀ k, Spec.lookup cfg.eq l k = none → getValue cfg m k = some none ∧ findKey cfg m k = some 0
  present : ∀ k o, Spec.lookup cfg.eq l k = some o → ∃ e k', e ≠ 0 ∧ findKey cfg m k = some e ∧ getKey cfg m e = some (some k') ∧ cfg.eq k k' = true ∧
    entryIsInitialized cfg m e = some o.isSome ∧
    (∀ v, o = some v → getValue cfg m k = some (some (some v)) ∧ getEntry cfg m e = some (some (some v)))

/-- Bound on the number of simultaneously stored keys for which every place has a handle. -/
def Fits (cfg : Cfg K) (L : Nat) : Prop := 1 ≤ cfg.c ∧ cfg.c + 1 < 2 ^ 63 ∧ L * (2 * (cfg.c + 1)) ≤ 2 ^ 64

/-- The edit removes a key equal to `k`. -/
def removes (cfg : Cfg K) (k : K) : Spec.Op K V → Bool
  | .remove k' | .removeEntry k' => cfg.eq k' k
  | _ => false

theorem setting_of_fits {cfg : Cfg K} {L : Nat} (hs : Spec.Consistent cfg.eq cfg.hash) (hf : Fits cfg L) : Setting cfg L := by
  obtain ⟨h1, h2, h3⟩ := hf
  obtain ⟨limit, l1, l2, l3⟩ := handles cfg h2
  refine ⟨hs, h1, fun b i hb hi => l3 b i hb ?_⟩
  have : L ≤ limit := Nat.le_of_mul_le_mul_right (Nat.le_trans h3 l1) (by omega)
  omega

theorem lookup_mem {eq : K → K → Bool} {l : List (K × Option V)} {k : K} {o : Option V} (h : Spec.lookup eq l k = some o) :
    ∃ k', (k', o) ∈ l ∧ eq k k' = true := by
  simp only [Spec.lookup, Option.map_eq_some_iff] at h
  obtain ⟨p, hp, rfl⟩ := h
  exact ⟨p.1, List.mem_of_find?_eq_some hp, by simpa using List.find?_some hp⟩

theorem lookup_none {eq : K → K → Bool} {l : List (K × Option V)} {k : K} : Spec.lookup eq l k = none ↔ ∀ p ∈ l, eq k p.1 = false := by
  simp [Spec.lookup]

theorem lookup_live {cfg : Cfg K} (hs : Spec.Consistent cfg.eq cfg.hash) {l : List (K × Option V)} (hd : l.Pairwise (fun p q => cfg.eq p.1 q.1 = false))
    {k k' : K} {o : Option V} (hm : (k', o) ∈ l) (hk : cfg.eq k k' = true) : Spec.lookup cfg.eq l k = some o := by
  cases h : Spec.lookup cfg.eq l k with
  | none => have := lookup_none.1 h _ hm; simp only at this; rw [hk] at this; cases this
  | some o2 =>
    obtain ⟨k2, m2, e2⟩ := lookup_mem h
    have hkk : cfg.eq k' k2 = true := hs.trans _ _ _ (hs.symm _ _ hk) e2
    obtain ⟨a, b, rfl⟩ := List.append_of_mem hm
    rw [List.pairwise_append, List.pairwise_cons] at hd
    rcases List.mem_append.1 m2 with h1 | h1
    · have := hd.2.2 _ h1 _ List.mem_cons_self
      simp only at this
      rw [hs.symm _ _ hkk] at this; cases this
    · rcases List.mem_cons.1 h1 with h1 | h1
      · cases h1; rfl
      · have := hd.2.1.1 _ h1; simp only at this; rw [hkk] at this; cases this

/-- Initialised items have a value. -/
def InitOK (r : Rows K V) : Prop := ∀ b i it, at' r b i = some it → isEmpty it.tag = false → isInit it.tag = true → it.value.isSome = true

theorem InitOK.edit {r r' : Rows K V} {b i x y} (h : InitOK r) (e : Edit r r' b i x y)
    (hy : isEmpty y.tag = false → isInit y.tag = true → y.value.isSome = true) : InitOK r' := by
  intro b' i' it h1 h2 h3
  by_cases hp : b' = b ∧ i' = i
  · obtain ⟨rfl, rfl⟩ := hp
    rw [e.at_self.1] at h1; cases h1; exact hy h2 h3
  · rw [e.at_other hp] at h1; exact h _ _ _ h1 h2 h3

theorem agrees {cfg : Cfg K} {L : Nat} (s : Setting cfg L) {m : Map K V} (h : WF cfg m L) (hI : InitOK (rows cfg m))
    {l : List (K × Option V)} (hl : (contents (rows cfg m)).Perm l) : Agrees cfg m l := by
  have hd := pairwise_perm s.cons hl h.distinct
  refine ⟨by rw [h.count, hl.length_eq], ?_, ?_⟩
  · intro k hk
    rcases find_effect s h k with ⟨b, i, it, e, h1, h2, h3, -⟩ | ⟨-, h1, h2, -⟩
    · have := lookup_none.1 hk _ (hl.subset (mem_contents.2 ⟨b, i, it, h1, toPair_live h2⟩))
      simp only at this; rw [h3] at this; cases this
    · exact ⟨h2, h1⟩
  · intro k o ho
    rcases find_effect s h k with ⟨b, i, it, e, h1, h2, h3, h4, h5, h6, h7, -, h9, -⟩ | ⟨hn, -⟩
    · have hlk := lookup_live s.cons hd (hl.subset (mem_contents.2 ⟨b, i, it, h1, toPair_live h2⟩)) h3
      rw [ho] at hlk
      have hi := itemAt_eq cfg m b i
      rw [h1] at hi
      refine ⟨e, it.key, h5, h7, by simp [getKey, h6, hi, h2], h3, ?_, ?_⟩
      · cases hinit : isInit it.tag
        · rw [hinit] at hlk; cases hlk; simp [entryIsInitialized, h6, hi, h2, hinit]
        · rw [hinit] at hlk
          cases hv : it.value with
          | none => rw [hv] at hlk; have := hI _ _ _ h1 h2 hinit; rw [hv] at this; cases this
          | some v => rw [hv] at hlk; cases hlk; simp [entryIsInitialized, h6, hi, h2, hinit]
      · rintro v rfl
        cases hinit : isInit it.tag
        · rw [hinit] at hlk; cases hlk
        · rw [hinit] at hlk
          have hv : it.value = some v := by simpa using hlk.symm
          rw [hv] at h9
          exact ⟨h9, by simp [getEntry, h6, hi, h2, hv]⟩
    · obtain ⟨k', hm, hk⟩ := lookup_mem ho
      have := hn _ (hl.symm.subset hm)
      simp only at this; rw [hk] at this; cases this

/-- Live places are kept, with their key. -/
def Keeps (cfg : Cfg K) (m m' : Map K V) (k : K) : Prop :=
  ∀ b i it, at' (rows cfg m) b i = some it → isEmpty it.tag = false → cfg.eq it.key k = true →
    ∃ it', at' (rows cfg m') b i = some it' ∧ isEmpty it'.tag = false ∧ it'.key = it.key

theorem Keeps.refl (cfg : Cfg K) (m : Map K V) (k : K) : Keeps cfg m m k := fun _ _ it h1 h2 _ => ⟨it, h1, h2, rfl⟩

theorem Updated.keeps {cfg : Cfg K} {m m' : Map K V} {k : K} {w : Option V} {b i : Nat} (u : Updated cfg m m' k w b i) (k' : K) : Keeps cfg m m' k' := by
  obtain ⟨it, h1, h2, h3, h4, h5⟩ := u
  intro b' i' it' g1 g2 _
  by_cases hp : b' = b ∧ i' = i
  · obtain ⟨rfl, rfl⟩ := hp
    rw [h1] at g1; cases g1
    exact ⟨_, h4.at_self.1, by simpa only [or_init_empty] using h2, rfl⟩
  · exact ⟨it', by rw [h4.at_other hp]; exact g1, g2, rfl⟩

theorem Added.keeps {cfg : Cfg K} {m m' : Map K V} {k : K} {v : Option (Option V)} {b i : Nat} (u : Added cfg m m' k v b i) (k' : K) : Keeps cfg m m' k' := by
  obtain ⟨h1, x, old, h2, h3, h4, h5⟩ := u
  intro b' i' it' g1 g2 _
  by_cases hp : b' = b ∧ i' = i
  · obtain ⟨rfl, rfl⟩ := hp
    have := h3.at_self.2
    rw [g1] at this
    rcases h4 with ⟨x0, rfl, hx0⟩ | ⟨rfl, -⟩
    · cases this; rw [g2] at hx0; cases hx0
    · cases this
  · exact ⟨it', by rw [h3.at_other hp]; exact g1, g2, rfl⟩

theorem Removed.keeps {cfg : Cfg K} (hs : Spec.Consistent cfg.eq cfg.hash) {m m' : Map K V} {k : K} {b i : Nat} (u : Removed cfg m m' k b i) (k' : K)
    (hne : cfg.eq k k' = false) : Keeps cfg m m' k' := by
  obtain ⟨it, h1, h2, h3, h4, h5⟩ := u
  intro b' i' it' g1 g2 g3
  by_cases hp : b' = b ∧ i' = i
  · obtain ⟨rfl, rfl⟩ := hp
    rw [h1] at g1; cases g1
    rw [hs.trans _ _ _ h3 g3] at hne; cases hne
  · exact ⟨it', by rw [h4.at_other hp]; exact g1, g2, rfl⟩

/-- One client step. -/
structure Good (cfg : Cfg K) (L : Nat) (m : Map K V) (l : List (K × Option V)) : Prop where
  wf : WF cfg m L
  init : InitOK (rows cfg m)
  perm : (contents (rows cfg m)).Perm l

theorem good_updated {cfg : Cfg K} {L : Nat} (s : Setting cfg L) {m m' : Map K V} {l : List (K × Option V)} (g : Good cfg L m l) {k : K} {v : V} {b i : Nat}
    (u : Updated cfg m m' k (some v) b i) : Good cfg L m' (Spec.update cfg.eq l k (some v)) ∧ Spec.has cfg.eq l k = true := by
  obtain ⟨p1, p2⟩ := u.contents s g.wf g.perm
  refine ⟨⟨u.wf s g.wf, ?_, p1⟩, p2⟩
  obtain ⟨it, h1, h2, h3, h4, h5⟩ := u
  exact g.init.edit h4 (fun _ _ => rfl)

theorem good_added {cfg : Cfg K} {L : Nat} (s : Setting cfg L) {m m' : Map K V} {l : List (K × Option V)} (g : Good cfg L m l) {k : K} {v : Option (Option V)} {b i : Nat}
    (hv : v ≠ some none) (hL : l.length + 1 ≤ L) (u : Added cfg m m' k v b i) : Good cfg L m' (l ++ [(k, v.getD none)]) ∧ Spec.has cfg.eq l k = false := by
  obtain ⟨p1, p2⟩ := u.contents g.perm
  refine ⟨⟨u.wf s g.wf (by rw [g.perm.length_eq]; exact hL), ?_, p1⟩, p2⟩
  obtain ⟨h1, x, old, h2, h3, h4, h5⟩ := u
  refine g.init.edit h3 (fun _ hi => ?_)
  cases v with
  | none => simp only [newItem] at hi; rw [show (if (none : Option (Option V)).isSome = true then mh cfg k ||| initBit else mh cfg k) = mh cfg k from rfl, isInit_mh] at hi; cases hi
  | some v => cases v with
    | none => exact absurd rfl hv
    | some v => rfl

theorem good_removed {cfg : Cfg K} {L : Nat} (s : Setting cfg L) {m m' : Map K V} {l : List (K × Option V)} (g : Good cfg L m l) {k : K} {b i : Nat}
    (u : Removed cfg m m' k b i) : Good cfg L m' (Spec.erase cfg.eq l k) := by
  refine ⟨u.wf s g.wf, ?_, u.contents s g.wf g.perm⟩
  obtain ⟨it, h1, h2, h3, h4, h5⟩ := u
  exact g.init.edit h4 (fun he => by rw [isEmpty_removed] at he; cases he)

theorem update_append {eq : K → K → Bool} {l : List (K × Option V)} {k : K} (hr : eq k k = true) (h : Spec.has eq l k = false) (o w : Option V) :
    Spec.update eq (l ++ [(k, o)]) k w = l ++ [(k, w)] := by
  rw [Spec.has, List.any_eq_false] at h
  rw [Spec.update, List.map_append]
  congr 1
  · conv => rhs; rw [← List.map_id l]
    apply List.map_congr_left
    intro p hp
    have := h p hp
    simp [this]
  · simp [hr]

theorem setEntry_zero (cfg : Cfg K) (m : Map K V) (w : Option V) : setEntry cfg m 0 w = some m := by
  rw [setEntry, toIndex_zero]; rfl
theorem removeEntry_zero (cfg : Cfg K) (m : Map K V) : removeEntry cfg m 0 = some m := by
  rw [removeEntry, removeAt, toIndex_zero]; rfl

theorem has_live {cfg : Cfg K} {m : Map K V} {l : List (K × Option V)} (hl : (contents (rows cfg m)).Perm l) {k : K} {b i : Nat} {it : Item K V}
    (h1 : at' (rows cfg m) b i = some it) (h2 : isEmpty it.tag = false) (h3 : cfg.eq k it.key = true) : Spec.has cfg.eq l k = true := by
  rw [Spec.has, List.any_eq_true]
  exact ⟨_, hl.subset (mem_contents.2 ⟨b, i, it, h1, toPair_live h2⟩), h3⟩

/-- `EntryForKey` for a new key. -/
theorem create_new {cfg : Cfg K} {L : Nat} (s : Setting cfg L) {m m' : Map K V} {l : List (K × Option V)} (g : Good cfg L m l) {k : K} {b i : Nat}
    (hL : l.length + 1 ≤ L) (u : Added cfg m m' k none b i)
    (he : (∃ e, toEntry cfg b i = some e ∧ e ≠ 0 ∧ toIndex cfg e = some (some (b, i))) → ∃ e, toEntry cfg b i = some e ∧ e ≠ 0 ∧
        toIndex cfg e = some (some (b, i)) ∧ entryForKey cfg m k = some (m', e, true)) :
    ∃ e it, e ≠ 0 ∧ toIndex cfg e = some (some (b, i)) ∧ entryForKey cfg m k = some (m', e, true) ∧ at' (rows cfg m') b i = some it ∧
      isEmpty it.tag = false ∧ it.key = k := by
  have g' := (good_added s g (by simp) hL u).1
  obtain ⟨h1, x, old, h2, h3, h4, h5⟩ := u
  have ha := h3.at_self.1
  obtain ⟨hb, hi⟩ := at_bounds g'.wf ha
  obtain ⟨e, e1, e2, e3, e4⟩ := he (s.enc b i hb hi)
  refine ⟨e, _, e2, e3, e4, ha, ?_, rfl⟩
  have := Added.pair (cfg := cfg) (k := k) (v := (none : Option (Option V))) (old := old)
  simp only [toPair] at this
  split at this
  · cases this
  · next hne => simpa using hne

theorem step_good {cfg : Cfg K} {L : Nat} (s : Setting cfg L) {m : Map K V} {l : List (K × Option V)} (g : Good cfg L m l) (op : Spec.Op K V)
    (hL : (Spec.step cfg.eq l op).length ≤ L) :
    ∃ m', step cfg m op = some m' ∧ Good cfg L m' (Spec.step cfg.eq l op) ∧ ∀ k, removes cfg k op = false → Keeps cfg m m' k := by
  cases op with
  | set k v =>
    obtain ⟨m', b, i, e, u⟩ := setValue_effect s g.wf k (some v)
    refine ⟨m', e, ?_⟩
    rcases u with u | u
    · obtain ⟨g', hh⟩ := good_updated s g u
      simp only [Spec.step, hh, if_true]
      exact ⟨g', fun k' _ => u.keeps k'⟩
    · have hh := (u.contents g.perm).2
      simp only [Spec.step, hh, Bool.false_eq_true, if_false, List.length_append, List.length_singleton] at hL ⊢
      exact ⟨(good_added s g (by simp) hL u).1, fun k' _ => u.keeps k'⟩
  | create k =>
    rcases find_effect s g.wf k with ⟨b, i, it, e, h1, h2, h3, h4, h5, h6, h7, h8, h9, h10⟩ | ⟨hn, h1, h2, h3, m', b, i, u, he⟩
    · have hh := has_live g.perm h1 h2 h3
      refine ⟨m, by simp [step, h8], ?_⟩
      simp only [Spec.step, hh, if_true]
      exact ⟨g, fun k' _ => Keeps.refl cfg m k'⟩
    · have hh := not_has hn g.perm
      simp only [Spec.step, hh, Bool.false_eq_true, if_false, List.length_append, List.length_singleton] at hL ⊢
      obtain ⟨e, it, -, -, e3, -⟩ := create_new s g hL u he
      exact ⟨m', by simp [step, e3], (good_added s g (by simp) hL u).1, fun k' _ => u.keeps k'⟩
  | setEntry k v =>
    rcases find_effect s g.wf k with ⟨b, i, it, e, h1, h2, h3, h4, h5, h6, h7, h8, h9, h10⟩ | ⟨hn, h1, h2, h3, -⟩
    · obtain ⟨m', e1, u⟩ := setEntry_effect h1 h2 h6 k h3 (some v)
      obtain ⟨g', hh⟩ := good_updated s g u
      refine ⟨m', by simp [step, h7, e1], ?_⟩
      simp only [Spec.step, hh, if_true]
      exact ⟨g', fun k' _ => u.keeps k'⟩
    · have hh := not_has hn g.perm
      refine ⟨m, by simp only [step, h1, Option.bind_eq_bind, Option.bind_some, setEntry_zero], ?_⟩
      simp only [Spec.step, hh, Bool.false_eq_true, if_false]
      exact ⟨g, fun k' _ => Keeps.refl cfg m k'⟩
  | createSet k v =>
    rcases find_effect s g.wf k with ⟨b, i, it, e, h1, h2, h3, h4, h5, h6, h7, h8, h9, h10⟩ | ⟨hn, h1, h2, h3, m', b, i, u, he⟩
    · obtain ⟨m', e1, u⟩ := setEntry_effect h1 h2 h6 k h3 (some v)
      obtain ⟨g', hh⟩ := good_updated s g u
      refine ⟨m', by simp [step, h8, e1], ?_⟩
      simp only [Spec.step, hh, if_true]
      exact ⟨g', fun k' _ => u.keeps k'⟩
    · have hh := not_has hn g.perm
      simp only [Spec.step, hh, Bool.false_eq_true, if_false, List.length_append, List.length_singleton] at hL ⊢
      obtain ⟨e, it, e1, e2, e3, e4, e5, e6⟩ := create_new s g hL u he
      have g1 := (good_added s g (by simp) hL u).1
      obtain ⟨m2, f1, u2⟩ := setEntry_effect e4 e5 e2 k (by rw [e6]; exact s.cons.refl k) (some v)
      obtain ⟨g2, -⟩ := good_updated s g1 u2
      rw [update_append (s.cons.refl k) hh] at g2
      refine ⟨m2, by simp [step, e3, f1], g2, fun k' _ => ?_⟩
      intro b' i' it' q1 q2 q3
      obtain ⟨it2, r1, r2, r3⟩ := u.keeps k' b' i' it' q1 q2 q3
      obtain ⟨it3, t1, t2, t3⟩ := u2.keeps k' b' i' it2 r1 r2 (by rw [r3]; exact q3)
      exact ⟨it3, t1, t2, t3.trans r3⟩
  | remove k =>
    rcases find_effect s g.wf k with ⟨b, i, it, e, h1, h2, h3, h4, h5, h6, h7, h8, h9, h10⟩ | ⟨hn, h1, h2, h3, -⟩
    · obtain ⟨m', e1, u⟩ := removeAt_effect h1 h2 h6 k h3
      exact ⟨m', by simp only [step, h10, e1], good_removed s g u, fun k' hk' => u.keeps s.cons k' hk'⟩
    · refine ⟨m, h3, ?_⟩
      simp only [Spec.step, erase_none hn g.perm]
      exact ⟨g, fun k' _ => Keeps.refl cfg m k'⟩
  | removeEntry k =>
    rcases find_effect s g.wf k with ⟨b, i, it, e, h1, h2, h3, h4, h5, h6, h7, h8, h9, h10⟩ | ⟨hn, h1, h2, h3, -⟩
    · obtain ⟨m', e1, u⟩ := removeAt_effect h1 h2 h6 k h3
      exact ⟨m', by simp only [step, h7, Option.bind_eq_bind, Option.bind_some, removeEntry, e1], good_removed s g u, fun k' hk' => u.keeps s.cons k' hk'⟩
    · refine ⟨m, by simp only [step, h1, Option.bind_eq_bind, Option.bind_some, removeEntry_zero], ?_⟩
      simp only [Spec.step, erase_none hn g.perm]
      exact ⟨g, fun k' _ => Keeps.refl cfg m k'⟩

theorem run_good {cfg : Cfg K} {L : Nat} (s : Setting cfg L) (ops : List (Spec.Op K V)) : ∀ {m : Map K V} {l : List (K × Option V)}, Good cfg L m l →
    (∀ n, ((ops.take n).foldl (Spec.step cfg.eq) l).length ≤ L) →
    ∃ m', run cfg m ops = some m' ∧ Good cfg L m' (ops.foldl (Spec.step cfg.eq) l) ∧ ∀ k, (∀ op ∈ ops, removes cfg k op = false) → Keeps cfg m m' k := by
  induction ops with
  | nil => intro m l g _; exact ⟨m, rfl, g, fun k _ => Keeps.refl cfg m k⟩
  | cons op ops ih =>
    intro m l g hL
    obtain ⟨m1, e1, g1, k1⟩ := step_good s g op (by simpa using hL 1)
    obtain ⟨m2, e2, g2, k2⟩ := ih g1 (fun n => by simpa using hL (n + 1))
    refine ⟨m2, by simp only [run, List.foldlM_cons, e1]; exact e2, g2, fun k hk => ?_⟩
    intro b i it q1 q2 q3
    obtain ⟨it2, r1, r2, r3⟩ := k1 k (hk op (by simp)) b i it q1 q2 q3
    obtain ⟨it3, t1, t2, t3⟩ := k2 k (fun o ho => hk o (by simp [ho])) b i it2 r1 r2 (by rw [r3]; exact q3)
    exact ⟨it3, t1, t2, t3.trans r3⟩

theorem good_create (cfg : Cfg K) (L : Nat) : Good cfg L (create : Map K V) [] := by
  refine ⟨wf_create cfg L, ?_, by rw [contents_create]⟩
  intro b i it h1 h2 h3
  have := mem_contents.2 ⟨b, i, it, h1, toPair_live h2⟩
  rw [contents_create] at this; cases this

/-- **C07.** For every consistent hash and comparison, every bucket count and every history of edits in which at most `L` keys are stored at any time (where
all of the first `L` places of each bucket have handles, see `Fits`), no call misbehaves and the final map answers as the abstract map. -/
theorem C07_finite_map (cfg : Cfg K) (L : Nat) (hs : Spec.Consistent cfg.eq cfg.hash) (hf : Fits cfg L) (ops : List (Spec.Op K V))
    (hL : ∀ n, (Spec.run cfg.eq (ops.take n)).length ≤ L) :
    ∃ m, run cfg create ops = some m ∧ Agrees cfg m (Spec.run cfg.eq ops) := by
  have s := setting_of_fits hs hf
  obtain ⟨m, e, g, -⟩ := run_good s ops (good_create cfg L) hL
  exact ⟨m, e, agrees s g.wf g.init g.perm⟩

/-- **C09.** A handle found for `k` at some moment stays the handle of `k`, and keeps denoting the same stored key and the current value, through any later
edits that do not remove `k`. -/
theorem C09_handles_stay_valid (cfg : Cfg K) (L : Nat) (hs : Spec.Consistent cfg.eq cfg.hash) (hf : Fits cfg L) (before after : List (Spec.Op K V))
    (hL : ∀ n, (Spec.run cfg.eq ((before ++ after).take n)).length ≤ L) (k : K) (m : Map K V) (e : U64) (hm : run cfg create before = some m)
    (he : findKey cfg m k = some e) (hne : e ≠ 0) (hkeep : ∀ op ∈ after, removes cfg k op = false) :
    ∃ m' k', run cfg m after = some m' ∧ findKey cfg m' k = some e ∧ getKey cfg m e = some (some k') ∧ getKey cfg m' e = some (some k') ∧ cfg.eq k k' = true ∧
      ∃ o, Spec.lookup cfg.eq (Spec.run cfg.eq (before ++ after)) k = some o ∧ entryIsInitialized cfg m' e = some o.isSome ∧
        ∀ v, o = some v → getEntry cfg m' e = some (some (some v)) := by
  have s := setting_of_fits hs hf
  obtain ⟨m1, e1, g1, -⟩ := run_good s before (good_create cfg L) (fun n => by
    have := hL (min n before.length)
    rw [List.take_append_of_le_length (by omega)] at this
    rcases Nat.le_total n before.length with h | h
    · rw [Nat.min_eq_left h] at this; exact this
    · rw [Nat.min_eq_right h] at this; rw [List.take_of_length_le h]; simpa [Spec.run] using this)
  rw [hm] at e1; cases e1
  obtain ⟨m', e2, g2, kp⟩ := run_good s after g1 (fun n => by
    have := hL (before.length + n)
    simpa [Spec.run, List.take_append, List.foldl_append, List.take_of_length_le (Nat.le_add_right before.length n)] using this)
  rw [← List.foldl_append] at g2
  rcases find_effect s g1.wf k with ⟨b, i, it, e', h1, h2, h3, h4, h5, h6, h7, -⟩ | ⟨-, h1, -⟩
  · rw [he] at h7; cases h7
    obtain ⟨it', r1, r2, r3⟩ := kp k hkeep b i it h1 h2 (hs.symm _ _ h3)
    have a1 := itemAt_eq cfg m b i
    have a2 := itemAt_eq cfg m' b i
    rw [h1] at a1; rw [r1] at a2
    have hag := agrees s g2.wf g2.init g2.perm
    have hlk : Spec.lookup cfg.eq (Spec.run cfg.eq (before ++ after)) k = some _ :=
      lookup_live hs (pairwise_perm hs g2.perm g2.wf.distinct) (g2.perm.subset (mem_contents.2 ⟨b, i, it', r1, toPair_live r2⟩)) (by rw [r3]; exact h3)
    obtain ⟨e3, k3, q1, q2, q3, q4, q5, q6⟩ := hag.present k _ hlk
    have : e3 = e := by
      rcases find_effect s g2.wf k with ⟨b', i', it2, e', j1, j2, j3, j4, j5, j6, j7, -⟩ | ⟨hn, -⟩
      · obtain ⟨rfl, rfl⟩ := place_unique hs g2.wf.distinct r1 j1 r2 j2 (hs.trans _ _ _ (by rw [r3]; exact hs.symm _ _ h3) j3)
        rw [h4] at j4; cases j4
        rw [q2] at j7; cases j7; rfl
      · have := hn _ (mem_contents.2 ⟨b, i, it', r1, toPair_live r2⟩)
        simp only at this; rw [r3, h3] at this; cases this
    subst this
    exact ⟨m', it.key, e2, q2, by simp [getKey, h6, a1, h2], by simp [getKey, h6, a2, r2, r3], h3, _, hlk, q5, fun v hv => (q6 v hv).2⟩
  · rw [he] at h1; cases h1; exact absurd rfl hne

/-! Non-vacuity: natural number keys hashed to a single bucket word (all colliding modulo 3), with a removal and a reuse. -/

def exCfg : Cfg Nat := ⟨fun k => BitVec.ofNat 64 (k * 3), fun a b => a == b, 3⟩
def exOps : List (Spec.Op Nat String) := [.set 1 "a", .create 2, .set 3 "c", .remove 1, .setEntry 2 "b", .createSet 7 "g", .removeEntry 3]

theorem exConsistent : Spec.Consistent exCfg.eq exCfg.hash :=
  ⟨by simp [exCfg], by simp only [exCfg, beq_iff_eq]; omega, by simp only [exCfg, beq_iff_eq]; omega, by simp only [exCfg, beq_iff_eq]; rintro a b rfl; rfl⟩

example : Spec.Consistent exCfg.eq exCfg.hash ∧ Fits exCfg 3 ∧ (∀ n, (Spec.run exCfg.eq (exOps.take n)).length ≤ 3) ∧
    Spec.run exCfg.eq exOps = [(2, some "b"), (7, some "g")] := by
  refine ⟨exConsistent, by unfold Fits exCfg; decide, fun n => ?_, by decide⟩
  have h : ∀ n < 8, (Spec.run exCfg.eq (exOps.take n)).length ≤ 3 := by decide
  rcases Nat.lt_or_ge n 8 with hn | hn
  · exact h n hn
  · rw [List.take_of_length_le (show exOps.length ≤ n by show 7 ≤ n; omega)]; decide

#print axioms C07_finite_map
#print axioms C09_handles_stay_valid
end Verif.HashMap
