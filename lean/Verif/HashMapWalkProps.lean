import Verif.HashMapWalk
import Mathlib.Data.List.Forall2
/-!
# C11 and C10: enumeration and rehashing
-/
namespace Verif.HashMap
open Verif.BitTricks (U64)
variable {K V : Type}

/-- Asking repeatedly for the following entry, starting with entry `e`, gives the entries `es` and then the null entry. -/
inductive Walk (follow : U64 → Option U64) : U64 → List U64 → Prop
  | done : Walk follow 0 []
  | step {e e' es} : e ≠ 0 → follow e = some e' → Walk follow e' es → Walk follow e (e :: es)

/-- The handle of a live place. -/
def HandleOf (cfg : Cfg K) (p : Place K V) (e : U64) : Prop := toEntry cfg p.1 p.2.1 = some e ∧ e ≠ 0 ∧ toIndex cfg e = some (some (p.1, p.2.1))

theorem handle_exists {cfg : Cfg K} {L : Nat} (s : Setting cfg L) {m : Map K V} (h : WF cfg m L) {p : Place K V} (hp : p ∈ places 0 (rows cfg m)) :
    ∃ e, HandleOf cfg p e := by
  obtain ⟨ha, -⟩ := places_at hp
  obtain ⟨hb, hi⟩ := at_bounds h ha
  exact s.enc _ _ hb hi

/-- Entry of the first / last place of a list, or the null entry. -/
def EntryOf (cfg : Cfg K) (o : Option (Place K V)) (e : U64) : Prop :=
  match o with
  | none => e = 0
  | some p => HandleOf cfg p e

theorem found_entry {cfg : Cfg K} {o : Option (Place K V)} (h : ∀ p, o = some p → ∃ e, HandleOf cfg p e) :
    ∃ e, foundEntry cfg (o.map loc) = some e ∧ EntryOf cfg o e := by
  cases o with
  | none => exact ⟨0, rfl, rfl⟩
  | some p =>
    obtain ⟨e, he⟩ := h p rfl
    exact ⟨e, he.1, he⟩

theorem rows_none {cfg : Cfg K} {m : Map K V} (h : m.buckets = none) : places 0 (rows cfg m) = [] := by
  have hr : rows cfg m = List.replicate cfg.c [] := by simp [rows, h]
  rw [hr]
  generalize cfg.c = n
  have : ∀ n b, places b (List.replicate n ([] : List (Item K V))) = [] := by
    intro n
    induction n with
    | zero => intro b; rfl
    | succ n ih => intro b; rw [List.replicate_succ, places, ih]; rfl
  exact this n 0

theorem rows_some {cfg : Cfg K} {m : Map K V} {bs} (h : m.buckets = some bs) : rows cfg m = bs.map (·.getD []) := by simp [rows, h]

theorem head_entry {cfg : Cfg K} {L : Nat} (s : Setting cfg L) {m : Map K V} (h : WF cfg m L) :
    ∃ e, headEntry cfg m = some e ∧ EntryOf cfg (places 0 (rows cfg m)).head? e := by
  rw [headEntry]
  cases hb : m.buckets with
  | none => exact ⟨0, rfl, by rw [rows_none hb]; rfl⟩
  | some bs =>
    simp only
    rw [scanBucketsUp_zero, ← rows_some hb]
    exact found_entry (fun p hp => handle_exists s h (List.mem_of_mem_head? hp))

theorem tail_entry {cfg : Cfg K} {L : Nat} (s : Setting cfg L) {m : Map K V} (h : WF cfg m L) :
    ∃ e, tailEntry cfg m = some e ∧ EntryOf cfg (places 0 (rows cfg m)).getLast? e := by
  rw [tailEntry]
  cases hb : m.buckets with
  | none => exact ⟨0, rfl, by rw [rows_none hb]; rfl⟩
  | some bs =>
    simp only
    rw [scanBucketsDown_zero bs _ (Nat.le_refl _), ← rows_some (cfg := cfg) hb]
    rw [List.take_of_length_le (by rw [rows_some (cfg := cfg) hb]; simp)]
    exact found_entry (fun p hp => handle_exists s h (List.mem_of_mem_getLast? hp))

/-- A live place lies in a non-NULL bucket. -/
theorem live_bucket {cfg : Cfg K} {m : Map K V} {p : Place K V} (hp : p ∈ places 0 (rows cfg m)) :
    ∃ bs row, m.buckets = some bs ∧ bs[p.1]? = some (some row) ∧ row[p.2.1]? = some p.2.2 ∧ (rows cfg m)[p.1]? = some row := by
  obtain ⟨ha, -⟩ := places_at hp
  rw [← itemAt_eq] at ha
  simp only [itemAt, Option.bind_eq_bind, Option.bind_eq_some_iff] at ha
  obtain ⟨bs, h1, bkt, h2, row, h3, h4⟩ := ha
  subst h3
  exact ⟨bs, row, h1, h2, h4, by rw [rows_some h1]; simp [h2]⟩

theorem next_entry {cfg : Cfg K} {L : Nat} (s : Setting cfg L) {m : Map K V} (h : WF cfg m L) {a c : List (Place K V)} {p : Place K V}
    (hsplit : places 0 (rows cfg m) = a ++ p :: c) {e : U64} (he : HandleOf cfg p e) :
    (∃ e', nextEntry cfg m e = some e' ∧ EntryOf cfg c.head? e') ∧ (∃ e', prevEntry cfg m e = some e' ∧ EntryOf cfg a.getLast? e') := by
  have hp : p ∈ places 0 (rows cfg m) := by rw [hsplit]; simp
  obtain ⟨bs, row, h1, h2, h3, h4⟩ := live_bucket hp
  have hsp := places_split h4 h3 (places_at hp).2
  obtain ⟨q1, q2, q3⟩ := split_unique (places_sorted _ _) hsplit hsp ⟨rfl, rfl⟩
  have hlt := (List.getElem?_eq_some_iff.1 h2).1
  have hlt' := (List.getElem?_eq_some_iff.1 h3).1
  constructor
  · have : nextEntry cfg m e = foundEntry cfg (c.head?.map loc) := by
      have hd : bs.drop p.1 = some row :: bs.drop (p.1 + 1) := by
        rw [List.drop_eq_getElem_cons hlt, (List.getElem?_eq_some_iff.1 h2).2]
      simp only [nextEntry, h1, he.2.2, Option.bind_eq_bind, Option.bind_some, hd]
      rw [scanBucketsUp_row, q3, rows_some h1, List.map_drop]
    rw [this]
    exact found_entry (fun q hq => handle_exists s h (by rw [hsplit]; simp [List.mem_of_mem_head? hq]))
  · have : prevEntry cfg m e = foundEntry cfg (a.getLast?.map loc) := by
      simp only [prevEntry, h1, he.2.2, Option.bind_eq_bind, Option.bind_some]
      rw [scanBucketsDown_row bs p.1 p.2.1 row h2 (by omega), Option.bind_some, q1, rows_some h1]
    rw [this]
    exact found_entry (fun q hq => handle_exists s h (by rw [hsplit]; simp [List.mem_of_mem_getLast? hq]))

/-- Walking forwards from the head of the remaining places `c`. -/
theorem walk_forward {cfg : Cfg K} {L : Nat} (s : Setting cfg L) {m : Map K V} (h : WF cfg m L) (c : List (Place K V)) : ∀ (a : List (Place K V)),
    places 0 (rows cfg m) = a ++ c → ∀ e, EntryOf cfg c.head? e → ∃ es, Walk (nextEntry cfg m) e es ∧
      List.Forall₂ (HandleOf cfg) c es := by
  induction c with
  | nil => intro a _ e he; cases he; exact ⟨[], .done, .nil⟩
  | cons p c ih =>
    intro a hsplit e he
    obtain ⟨⟨e', h1, h2⟩, -⟩ := next_entry s h hsplit he
    obtain ⟨es, w, f⟩ := ih (a ++ [p]) (by rw [hsplit]; simp) e' h2
    exact ⟨e :: es, .step he.2.1 h1 w, .cons he f⟩

theorem walk_backward {cfg : Cfg K} {L : Nat} (s : Setting cfg L) {m : Map K V} (h : WF cfg m L) : ∀ (n : Nat) (a c : List (Place K V)), a.length = n →
    places 0 (rows cfg m) = a ++ c → ∀ e, EntryOf cfg a.getLast? e → ∃ es, Walk (prevEntry cfg m) e es ∧
      List.Forall₂ (HandleOf cfg) a.reverse es := by
  intro n
  induction n with
  | zero =>
    intro a c ha _ e he
    cases List.eq_nil_of_length_eq_zero ha
    cases he; exact ⟨[], .done, .nil⟩
  | succ n ih =>
    intro a c ha hsplit e he
    rcases List.eq_nil_or_concat a with rfl | ⟨t, p, rfl⟩
    · cases ha
    · have hsplit' : places 0 (rows cfg m) = t ++ p :: c := by rw [hsplit]; simp
      have he' : HandleOf cfg p e := by simpa [EntryOf] using he
      obtain ⟨-, e', h1, h2⟩ := next_entry s h hsplit' he'
      obtain ⟨es, w, f⟩ := ih t (p :: c) (by simp at ha; omega) hsplit' e' h2
      exact ⟨e :: es, .step he'.2.1 h1 w, by simpa using List.Forall₂.cons he' f⟩

theorem handle_key {cfg : Cfg K} {m : Map K V} {p : Place K V} (hp : p ∈ places 0 (rows cfg m)) {e : U64} (he : HandleOf cfg p e) :
    getKey cfg m e = some (some p.2.2.key) ∧ getEntry cfg m e = some (some p.2.2.value) := by
  obtain ⟨ha, hl⟩ := places_at hp
  rw [← itemAt_eq] at ha
  exact ⟨by simp [getKey, he.2.2, ha, hl], by simp [getEntry, he.2.2, ha, hl]⟩

theorem keys_of_walk {cfg : Cfg K} {m : Map K V} {c : List (Place K V)} {es : List U64} (h : List.Forall₂ (HandleOf cfg) c es) (hc : ∀ p ∈ c, p ∈ places 0 (rows cfg m)) :
    es.map (getKey cfg m) = (c.map fun p => p.2.2.key).map (fun k => some (some k)) := by
  induction h with
  | nil => rfl
  | cons h1 _ ih =>
    rw [List.map_cons, List.map_cons, List.map_cons, ih (fun p hp => hc p (by simp [hp])), (handle_key (hc _ (by simp)) h1).1]

theorem places_live_map (c : List (Place K V)) (hc : ∀ p ∈ c, isEmpty p.2.2.tag = false) :
    c.filterMap (fun p => toPair p.2.2) = c.map (fun p => (p.2.2.key, if isInit p.2.2.tag then p.2.2.value else none)) := by
  induction c with
  | nil => rfl
  | cons a t ih =>
    rw [List.filterMap_cons, toPair_live (hc a (by simp)), List.map_cons, ih (fun p hp => hc p (by simp [hp]))]

theorem contents_places (r : Rows K V) : contents r = (places 0 r).map (fun p => (p.2.2.key, if isInit p.2.2.tag then p.2.2.value else none)) := by
  rw [← places_pairs r 0, places_live_map _ (fun p hp => (places_at hp).2)]

theorem handles_nodup {cfg : Cfg K} {c : List (Place K V)} {es : List U64} (h : List.Forall₂ (HandleOf cfg) c es) (hs : c.Pairwise Sorted) : es.Nodup := by
  induction h with
  | nil => exact List.Pairwise.nil
  | @cons p e c es h1 h2 ih =>
    rw [List.pairwise_cons] at hs
    refine List.nodup_cons.2 ⟨fun hm => ?_, ih hs.2⟩
    obtain ⟨i, hi⟩ := List.mem_iff_getElem?.1 hm
    obtain ⟨hlt, hi⟩ := List.getElem?_eq_some_iff.1 hi
    have hlt' : i < c.length := by rw [h2.length_eq]; exact hlt
    have hq := List.Forall₂.get h2 hlt' hlt
    simp only [List.get_eq_getElem] at hq
    rw [hi] at hq
    have := hs.1 c[i] (List.getElem_mem hlt')
    have e1 := h1.2.2
    rw [hq.2.2] at e1
    simp only [Option.some.injEq, Prod.mk.injEq] at e1
    simp only [Sorted] at this
    omega

theorem handles_functional {cfg : Cfg K} {c : List (Place K V)} {es es' : List U64} (h : List.Forall₂ (HandleOf cfg) c es) (h' : List.Forall₂ (HandleOf cfg) c es') : es = es' := by
  induction h generalizing es' with
  | nil => cases h'; rfl
  | cons h1 _ ih =>
    cases h' with
    | cons g1 g2 =>
      have := h1.1
      rw [g1.1] at this; cases this
      rw [ih g2]

theorem getKeys_eq (cfg : Cfg K) (m : Map K V) : getKeys m = (contents (rows cfg m)).map (·.1) := by
  have hrow : ∀ row : List (Item K V), (row.flatMap fun it => if isEmpty it.tag then [] else [it.key]) = (row.filterMap toPair).map (·.1) := by
    intro row
    induction row with
    | nil => rfl
    | cons a t ih =>
      rw [List.flatMap_cons, ih, filterMap_cons', List.map_append]
      cases h : isEmpty a.tag
      · simp [toPair_live h]
      · simp [toPair, h]
  cases hb : m.buckets with
  | none =>
    rw [contents_places, rows_none hb]; simp [getKeys, hb]
  | some bs =>
    rw [rows_some hb]; simp only [getKeys, hb]
    clear hb
    induction bs with
    | nil => rfl
    | cons a t ih =>
      rw [List.flatMap_cons, List.map_cons, contents_cons, List.map_append, ih]
      cases a with
      | none => rfl
      | some row => simp only [hrow]; rfl

/-- **C11.** After any history (as in C07), walking with first/next visits the entries `es`, none twice, whose keys are exactly the stored keys, each once, and then stops; walking
with last/previous visits the same entries in reverse; and the key list function lists the same keys. -/
theorem C11_enumeration (cfg : Cfg K) (L : Nat) (hs : Spec.Consistent cfg.eq cfg.hash) (hf : Fits cfg L) (ops : List (Spec.Op K V))
    (hL : ∀ n, (Spec.run cfg.eq (ops.take n)).length ≤ L) :
    ∃ m e0 e1 es ks, run cfg create ops = some m ∧ headEntry cfg m = some e0 ∧ Walk (nextEntry cfg m) e0 es ∧ es.Nodup ∧
      es.map (getKey cfg m) = ks.map (fun k => some (some k)) ∧ ks.Perm ((Spec.run cfg.eq ops).map (·.1)) ∧
      tailEntry cfg m = some e1 ∧ Walk (prevEntry cfg m) e1 es.reverse ∧ getKeys m = ks := by
  have s := setting_of_fits hs hf
  obtain ⟨m, e, g, -⟩ := run_good s ops (good_create cfg L) hL
  obtain ⟨e0, h1, h2⟩ := head_entry s g.wf
  obtain ⟨e1, t1, t2⟩ := tail_entry s g.wf
  obtain ⟨es, w, f⟩ := walk_forward s g.wf _ [] rfl e0 h2
  obtain ⟨es', w', f'⟩ := walk_backward s g.wf _ _ [] rfl (List.append_nil _).symm e1 t2
  have hrev : es' = es.reverse := handles_functional f' (List.forall₂_reverse_iff.2 f)
  have hk : (places 0 (rows cfg m)).map (fun p => p.2.2.key) = (contents (rows cfg m)).map (·.1) := by
    rw [contents_places, List.map_map]; rfl
  refine ⟨m, e0, e1, es, _, e, h1, w, handles_nodup f (places_sorted _ _), keys_of_walk f (fun p hp => hp), ?_, t1, hrev ▸ w', ?_⟩
  · rw [hk]; exact g.perm.map _
  · rw [hk]; exact getKeys_eq cfg m

/-! ### rehash -/

theorem rehash_loop {cfg cfg' : Cfg K} {L : Nat} (s : Setting cfg L) (s' : Setting cfg' L) (heq : cfg'.eq = cfg.eq) {m : Map K V} (h : WF cfg m L) (c : List (Place K V)) :
    ∀ (a : List (Place K V)) (e : U64) (acc : Map K V) (fuel : Nat), places 0 (rows cfg m) = a ++ c → EntryOf cfg c.head? e → c.length < fuel →
      WF cfg' acc L → (contents (rows cfg' acc)).Perm (a.map fun p => (p.2.2.key, p.2.2.value)) → (places 0 (rows cfg m)).length ≤ L →
      ∃ m', rehashLoop cfg cfg' m fuel e acc = some m' ∧ WF cfg' m' L ∧
        (contents (rows cfg' m')).Perm ((a ++ c).map fun p => (p.2.2.key, p.2.2.value)) := by
  have hdist : (places 0 (rows cfg m)).Pairwise (fun p q => cfg.eq p.2.2.key q.2.2.key = false) := by
    have := h.distinct
    rw [contents_places, List.pairwise_map] at this
    exact this
  induction c with
  | nil =>
    intro a e acc fuel hsp he hfuel hw hp _
    cases he
    obtain ⟨fuel, rfl⟩ : ∃ f, fuel = f + 1 := ⟨fuel - 1, by simp at hfuel; omega⟩
    have : getKey cfg m 0 = some none := by rw [getKey, toIndex_zero]; rfl
    refine ⟨acc, ?_, hw, by simpa using hp⟩
    rw [rehashLoop, this]; rfl
  | cons p c ih =>
    intro a e acc fuel hsp he hfuel hw hp hL
    obtain ⟨fuel, rfl⟩ : ∃ f, fuel = f + 1 := ⟨fuel - 1, by omega⟩
    have hpm : p ∈ places 0 (rows cfg m) := by rw [hsp]; simp
    obtain ⟨k1, k2⟩ := handle_key hpm he
    obtain ⟨⟨e', n1, n2⟩, -⟩ := next_entry s h hsp he
    obtain ⟨m1, b, i, f1, u⟩ := setValue_effect s' hw p.2.2.key p.2.2.value
    have hnew : ∀ q ∈ a.map (fun p => (p.2.2.key, p.2.2.value)), cfg'.eq p.2.2.key q.1 = false := by
      intro q hq
      obtain ⟨x, hx, rfl⟩ := List.mem_map.1 hq
      rw [hsp, List.pairwise_append] at hdist
      rw [heq]
      exact eqFalse_symm s.cons (hdist.2.2 x hx p (by simp))
    rcases u with u | u
    · exfalso
      obtain ⟨it, h1, h2, h3, -⟩ := u
      have := hnew _ (hp.subset (mem_contents.2 ⟨b, i, it, h1, toPair_live h2⟩))
      simp only at this; rw [h3] at this; cases this
    · have hlen : (contents (rows cfg' acc)).length + 1 ≤ L := by
        rw [hp.length_eq]; rw [hsp] at hL; simp at hL ⊢; omega
      have hw' := u.wf s' hw hlen
      have hp' := (u.contents hp).1
      obtain ⟨m', q1, q2, q3⟩ := ih (a ++ [p]) e' m1 fuel (by rw [hsp]; simp) n2 (by simp at hfuel; omega) hw' (by simpa using hp') hL
      refine ⟨m', ?_, q2, by simpa using q3⟩
      rw [rehashLoop, k1]
      simp only [Option.bind_eq_bind, Option.bind_some, k2, f1, n1]
      exact q1

/-- **C10 (partial).** Rehashing after any history (as in C07) to any bucket count succeeds; every key that had a value keeps exactly that value, a key that was absent stays absent, a key that had an
entry without value still has an entry, and the count is unchanged.  When every stored key has a value the rehashed map answers as the same abstract map.
Missing: that a key without value still has none afterwards, see `C10_rehash_refuted`. -/
theorem C10_rehash_partial (cfg : Cfg K) (L : Nat) (hs : Spec.Consistent cfg.eq cfg.hash) (hf : Fits cfg L) (ops : List (Spec.Op K V))
    (hL : ∀ n, (Spec.run cfg.eq (ops.take n)).length ≤ L) (c' : Nat) (hf' : Fits { cfg with c := c' } L) :
    ∃ m m', run cfg create ops = some m ∧ rehash cfg m c' = some ({ cfg with c := c' }, m') ∧
      m'.count = m.count ∧
      (∀ k, Spec.lookup cfg.eq (Spec.run cfg.eq ops) k = none → getValue { cfg with c := c' } m' k = some none ∧ findKey { cfg with c := c' } m' k = some 0) ∧
      (∀ k v, Spec.lookup cfg.eq (Spec.run cfg.eq ops) k = some (some v) → getValue { cfg with c := c' } m' k = some (some (some v)) ∧
        ∃ e, e ≠ 0 ∧ findKey { cfg with c := c' } m' k = some e ∧ entryIsInitialized { cfg with c := c' } m' e = some true) ∧
      (∀ k, Spec.lookup cfg.eq (Spec.run cfg.eq ops) k = some none → ∃ e, e ≠ 0 ∧ findKey { cfg with c := c' } m' k = some e) ∧
      ((∀ p ∈ Spec.run cfg.eq ops, p.2.isSome = true) → Agrees { cfg with c := c' } m' (Spec.run cfg.eq ops)) := by
  have s := setting_of_fits hs hf
  have s' := setting_of_fits (cfg := { cfg with c := c' }) hs hf'
  obtain ⟨m, e, g, -⟩ := run_good s ops (good_create cfg L) hL
  obtain ⟨e0, h1, h2⟩ := head_entry s g.wf
  have hplen : (places 0 (rows cfg m)).length = m.count := by rw [g.wf.count, contents_places, List.length_map]
  have hle : m.count ≤ L := by
    rw [g.wf.count, g.perm.length_eq]
    have := hL ops.length
    rw [List.take_length] at this; exact this
  obtain ⟨m', q1, q2, q3⟩ := rehash_loop s s' rfl g.wf (places 0 (rows cfg m)) [] e0 create (m.count + 1) rfl h2 (by omega) (wf_create _ L)
    (by rw [contents_create]; exact List.Perm.refl _) (by omega)
  rw [List.nil_append] at q3
  have hcfg : Spec.Consistent ({ cfg with c := c' } : Cfg K).eq ({ cfg with c := c' } : Cfg K).hash := hs
  have hd' := pairwise_perm hcfg q3 q2.distinct
  -- a place of the old map gives the stored pair in the new one
  have hcm : contents (rows cfg m) = _ := contents_places (rows cfg m)
  have hmem : ∀ k' o, (k', o) ∈ Spec.run cfg.eq ops → ∃ p ∈ places 0 (rows cfg m), p.2.2.key = k' ∧ (∀ v, o = some v → p.2.2.value = some v) := by
    intro k' o hm
    have := g.perm.symm.subset hm
    rw [hcm, List.mem_map] at this
    obtain ⟨p, hp, he⟩ := this
    simp only [Prod.mk.injEq] at he
    obtain ⟨h5, h6⟩ := he
    refine ⟨p, hp, h5, ?_⟩
    rintro v rfl
    split at h6
    · exact h6
    · cases h6
  -- every entry of the new map is found with its raw value
  have hfind : ∀ k p, p ∈ places 0 (rows cfg m) → cfg.eq k p.2.2.key = true →
      ∃ b i it e, at' (rows { cfg with c := c' } m') b i = some it ∧ isEmpty it.tag = false ∧ e ≠ 0 ∧ toIndex { cfg with c := c' } e = some (some (b, i)) ∧
        findKey { cfg with c := c' } m' k = some e ∧ getValue { cfg with c := c' } m' k = some (some it.value) ∧
        (if isInit it.tag then it.value else none) = p.2.2.value := by
    intro k p hp hk
    have hm : (p.2.2.key, p.2.2.value) ∈ (places 0 (rows cfg m)).map (fun p => (p.2.2.key, p.2.2.value)) := List.mem_map.2 ⟨p, hp, rfl⟩
    rcases find_effect s' q2 k with ⟨b, i, it, e', j1, j2, j3, j4, j5, j6, j7, -, j9, -⟩ | ⟨hn, -⟩
    · have l1 := lookup_live hcfg hd' hm hk
      have l2 := lookup_live hcfg hd' (q3.subset (mem_contents.2 ⟨b, i, it, j1, toPair_live j2⟩)) j3
      rw [l1] at l2
      exact ⟨b, i, it, e', j1, j2, j5, j6, j7, j9, by simpa using l2.symm⟩
    · have := hn _ (q3.symm.subset hm)
      simp only at this
      rw [hk] at this; cases this
  refine ⟨m, m', e, ?_, ?_, ?_, ?_, ?_, ?_⟩
  · simp only [rehash, h1, Option.bind_eq_bind, Option.bind_some, q1]; rfl
  · rw [q2.count, q3.length_eq, List.length_map, hplen]
  · intro k hk
    rcases find_effect s' q2 k with ⟨b, i, it, e', j1, j2, j3, -⟩ | ⟨-, j1, j2, -⟩
    · exfalso
      have := q3.subset (mem_contents.2 ⟨b, i, it, j1, toPair_live j2⟩)
      obtain ⟨p, hp, he⟩ := List.mem_map.1 this
      simp only [Prod.mk.injEq] at he
      have hpc : (p.2.2.key, if isInit p.2.2.tag then p.2.2.value else none) ∈ contents (rows cfg m) := by
        rw [hcm]; exact List.mem_map.2 ⟨p, hp, rfl⟩
      have := lookup_none.1 hk _ (g.perm.subset hpc)
      simp only at this
      rw [he.1] at this
      have j3' : cfg.eq k it.key = true := j3
      rw [j3'] at this; cases this
    · exact ⟨j2, j1⟩
  · intro k v hk
    obtain ⟨k', hm, hkk⟩ := lookup_mem hk
    obtain ⟨p, hp, rfl, hv⟩ := hmem k' _ hm
    obtain ⟨b, i, it, e', j1, j2, j3, j4, j5, j6, j7⟩ := hfind k p hp hkk
    rw [hv v rfl] at j7
    have hi : isInit it.tag = true := by
      cases hc : isInit it.tag
      · rw [hc] at j7; cases j7
      · rfl
    rw [hi] at j7
    simp only [if_true] at j7
    have ha := itemAt_eq { cfg with c := c' } m' b i
    rw [j1] at ha
    exact ⟨by rw [j6, j7], e', j3, j5, by simp [entryIsInitialized, j4, ha, j2, hi]⟩
  · intro k hk
    obtain ⟨k', hm, hkk⟩ := lookup_mem hk
    obtain ⟨p, hp, rfl, -⟩ := hmem k' _ hm
    obtain ⟨b, i, it, e', j1, j2, j3, j4, j5, j6, j7⟩ := hfind k p hp hkk
    exact ⟨e', j3, j5⟩
  · intro hall
    have hval : ∀ p ∈ places 0 (rows cfg m), isInit p.2.2.tag = true ∧ p.2.2.value.isSome = true := by
      intro p hp
      have hpc : (p.2.2.key, if isInit p.2.2.tag then p.2.2.value else none) ∈ contents (rows cfg m) := by
        rw [hcm]; exact List.mem_map.2 ⟨p, hp, rfl⟩
      have := hall _ (g.perm.subset hpc)
      simp only at this
      cases hc : isInit p.2.2.tag
      · rw [hc] at this; cases this
      · rw [hc] at this; exact ⟨rfl, by simpa using this⟩
    have hperm : (contents (rows { cfg with c := c' } m')).Perm (Spec.run cfg.eq ops) := by
      refine q3.trans (List.Perm.trans ?_ g.perm)
      rw [hcm]
      apply List.Perm.of_eq
      apply List.map_congr_left
      intro p hp
      rw [(hval p hp).1]; rfl
    refine agrees s' q2 ?_ hperm
    intro b i it h1 h2 h3
    have := hall _ (hperm.subset (mem_contents.2 ⟨b, i, it, h1, toPair_live h2⟩))
    simp only [h3] at this
    simpa using this

/-- A key that was only created, without a value, is reported as initialised after a rehash (3 buckets to 5). -/
theorem C10_rehash_refuted : ∃ m m' e e', run exCfg create [.create 1] = some (m : Map Nat String) ∧ rehash exCfg m 5 = some ({ exCfg with c := 5 }, m') ∧
    findKey exCfg m 1 = some e ∧ entryIsInitialized exCfg m e = some false ∧
    findKey { exCfg with c := 5 } m' 1 = some e' ∧ entryIsInitialized { exCfg with c := 5 } m' e' = some true := by
  refine ⟨_, _, _, _, rfl, rfl, rfl, rfl, rfl, rfl⟩

/-- Non-vacuity of C10: `exOps` with a rehash from 3 to 1000 buckets. -/
example : Fits { exCfg with c := 1000 } 3 ∧ ∀ p ∈ Spec.run exCfg.eq exOps, p.2.isSome = true := ⟨by unfold Fits exCfg; decide, by decide⟩

#print axioms C11_enumeration
#print axioms C10_rehash_partial
#print axioms C10_rehash_refuted
end Verif.HashMap
