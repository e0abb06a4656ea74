import Verif.MapStream
import Verif.HashMapWalkProps
/-!
# C105: a hash map is read back as it was written

The specification is that of a finite map (`HashMapSpec.lean`).
-/
namespace Verif.MapStream
open Verif.HashMap
open Verif.BitTricks (U64)
variable {K V T E : Type}

/-- What is written is read back, whatever follows it. -/
def Codec.Exact (c : Codec E T) : Prop := ∀ x rest, c.read (c.write x ++ rest) = some (x, rest)

/-- What is written is read back as something equal, whatever follows it. -/
def Codec.UpTo (eq : E → E → Bool) (c : Codec E T) : Prop := ∀ x, ∃ x', eq x x' = true ∧ ∀ rest, c.read (c.write x ++ rest) = some (x', rest)

/-! ## Enumerating -/

theorem elements_places {cfg : Cfg K} {L : Nat} (s : Setting cfg L) {m : Map K V} (h : WF cfg m L) {get : U64 → Option (Option E)} {val : Place K V → E}
    (hg : ∀ p ∈ places 0 (rows cfg m), ∀ e, HandleOf cfg p e → get e = some (some (val p))) (h0 : get 0 = some none) (c : List (Place K V)) :
    ∀ (a : List (Place K V)), places 0 (rows cfg m) = a ++ c → ∀ e, EntryOf cfg c.head? e → ∀ fuel, c.length ≤ fuel →
      ∃ x, get e = some x ∧ elements cfg m get fuel ⟨e, x⟩ = some (c.map val) := by
  induction c with
  | nil =>
    intro a _ e he fuel _
    cases he
    exact ⟨none, h0, by cases fuel <;> rfl⟩
  | cons p c ih =>
    intro a hsplit e he fuel hf
    obtain ⟨⟨e', h1, h2⟩, -⟩ := next_entry s h hsplit he
    obtain ⟨fuel, rfl⟩ : ∃ n, fuel = n + 1 := ⟨fuel - 1, by simp at hf; omega⟩
    obtain ⟨x, hx, hl⟩ := ih (a ++ [p]) (by rw [hsplit]; simp) e' h2 fuel (by simpa using hf)
    refine ⟨some (val p), hg p (by rw [hsplit]; simp) e he, ?_⟩
    simp only [elements, next, h1, hx, Option.bind_eq_bind, Option.bind_some, Option.pure_def, hl, List.map_cons]

theorem lists {cfg : Cfg K} {L : Nat} (s : Setting cfg L) {m : Map K V} (h : WF cfg m L) :
    keyList cfg m = some ((places 0 (rows cfg m)).map fun p => p.2.2.key) ∧ valueList cfg m = some ((places 0 (rows cfg m)).map fun p => p.2.2.value) := by
  obtain ⟨e0, h1, h2⟩ := head_entry s h
  have hc : (places 0 (rows cfg m)).length ≤ m.count := by rw [h.count, contents_places]; simp
  constructor
  · obtain ⟨x, hx, hl⟩ := elements_places s h (get := getKey cfg m) (val := fun p => p.2.2.key) (fun p hp e he => (handle_key hp he).1)
      (by rw [getKey, toIndex_zero]; rfl) _ [] rfl e0 h2 m.count hc
    simp only [keyList, head, h1, hx, Option.bind_eq_bind, Option.bind_some, Option.pure_def, hl]
  · obtain ⟨x, hx, hl⟩ := elements_places s h (get := getEntry cfg m) (val := fun p => p.2.2.value) (fun p hp e he => (handle_key hp he).2)
      (by rw [getEntry, toIndex_zero]; rfl) _ [] rfl e0 h2 m.count hc
    simp only [valueList, head, h1, hx, Option.bind_eq_bind, Option.bind_some, Option.pure_def, hl]

/-! ## Reading the elements -/

theorem readElements_upTo {eq : E → E → Bool} {c : Codec E T} (hc : c.UpTo eq) : ∀ xs : List E, ∃ ys, List.Forall₂ (fun x y => eq x y = true) xs ys ∧
    ∀ rest, readElements c xs.length (xs.flatMap c.write ++ rest) = some (ys, rest)
  | [] => ⟨[], .nil, fun rest => rfl⟩
  | x :: xs => by
    obtain ⟨y, e, h⟩ := hc x
    obtain ⟨ys, f, h'⟩ := readElements_upTo hc xs
    refine ⟨y :: ys, .cons e f, fun rest => ?_⟩
    simp only [List.length_cons, List.flatMap_cons, List.append_assoc, readElements, h, h', Option.bind_eq_bind, Option.bind_some, Option.pure_def]

theorem readElements_exact {c : Codec E T} (hc : c.Exact) : ∀ (xs : List E) (rest : List T), readElements c xs.length (xs.flatMap c.write ++ rest) = some (xs, rest)
  | [], rest => rfl
  | x :: xs, rest => by
    have h := hc x
    simp only [List.length_cons, List.flatMap_cons, List.append_assoc, readElements, h, readElements_exact hc xs, Option.bind_eq_bind, Option.bind_some, Option.pure_def]

/-! ## Filling the map -/

/-- The edits of the loop that fills the map. -/
def sets (ps : List (K × V)) : List (Spec.Op K V) := ps.map fun p => .set p.1 p.2

theorem fill_run (cfg : Cfg K) : ∀ (ps : List (K × V)) (m : Map K V), fill cfg (ps.map (·.1)) (ps.map (·.2)) m = run cfg m (sets ps)
  | [], m => rfl
  | p :: ps, m => by
    simp only [List.map_cons, fill, sets, run, List.foldlM_cons, step]
    cases setValue cfg m p.1 (some p.2) with
    | none => rfl
    | some m' => exact fill_run cfg ps m'

theorem run_sets {eq : K → K → Bool} (hsym : ∀ a b, eq a b = true → eq b a = true) : ∀ (ps : List (K × V)) (l : List (K × Option V)),
    ps.Pairwise (fun p q => eq p.1 q.1 = false) → (∀ p ∈ ps, ∀ q ∈ l, eq p.1 q.1 = false) →
    (sets ps).foldl (Spec.step eq) l = l ++ ps.map fun p => (p.1, some p.2)
  | [], l, _, _ => by simp [sets]
  | p :: ps, l, hp, hl => by
    have hh : Spec.has eq l p.1 = false := by
      simp only [Spec.has, List.any_eq_false]
      intro q hq
      simp [hl p (by simp) q hq]
    rw [List.pairwise_cons] at hp
    have ih := run_sets hsym ps (l ++ [(p.1, some p.2)]) hp.2 (by
      intro q hq r hr
      rcases List.mem_append.1 hr with hr | hr
      · exact hl q (by simp [hq]) r hr
      · simp only [List.mem_singleton] at hr
        subst hr
        show eq q.1 p.1 = false
        cases h : eq q.1 p.1 with
        | false => rfl
        | true => have := hp.1 q hq; rw [hsym _ _ h] at this; cases this)
    simp only [sets, List.map_cons, List.foldl_cons, Spec.step, hh] at ih ⊢
    simp only [Bool.false_eq_true, if_false]
    rw [ih, List.append_assoc]
    rfl

/-- All keys have a value. -/
def AllSet (l : List (K × Option V)) : Prop := ∀ p ∈ l, p.2.isSome

theorem allSet_places {cfg : Cfg K} {m : Map K V} (h : AllSet (contents (rows cfg m))) : ∃ ps : List (K × V),
    (places 0 (rows cfg m)).map (fun p => p.2.2.key) = ps.map (·.1) ∧ (places 0 (rows cfg m)).map (fun p => p.2.2.value) = ps.map (fun p => some p.2) ∧
    contents (rows cfg m) = ps.map (fun p => (p.1, some p.2)) := by
  rw [contents_places] at h ⊢
  generalize places 0 (rows cfg m) = P at h ⊢
  induction P with
  | nil => exact ⟨[], rfl, rfl, rfl⟩
  | cons p P ih =>
    obtain ⟨ps, h1, h2, h3⟩ := ih (fun q hq => h q (by rw [List.map_cons]; exact List.mem_cons_of_mem _ hq))
    have hp := h (p.2.2.key, if isInit p.2.2.tag then p.2.2.value else none) (by simp)
    obtain ⟨v, hv⟩ := Option.isSome_iff_exists.1 hp
    simp only at hv
    have hv' : p.2.2.value = some v := by
      cases hi : isInit p.2.2.tag with
      | false => rw [hi] at hv; simp at hv
      | true => rw [hi] at hv; simpa using hv
    refine ⟨(p.2.2.key, v) :: ps, by simp [h1], by simp [h2, hv'], ?_⟩
    rw [List.map_cons, List.map_cons, h3, hv]

theorem mapM_some (ps : List (K × V)) : (ps.map (fun p => some p.2)).mapM id = some (ps.map (·.2)) := by
  induction ps with
  | nil => rfl
  | cons p ps ih => simp [ih]

theorem lookup_forall {eq : K → K → Bool} (ht : ∀ a b c, eq a b = true → eq b c = true → eq a c = true) (hy : ∀ a b, eq a b = true → eq b a = true)
    (k : K) : ∀ (ps qs : List (K × V)), List.Forall₂ (fun p q => eq p.1 q.1 = true ∧ p.2 = q.2) ps qs →
    Spec.lookup eq (ps.map fun p => (p.1, some p.2)) k = Spec.lookup eq (qs.map fun p => (p.1, some p.2)) k
  | [], _, h => by cases h; rfl
  | p :: ps, _, .cons (b := q) (l₂ := qs) h hs => by
    have ih := lookup_forall ht hy k ps qs hs
    simp only [Spec.lookup, List.map_cons, List.find?_cons] at ih ⊢
    have : eq k p.1 = eq k q.1 := by
      cases h1 : eq k p.1 with
      | true => exact (ht _ _ _ h1 h.1).symm
      | false =>
        cases h2 : eq k q.1 with
        | false => rfl
        | true => rw [ht _ _ _ h2 (hy _ _ h.1)] at h1; cases h1
    rw [this]
    cases eq k q.1 with
    | true => simp [h.2]
    | false => exact ih

theorem pairwise_forall {eq : K → K → Bool} (ht : ∀ a b c, eq a b = true → eq b c = true → eq a c = true) (hy : ∀ a b, eq a b = true → eq b a = true)
    {ps qs : List (K × V)} (h : List.Forall₂ (fun p q => eq p.1 q.1 = true ∧ p.2 = q.2) ps qs) :
    ps.Pairwise (fun p q => eq p.1 q.1 = false) → qs.Pairwise (fun p q => eq p.1 q.1 = false) := by
  induction h with
  | nil => intro _; exact .nil
  | @cons p q ps qs h1 h2 ih =>
    intro hp
    rw [List.pairwise_cons] at hp ⊢
    refine ⟨fun r hr => ?_, ih hp.2⟩
    obtain ⟨i, hi, rfl⟩ := List.mem_iff_getElem.1 hr
    have hi' : i < ps.length := by rw [h2.length_eq]; exact hi
    have hx := List.Forall₂.get h2 hi' hi
    simp only [List.get_eq_getElem] at hx
    have := hp.1 _ (List.getElem_mem hi')
    cases hc : eq q.1 (qs[i]).1 with
    | false => rfl
    | true => rw [ht _ _ _ (ht _ _ _ h1.1 hc) (hy _ _ hx.1)] at this; cases this

/-- **C105 (enumerables).**  After any history of edits, the key enumerable hands out every stored key once, and the value enumerable the values of
the same entries in the same order: what they hand out, paired up, is the map. -/
theorem C105_enumerables (cfg : Cfg K) (L : Nat) (hs : Spec.Consistent cfg.eq cfg.hash) (hf : Fits cfg L) (ops : List (Spec.Op K V))
    (hL : ∀ n, (Spec.run cfg.eq (ops.take n)).length ≤ L) (hv : AllSet (Spec.run cfg.eq ops)) :
    ∃ (m : Map K V) (ps : List (K × Option V)), run cfg create ops = some m ∧ keyList cfg m = some (ps.map (·.1)) ∧ valueList cfg m = some (ps.map (·.2)) ∧ ps.Perm (Spec.run cfg.eq ops) := by
  have s := setting_of_fits hs hf
  obtain ⟨m, e, g, -⟩ := run_good s ops (good_create cfg L) hL
  obtain ⟨ps, h1, h2, h3⟩ := allSet_places (cfg := cfg) (m := m) (fun p hp => hv p (g.perm.subset hp))
  obtain ⟨l1, l2⟩ := lists s g.wf
  refine ⟨m, ps.map (fun p => (p.1, some p.2)), e, ?_, ?_, h3 ▸ g.perm⟩
  · rw [l1, h1, List.map_map]; rfl
  · rw [l2, h2, List.map_map]; rfl

/-- **C105 (what was written is read back).**  After any history of edits in which every key was given a value, the map is written; and reading it -
with anything behind it, and as a map with any number of buckets and any hash of the keys, as long as keys compare the same way and
a key is read back as one that compares equal - stops behind it and gives a map of the same count in which every key has the
value it had. -/
theorem C105_roundtrip_partial (cfg cfg' : Cfg K) (L : Nat) (hs : Spec.Consistent cfg.eq cfg.hash) (hf : Fits cfg L) (he : cfg'.eq = cfg.eq)
    (hs' : Spec.Consistent cfg'.eq cfg'.hash) (hf' : Fits cfg' L) (f : Format K V T) (hn : f.counts.Exact) (hk : f.keys.UpTo cfg.eq) (hvl : f.values.Exact)
    (ops : List (Spec.Op K V)) (hL : ∀ n, (Spec.run cfg.eq (ops.take n)).length ≤ L) (hv : AllSet (Spec.run cfg.eq ops)) :
    ∃ m ts, run cfg create ops = some m ∧ write cfg f m = some ts ∧ ∃ m', (∀ rest, read cfg' f (ts ++ rest) = some (m', rest)) ∧
      m'.count = m.count ∧ ∀ k, getValue cfg' m' k = getValue cfg m k := by
  have s := setting_of_fits hs hf
  have s' := setting_of_fits hs' hf'
  obtain ⟨m, e, g, -⟩ := run_good s ops (good_create cfg L) hL
  obtain ⟨ps, h1, h2, h3⟩ := allSet_places (cfg := cfg) (m := m) (fun p hp => hv p (g.perm.subset hp))
  obtain ⟨l1, l2⟩ := lists s g.wf
  have hcount : m.count = ps.length := by rw [g.wf.count, h3, List.length_map]
  have hle : ps.length ≤ L := by
    have := hL ops.length
    rw [List.take_length] at this
    have hp := g.perm.length_eq
    rw [h3, List.length_map] at hp
    have : (Spec.run cfg.eq ops).length ≤ L := this
    rw [Spec.run] at this
    omega
  have hd : ps.Pairwise (fun p q => cfg.eq p.1 q.1 = false) := by
    have := g.wf.distinct
    rw [h3, List.pairwise_map] at this
    exact this
  obtain ⟨ys, hy, hr⟩ := readElements_upTo hk (ps.map (·.1))
  -- the pairs read back
  have hlen : ys.length = ps.length := by rw [← hy.length_eq, List.length_map]
  have hz : List.Forall₂ (fun p q => cfg.eq p.1 q.1 = true ∧ p.2 = q.2) ps (ys.zip (ps.map (·.2))) := by
    clear h1 h2 h3 hr hcount hle hd hlen l1 l2
    induction ps generalizing ys with
    | nil => cases hy; exact .nil
    | cons p ps ih =>
      cases hy with
      | cons hy1 hy2 => exact .cons ⟨hy1, rfl⟩ (ih _ hy2)
  have hd' := pairwise_forall hs.trans hs.symm hz hd
  have z1 : (ys.zip (ps.map (·.2))).map (·.1) = ys := List.map_fst_zip (by simp [hlen])
  have z2 : (ys.zip (ps.map (·.2))).map (·.2) = ps.map (·.2) := List.map_snd_zip (by simp [hlen])
  generalize hqs : ys.zip (ps.map (·.2)) = qs at hz hd' z1 z2
  have hql : qs.length = ps.length := hz.length_eq.symm
  have hpre : ∀ n, (((sets qs).take n).foldl (Spec.step cfg'.eq) []).length ≤ L := by
    intro n
    have : (sets qs).take n = sets (qs.take n) := by rw [sets, sets, List.map_take]
    rw [this, run_sets hs'.symm _ _ (by rw [he]; exact hd'.sublist (List.take_sublist _ _)) (by simp)]
    simp
    omega
  obtain ⟨m', e', g', -⟩ := run_good s' (sets qs) (good_create cfg' L) hpre
  have hrun : (sets qs).foldl (Spec.step cfg'.eq) [] = qs.map fun p => (p.1, some p.2) := by
    rw [run_sets hs'.symm _ _ (by rw [he]; exact hd') (by simp)]; simp
  rw [hrun] at g'
  have a := agrees s g.wf g.init (List.Perm.refl _)
  rw [h3] at a
  have a' := agrees s' g'.wf g'.init g'.perm
  refine ⟨m, writeEnumerable f m.count f.keys (ps.map (·.1)) ++ writeEnumerable f m.count f.values (ps.map (·.2)), e, ?_, m', ?_, ?_, ?_⟩
  · simp only [write, l1, l2, h1, h2, Option.bind_eq_bind, Option.bind_some, mapM_some, Option.pure_def]
  · intro rest
    have hfill : fill cfg' ys (ps.map (·.2)) create = some m' := by
      have := fill_run cfg' qs create
      rw [z1, z2] at this
      rw [this]; exact e'
    have r1 : ∀ rest, readEnumerable f f.keys (f.counts.write m.count ++ (ps.map (·.1)).flatMap f.keys.write ++ rest) = some (ys, rest) := by
      intro rest
      rw [readEnumerable, List.append_assoc, hn]
      simp only [Option.bind_eq_bind, Option.bind_some]
      have := hr rest
      rw [List.length_map] at this
      rw [hcount, this]
    have r2 : ∀ rest, readEnumerable f f.values (f.counts.write m.count ++ (ps.map (·.2)).flatMap f.values.write ++ rest) = some (ps.map (·.2), rest) := by
      intro rest
      rw [readEnumerable, List.append_assoc, hn]
      simp only [Option.bind_eq_bind, Option.bind_some]
      have := readElements_exact hvl (ps.map (·.2)) rest
      rw [List.length_map] at this
      rw [hcount, this]
    simp only [read, writeEnumerable]
    rw [List.append_assoc, r1]
    simp only [Option.bind_eq_bind, Option.bind_some]
    rw [r2]
    simp only [Option.bind_some, hfill, Option.pure_def]
  · rw [a'.count, List.length_map, hql, hcount]
  · intro k
    have hl : Spec.lookup cfg'.eq (qs.map fun p => (p.1, some p.2)) k = Spec.lookup cfg.eq (ps.map fun p => (p.1, some p.2)) k := by
      rw [he, lookup_forall hs.trans hs.symm k ps qs hz]
    cases ho : Spec.lookup cfg.eq (ps.map fun p => (p.1, some p.2)) k with
    | none =>
      rw [(a.absent k ho).1, (a'.absent k (hl.trans ho)).1]
    | some o =>
      obtain ⟨_, _, _, _, _, _, _, p1⟩ := a.present k o ho
      obtain ⟨_, _, _, _, _, _, _, p2⟩ := a'.present k o (hl.trans ho)
      obtain ⟨k', hm, -⟩ := lookup_mem ho
      obtain ⟨q, -, hq⟩ := List.mem_map.1 hm
      simp only [Prod.mk.injEq] at hq
      obtain ⟨-, rfl⟩ := hq
      rw [(p1 _ rfl).1, (p2 _ rfl).1]

/-! ## Keys without a value -/

/-- Numbers written as they are. -/
def plain : Codec Nat Nat := ⟨fun n => [n], fun ts => match ts with | [] => none | t :: ts => some (t, ts)⟩

def exFormat : Format Nat Nat Nat := ⟨plain, plain, plain⟩

/-- One bucket. -/
def exCfg : Cfg Nat := ⟨fun k => BitVec.ofNat 64 k, fun a b => a == b, 1⟩

theorem exConsistent (c : Nat) : Spec.Consistent (Cfg.eq (⟨fun k => BitVec.ofNat 64 k, fun a b => a == b, c⟩ : Cfg Nat)) (fun k : Nat => BitVec.ofNat 64 k) :=
  ⟨by simp, by simp only [beq_iff_eq]; omega, by simp only [beq_iff_eq]; omega, by simp only [beq_iff_eq]; rintro a b rfl; rfl⟩

/-- **C105 refuted** for keys that were created and not given a value: the entry of such a key may have the bytes of the value of a key that was
removed before; those are written, and read back as the value of the key, which counts as initialised then. -/
theorem C105_unset_refuted : ∃ m m' ts e e', run exCfg create [.set 1 10, .remove 1, .create 2] = some m ∧ write exCfg exFormat m = some ts ∧
    read exCfg exFormat ts = some (m', []) ∧ findKey exCfg m 2 = some e ∧ entryIsInitialized exCfg m e = some false ∧
    findKey exCfg m' 2 = some e' ∧ entryIsInitialized exCfg m' e' = some true ∧ getValue exCfg m' 2 = some (some (some 10)) := by
  refine ⟨⟨1, some [some [⟨2#64, 2, some 10⟩]]⟩, ⟨1, some [some [⟨0x4000000000000002#64, 2, some 10⟩]]⟩, [1, 2, 1, 10], 1#64, 1#64, ?_, ?_, ?_, ?_, ?_, ?_, ?_, ?_⟩
  all_goals rfl

/-- Bytes that were never written: writing the map reads memory that has no value. -/
example : (run exCfg create [.create 2]).bind (write exCfg exFormat) = none := by rfl

/-! ## The hypotheses are met -/

/-- Two keys in the same bucket, one of them stored where another was removed. -/
def exOps : List (Spec.Op Nat Nat) := [.set 1 10, .set 2 20, .remove 1, .createSet 3 30, .set 2 21]

example : Fits exCfg 5 ∧ (∀ n, (Spec.run exCfg.eq (exOps.take n)).length ≤ 5) ∧ AllSet (Spec.run exCfg.eq exOps) ∧
    exFormat.counts.Exact ∧ exFormat.keys.UpTo exCfg.eq ∧ exFormat.values.Exact := by
  refine ⟨by unfold Fits; decide, ?_, by unfold AllSet; decide, fun x rest => rfl, fun x => ⟨x, by simp [exCfg], fun rest => rfl⟩, fun x rest => rfl⟩
  intro n
  by_cases h : n < 5
  · have : ∀ n < 5, (Spec.run exCfg.eq (exOps.take n)).length ≤ 5 := by decide
    exact this n h
  · rw [List.take_of_length_le (by simp [exOps]; omega)]
    decide

example : (run exCfg create exOps).bind (write exCfg exFormat) = some [2, 3, 2, 2, 30, 21] := by rfl

#print axioms C105_enumerables
#print axioms C105_roundtrip_partial
#print axioms C105_unset_refuted

end Verif.MapStream
