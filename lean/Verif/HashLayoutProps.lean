import Verif.HashLayoutLemmas
import Verif.HashMapProps
/-!
# C62: the three hash map layouts are interchangeable
-/
namespace Verif.HashLayout
open Verif.BitTricks (U64)
open Verif.HashMap (Cfg Map Item)
variable {K V P S T : Type}

/-- `f` turns a map of one implementation into one of the other that answers every function alike, including whether it is defined. -/
structure Refines (I : Impl K V S) (J : Impl K V T) (f : T → S) : Prop where
  create : I.create = f J.create
  count : ∀ m, I.count (f m) = J.count m
  initialized : ∀ cfg m e, I.initialized cfg (f m) e = J.initialized cfg m e
  findKey : ∀ cfg m k, I.findKey cfg (f m) k = J.findKey cfg m k
  entryForKey : ∀ cfg m k, I.entryForKey cfg (f m) k = (J.entryForKey cfg m k).map fun r => (f r.1, r.2)
  getKey : ∀ cfg m e, I.getKey cfg (f m) e = J.getKey cfg m e
  getEntry : ∀ cfg m e, I.getEntry cfg (f m) e = J.getEntry cfg m e
  setEntry : ∀ cfg m e w, I.setEntry cfg (f m) e w = (J.setEntry cfg m e w).map f
  removeEntry : ∀ cfg m e, I.removeEntry cfg (f m) e = (J.removeEntry cfg m e).map f
  getValue : ∀ cfg m k, I.getValue cfg (f m) k = J.getValue cfg m k
  setValue : ∀ cfg m k w, I.setValue cfg (f m) k w = (J.setValue cfg m k w).map f
  removeValue : ∀ cfg m k, I.removeValue cfg (f m) k = (J.removeValue cfg m k).map f
  keys : ∀ m, I.keys (f m) = J.keys m
  values : ∀ m, I.values (f m) = J.values m
  head : ∀ cfg m, I.head cfg (f m) = J.head cfg m
  next : ∀ cfg m e, I.next cfg (f m) e = J.next cfg m e
  tail : ∀ cfg m, I.tail cfg (f m) = J.tail cfg m
  prev : ∀ cfg m e, I.prev cfg (f m) e = J.prev cfg m e

theorem refines_split {pl : Payload K V P} {rep : Cells (Item K V) → P} (L : Lawful pl rep) (U : Untagged rep) :
    Refines (split pl) (base K V) (view rep) where
  create := congrArg (Split.mk 0 none) L.empty
  count _ := rfl
  initialized cfg m e := initialized_view cfg m e
  findKey cfg m k := findKey_view L cfg m k
  entryForKey cfg m k := entryForKey_view L cfg m k
  getKey cfg m e := getKey_view L cfg m e
  getEntry cfg m e := getEntry_view L cfg m e
  setEntry cfg m e w := setEntry_view L cfg m e w
  removeEntry cfg m e := removeAt_view U cfg m e
  getValue cfg m k := getValue_view L cfg m k
  setValue cfg m k w := setValue_view L cfg m k w
  removeValue cfg m k := removeValue_view L U cfg m k
  keys m := keys_view L m
  values m := values_view L m
  head cfg m := head_view cfg m
  next cfg m e := next_view cfg m e
  tail cfg m := tail_view cfg m
  prev cfg m e := prev_view cfg m e

section
variable {I : Impl K V S} {J : Impl K V T} {f : T → S} (R : Refines I J f)
include R

theorem Refines.rehashLoop (cfg cfg' : Cfg K) (m : T) : ∀ fuel e acc,
    rehashLoop I cfg cfg' (f m) fuel e (f acc) = (rehashLoop J cfg cfg' m fuel e acc).map f := by
  intro fuel
  induction fuel with
  | zero => intro e acc; rfl
  | succ fuel ih =>
    intro e acc
    simp only [HashLayout.rehashLoop, R.getKey, R.getEntry, R.next, R.setValue, Option.bind_eq_bind]
    cases J.getKey cfg m e with
    | none => rfl
    | some r =>
      cases r with
      | none => rfl
      | some k =>
        simp only [Option.bind_some]
        cases J.getEntry cfg m e with
        | none => rfl
        | some r =>
          cases r with
          | none => rfl
          | some v =>
            simp only [Option.bind_some]
            cases J.setValue cfg' acc k v with
            | none => rfl
            | some acc' =>
              simp only [Option.map_some, Option.bind_some]
              cases J.next cfg m e with
              | none => rfl
              | some e' => exact ih e' acc'

theorem Refines.rehash (cfg : Cfg K) (m : T) (c : Nat) : rehash I cfg (f m) c = (rehash J cfg m c).map fun r => (r.1, f r.2) := by
  simp only [HashLayout.rehash, R.count, R.head, R.create, Option.bind_eq_bind]
  cases J.head cfg m with
  | none => rfl
  | some e =>
    simp only [Option.bind_some, R.rehashLoop]
    cases HashLayout.rehashLoop J cfg { cfg with c := c } m (J.count m + 1) e J.create <;> rfl

theorem Refines.call (cfg : Cfg K) (m : T) (c : Call K V) :
    call I cfg (f m) c = (call J cfg m c).map fun r => ((r.1.1, f r.1.2), r.2) := by
  cases c with
  | count => simp only [HashLayout.call, R.count, Option.map_some]
  | initialized e => simp only [HashLayout.call, R.initialized, Option.map_map]; rfl
  | findKey k => simp only [HashLayout.call, R.findKey, Option.map_map]; rfl
  | entryForKey k => simp only [HashLayout.call, R.entryForKey, Option.map_map]; rfl
  | getKey e => simp only [HashLayout.call, R.getKey, Option.map_map]; rfl
  | getEntry e => simp only [HashLayout.call, R.getEntry, Option.map_map]; rfl
  | setEntry e w => simp only [HashLayout.call, R.setEntry, Option.map_map]; rfl
  | removeEntry e => simp only [HashLayout.call, R.removeEntry, Option.map_map]; rfl
  | getValue k => simp only [HashLayout.call, R.getValue, Option.map_map]; rfl
  | setValue k w => simp only [HashLayout.call, R.setValue, Option.map_map]; rfl
  | removeValue k => simp only [HashLayout.call, R.removeValue, Option.map_map]; rfl
  | keys => simp only [HashLayout.call, R.keys, Option.map_map]; rfl
  | values => simp only [HashLayout.call, R.values, Option.map_map]; rfl
  | head => simp only [HashLayout.call, R.head, Option.map_map]; rfl
  | next e => simp only [HashLayout.call, R.next, Option.map_map]; rfl
  | tail => simp only [HashLayout.call, R.tail, Option.map_map]; rfl
  | prev e => simp only [HashLayout.call, R.prev, Option.map_map]; rfl
  | rehash c => simp only [HashLayout.call, R.rehash, Option.map_map]; rfl

theorem Refines.answers (calls : List (Call K V)) : ∀ cfg (m : T), answers I cfg (f m) calls = answers J cfg m calls := by
  induction calls with
  | nil => intro cfg m; rfl
  | cons c cs ih =>
    intro cfg m
    simp only [HashLayout.answers, R.call, Option.bind_eq_bind]
    cases HashLayout.call J cfg m c with
    | none => rfl
    | some r => simp only [Option.map_some, Option.bind_some, ih]

end

theorem refines_all : Refines (split (all K V)) (base K V) (view fun B => (proj (·.key) B, proj (·.value) B)) := refines_split lawful_all untagged_all
theorem refines_hash : Refines (split (hash K V)) (base K V) (view fun B => proj (fun x => (x.key, x.value)) B) := refines_split lawful_hash untagged_hash

/-- **C62.** Whatever calls are made on a new map, with whatever keys, values and handles, the data oriented maps answer each of them as the plain map does; they
are undefined (a failed assertion, or a handle outside the map) exactly when the plain map is. -/
theorem C62_layouts_interchangeable (cfg : Cfg K) (calls : List (Call K V)) :
    answers (split (all K V)) cfg (split (all K V)).create calls = answers (base K V) cfg (base K V).create calls ∧
    answers (split (hash K V)) cfg (split (hash K V)).create calls = answers (base K V) cfg (base K V).create calls := by
  constructor
  · rw [refines_all.create, refines_all.answers]
  · rw [refines_hash.create, refines_hash.answers]

/-! ## The finite map property for any layout -/

/-- The calls a client makes for each edit, see `HashMap.step`. -/
def stepI (I : Impl K V S) (cfg : Cfg K) (m : S) : HashMap.Spec.Op K V → Option S
  | .set k v => I.setValue cfg m k (some v)
  | .create k => (I.entryForKey cfg m k).map (·.1)
  | .setEntry k v => (I.findKey cfg m k).bind fun e => I.setEntry cfg m e (some v)
  | .createSet k v => (I.entryForKey cfg m k).bind fun r => I.setEntry cfg r.1 r.2.1 (some v)
  | .remove k => I.removeValue cfg m k
  | .removeEntry k => (I.findKey cfg m k).bind fun e => I.removeEntry cfg m e

def runI (I : Impl K V S) (cfg : Cfg K) (m : S) (ops : List (HashMap.Spec.Op K V)) : Option S := ops.foldlM (stepI I cfg) m

/-- The map's answers are those of the abstract map `l`, see `HashMap.Agrees`. -/
structure AgreesI (I : Impl K V S) (cfg : Cfg K) (m : S) (l : List (K × Option V)) : Prop where
  count : I.count m = l.length
  absent : ∀ k, HashMap.Spec.lookup cfg.eq l k = none → I.getValue cfg m k = some none ∧ I.findKey cfg m k = some 0
  present : ∀ k o, HashMap.Spec.lookup cfg.eq l k = some o → ∃ e k', e ≠ 0 ∧ I.findKey cfg m k = some e ∧ I.getKey cfg m e = some (some k') ∧
    cfg.eq k k' = true ∧ I.initialized cfg m e = some o.isSome ∧
    (∀ v, o = some v → I.getValue cfg m k = some (some (some v)) ∧ I.getEntry cfg m e = some (some (some v)))

theorem Refines.stepI {I : Impl K V S} {J : Impl K V T} {f : T → S} (R : Refines I J f) (cfg : Cfg K) (m : T) (op : HashMap.Spec.Op K V) :
    stepI I cfg (f m) op = (stepI J cfg m op).map f := by
  cases op with
  | set k v => exact R.setValue _ _ _ _
  | create k => simp only [HashLayout.stepI, R.entryForKey, Option.map_map]; rfl
  | setEntry k v =>
    simp only [HashLayout.stepI, R.findKey]
    cases J.findKey cfg m k with
    | none => rfl
    | some e => exact R.setEntry _ _ _ _
  | createSet k v =>
    simp only [HashLayout.stepI, R.entryForKey]
    cases J.entryForKey cfg m k with
    | none => rfl
    | some e => exact R.setEntry _ _ _ _
  | remove k => exact R.removeValue _ _ _
  | removeEntry k =>
    simp only [HashLayout.stepI, R.findKey]
    cases J.findKey cfg m k with
    | none => rfl
    | some e => exact R.removeEntry _ _ _

theorem Refines.runI {I : Impl K V S} {J : Impl K V T} {f : T → S} (R : Refines I J f) (cfg : Cfg K) (ops : List (HashMap.Spec.Op K V)) :
    ∀ m, runI I cfg (f m) ops = (runI J cfg m ops).map f := by
  induction ops with
  | nil => intro m; rfl
  | cons op ops ih =>
    intro m
    simp only [HashLayout.runI, List.foldlM_cons, R.stepI, Option.bind_eq_bind] at ih ⊢
    cases HashLayout.stepI J cfg m op with
    | none => rfl
    | some m' => exact ih m'

theorem Refines.agreesI {I : Impl K V S} {J : Impl K V T} {f : T → S} (R : Refines I J f) {cfg : Cfg K} {m : T} {l : List (K × Option V)}
    (h : AgreesI J cfg m l) : AgreesI I cfg (f m) l where
  count := by rw [R.count]; exact h.count
  absent k hk := by rw [R.getValue, R.findKey]; exact h.absent k hk
  present k o hk := by
    obtain ⟨e, k', h1, h2, h3, h4, h5, h6⟩ := h.present k o hk
    refine ⟨e, k', h1, ?_, ?_, h4, ?_, fun v hv => ⟨?_, ?_⟩⟩
    · rw [R.findKey]; exact h2
    · rw [R.getKey]; exact h3
    · rw [R.initialized]; exact h5
    · rw [R.getValue]; exact (h6 v hv).1
    · rw [R.getEntry]; exact (h6 v hv).2

theorem base_stepI (cfg : Cfg K) (m : Map K V) (op : HashMap.Spec.Op K V) : stepI (base K V) cfg m op = HashMap.step cfg m op := by
  cases op with
  | set k v => rfl
  | create k =>
    show (HashMap.entryForKey cfg m k).map (·.1) = (HashMap.entryForKey cfg m k).bind _
    cases HashMap.entryForKey cfg m k <;> rfl
  | setEntry k v => rfl
  | createSet k v =>
    show (HashMap.entryForKey cfg m k).bind _ = (HashMap.entryForKey cfg m k).bind _
    cases HashMap.entryForKey cfg m k <;> rfl
  | remove k => rfl
  | removeEntry k => rfl

theorem base_runI (cfg : Cfg K) (ops : List (HashMap.Spec.Op K V)) : ∀ m, runI (base K V) cfg m ops = HashMap.run cfg m ops := by
  have : stepI (base K V) cfg = HashMap.step cfg := by funext m op; exact base_stepI cfg m op
  intro m
  rw [runI, this]; rfl

theorem base_rehashLoop (cfg cfg' : Cfg K) (m : Map K V) : ∀ fuel e acc,
    rehashLoop (base K V) cfg cfg' m fuel e acc = HashMap.rehashLoop cfg cfg' m fuel e acc := by
  intro fuel
  induction fuel with
  | zero => intro e acc; rfl
  | succ fuel ih =>
    intro e acc
    rw [rehashLoop, HashMap.rehashLoop]
    simp only [ih]
    rfl

/-- The rehash of C62 is that of C10. -/
theorem base_rehash (cfg : Cfg K) (m : Map K V) (c : Nat) : rehash (base K V) cfg m c = HashMap.rehash cfg m c := by
  simp only [rehash, HashMap.rehash, base_rehashLoop]
  rfl

/-- C07 for an implementation that refines the plain one. -/
theorem finite_map_of_refines {I : Impl K V S} {f : Map K V → S} (R : Refines I (base K V) f) (cfg : Cfg K) (L : Nat)
    (hs : HashMap.Spec.Consistent cfg.eq cfg.hash) (hf : HashMap.Fits cfg L) (ops : List (HashMap.Spec.Op K V))
    (hL : ∀ n, (HashMap.Spec.run cfg.eq (ops.take n)).length ≤ L) :
    ∃ m, runI I cfg I.create ops = some m ∧ AgreesI I cfg m (HashMap.Spec.run cfg.eq ops) := by
  obtain ⟨m, h1, h2⟩ := HashMap.C07_finite_map cfg L hs hf ops hL
  refine ⟨f m, ?_, R.agreesI ⟨h2.count, h2.absent, h2.present⟩⟩
  rw [R.create, R.runI, base_runI]
  show (HashMap.run cfg HashMap.create ops).map f = _
  rw [h1]; rfl

/-- **C62**, the finite map.  After any history of edits a data oriented map answers as the abstract map does: the count, the absent keys, the handle of a present key, the key
and the value behind the handle. -/
theorem C62_layouts_finite_map (cfg : Cfg K) (L : Nat) (hs : HashMap.Spec.Consistent cfg.eq cfg.hash) (hf : HashMap.Fits cfg L)
    (ops : List (HashMap.Spec.Op K V)) (hL : ∀ n, (HashMap.Spec.run cfg.eq (ops.take n)).length ≤ L) :
    (∃ m, runI (split (all K V)) cfg (split (all K V)).create ops = some m ∧ AgreesI (split (all K V)) cfg m (HashMap.Spec.run cfg.eq ops)) ∧
    (∃ m, runI (split (hash K V)) cfg (split (hash K V)).create ops = some m ∧ AgreesI (split (hash K V)) cfg m (HashMap.Spec.run cfg.eq ops)) :=
  ⟨finite_map_of_refines refines_all cfg L hs hf ops hL, finite_map_of_refines refines_hash cfg L hs hf ops hL⟩

/-! ## Non-vacuity -/

/-- A sequence of calls all of which are defined, in the layout of All: two keys of one bucket, a removal, the reuse of its slot, an enumeration, a rehash. -/
example : (answers (split (all Nat Nat)) HashMap.exCfg (split (all Nat Nat)).create
    [.setValue 1 (some 10), .setValue 2 (some 20), .removeValue 1, .setValue 3 (some 30), .count, .keys, .values, .rehash 5, .getValue 3, .getValue 1, .head]).isSome = true := by
  decide +kernel

example : answers (split (all Nat Nat)) HashMap.exCfg (split (all Nat Nat)).create
    [.setValue 1 (some 10), .setValue 2 (some 20), .removeValue 1, .setValue 3 (some 30), .count, .keys, .values] =
    some [.done, .done, .done, .done, .count 2, .keys [3, 2], .values [some 30, some 20]] := rfl
example : answers (split (hash Nat Nat)) HashMap.exCfg (split (hash Nat Nat)).create
    [.setValue 1 (some 10), .setValue 2 (some 20), .removeValue 1, .setValue 3 (some 30), .count, .keys, .values] =
    some [.done, .done, .done, .done, .count 2, .keys [3, 2], .values [some 30, some 20]] := rfl

/-- The hypotheses of the finite map are those of C07; `HashMap.exOps` meets them. -/
example : HashMap.Spec.Consistent HashMap.exCfg.eq HashMap.exCfg.hash ∧ HashMap.Fits HashMap.exCfg 3 :=
  ⟨HashMap.exConsistent, by unfold HashMap.Fits HashMap.exCfg; decide⟩

#print axioms C62_layouts_interchangeable
#print axioms C62_layouts_finite_map
end Verif.HashLayout
