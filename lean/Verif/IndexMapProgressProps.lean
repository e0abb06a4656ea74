import Verif.ConcIndexMapProps
import Verif.WaitFreeProps
import Verif.SharedResProps
/-!
# C129: which calls on the index map finish, and which wait

The model is that of C89.  The documentation (ConcurrentIndexMap.h 29-37, 104-105, 118-119, 134-136, 152, 166, 197) says: lookups and replacements are wait-free in the default build; an append that needs no new data does not wait; all calls that need new
data wait for the changes in progress, for ever if one of those threads dies.
-/
namespace Verif.IndexMapProgress
open ConcIndexMap Conc WaitFree
open IndexMap (maxCount)

variable {α : Type}

/-- As `within_of`, but what is known of the thread need only be kept during the call. -/
theorem within_of' {S P : Type} {Step : S → S → Prop} {place : S → P} {out : P → Prop} (left : P → Nat) (good : P → Prop)
    (pos : ∀ p, good p → ¬ out p → 0 < left p)
    (move : ∀ y, good (place y) → ¬ out (place y) → ∃ y', Step y y' ∧ place y' ≠ place y)
    (down : ∀ y y', good (place y) → ¬ out (place y) → Step y y' → place y' = place y ∨ out (place y') ∨ good (place y') ∧ left (place y') < left (place y))
    {n : Nat} {y : S} (g : good (place y)) (h : left (place y) ≤ n) : Within Step place out n y := by
  have key : ∀ k z, During Step place out y k z → good (place z) ∧ ¬ out (place z) ∧ left (place z) + k ≤ n := by
    intro k z d
    induction d with
    | start o => exact ⟨g, o, h⟩
    | other d s e ih => rw [e]; exact ih
    | own d s e o ih =>
      rcases down _ _ ih.1 ih.2.1 s with q | q | q
      · exact absurd q e
      · exact absurd q o
      · exact ⟨q.1, o, by have := ih.2.2; omega⟩
  intro k z d
  obtain ⟨a, b, c⟩ := key k z d
  exact ⟨by have := pos _ a b; omega, move z a b⟩

/-- The thread is not in a call.  That it is never at a fault is shown by C89 (`C89_memory`). -/
def Out : Option (PC α) → Prop
  | none | some .idle | some .fault => True
  | _ => False

/-- The thread is not in a call, or its append has found no slot and needs new data. -/
def OutOrGrow : Option (PC α) → Prop
  | some (.af _ _ _ _ _ _) => True
  | p => Out p

/-- A lookup or replacement. -/
def easy : Option (PC α) → Prop
  | none | some .idle | some .fault => True
  | some (.rd0 _ c) | some (.rd1 _ c _) => match c with
    | .count | .get _ => True
    | _ => False
  | some (.md0 _ c) | some (.md1 _ c) | some (.md2 _ c _ _) => match c with
    | .replace _ _ | .exact _ _ _ => True
    | _ => False
  | some (.rd2 _ _ _) | some (.rp3 _ _ _ _) | some (.rp4 _ _ _ _) | some (.rx3 _ _ _ _ _) | some (.up _ _ _ _) | some (.fi _ _ _ _) => True
  | _ => False

/-- What is left of it. -/
def easyLeft : Option (PC α) → Nat
  | some (.rd0 _ .count) => 2
  | some (.rd1 _ .count _) => 1
  | some (.rd0 _ _) => 3
  | some (.rd1 _ _ _) => 2
  | some (.rd2 _ _ _) => 1
  | some (.md0 _ (.exact _ _ _)) => 6
  | some (.md1 _ (.exact _ _ _)) => 5
  | some (.md2 _ (.exact _ _ _) _ _) => 4
  | some (.md0 _ _) => 7
  | some (.md1 _ _) => 6
  | some (.md2 _ _ _ _) => 5
  | some (.rp3 _ _ _ _) => 4
  | some (.rp4 _ _ _ _) => 3
  | some (.rx3 _ _ _ _ _) => 3
  | some (.up _ _ _ _) => 2
  | some (.fi _ _ _ _) => 1
  | _ => 0

/-- An append that has not found that it needs new data. -/
def apnd : Option (PC α) → Prop
  | none | some .idle | some .fault => True
  | some (.md0 _ c) | some (.md1 _ c) | some (.md2 _ c _ _) => match c with
    | .append _ => True
    | _ => False
  | some (.ap3 _ _ _ _ _ _) | some (.ap4 _ _ _ _ _) | some (.up _ _ _ _) | some (.fi _ _ _ _) | some (.af _ _ _ _ _ _) => True
  | _ => False

/-- What is left of it. -/
def apndLeft (chunk : Nat) : Option (PC α) → Nat
  | some (.md0 _ _) => chunk + 6
  | some (.md1 _ _) => chunk + 5
  | some (.md2 _ _ _ _) => chunk + 4
  | some (.ap3 _ _ _ _ idx max) => max - idx + 3
  | some (.ap4 _ _ _ _ _) => 3
  | some (.up _ _ _ _) => 2
  | some (.fi _ _ _ _) => 1
  | _ => 0

/-- The calls a thread at these places can be in. -/
def Typed : PC α → Prop
  | .rd0 _ c | .rd1 _ c _ => c = .count ∨ ∃ i, c = .get i
  | _ => True

/-- No thread in a call is held up. -/
theorem moves {chunk w : Nat} {y : Sys α} {i : Nat} {p : PC α} (hi : y.thrs[i]? = some p) (ho : ¬ Out (some p)) (ht : Typed p) :
    ∃ y', Step chunk w y y' ∧ y'.thrs[i]? ≠ y.thrs[i]? := by
  have hl : i < y.thrs.length := (List.getElem?_eq_some_iff.1 hi).1
  have go : ∀ (y' : Sys α) (q : PC α), Step chunk w y y' → y'.thrs = y.thrs.set i q → q ≠ p → ∃ y', Step chunk w y y' ∧ y'.thrs[i]? ≠ y.thrs[i]? := fun y' q s e n =>
    ⟨y', s, by rw [e, hi, List.getElem?_set_self hl]; intro h; injection h with h; exact n h⟩
  have nf : PC.fault ≠ p := by rintro rfl; exact ho trivial
  have dead : ∀ b, p.uses? = some b → y.blk? b = none → ∃ y', Step chunk w y y' ∧ y'.thrs[i]? ≠ y.thrs[i]? := fun b hb e => go _ _ (.useFreed hi hb e) rfl nf
  have slot : ∀ b j B, p.uses? = some b → p.slot? = some j → y.blk? b = some B → B.slots[j]? = none → ∃ y', Step chunk w y y' ∧ y'.thrs[i]? ≠ y.thrs[i]? :=
    fun b j B hb hj e e' => go _ _ (.useSlot hi hb hj e e') rfl nf
  cases p with
  | idle => exact absurd trivial ho
  | fault => exact absurd trivial ho
  | rd0 g c => exact go _ _ (.rdPtr hi) rfl (by simp)
  | rd1 g c b =>
    match e : y.blk? b with
    | none => exact dead b rfl e
    | some B =>
      rcases ht with rfl | ⟨j, rfl⟩
      · exact go _ _ (.rdCount hi e) rfl (by simp)
      · by_cases h : j < maxCount chunk B.count
        · exact go _ _ (.rdMax hi e h) rfl (by simp)
        · exact go _ _ (.rdNone hi e h) rfl (by simp)
  | rd2 g j b =>
    match e : y.blk? b with
    | none => exact dead b rfl e
    | some B => match e' : B.slots[j]? with
      | none => exact slot b j B rfl rfl e e'
      | some v => exact go _ _ (.rdSlot hi e e') rfl (by simp)
  | md0 g c => exact go _ _ (.mdInc hi) rfl (by simp)
  | md1 g c => exact go _ _ (.mdPtr hi) rfl (by simp)
  | md2 g c b m =>
    match e : y.blk? b with
    | none => exact dead b rfl e
    | some B => exact go _ _ (.mdCount hi e) rfl (by cases c <;> simp only [counted] <;> first | (split <;> simp) | simp)
  | rp3 g j x b =>
    match e : y.blk? b with
    | none => exact dead b rfl e
    | some B => match e' : B.slots[j]? with
      | none => exact slot b j B rfl rfl e e'
      | some none => exact go _ _ (.rpUnset hi e e') rfl (by simp)
      | some (some v) => exact go _ _ (.rpSet hi e e') rfl (by simp)
  | rp4 g j x b =>
    match e : y.blk? b with
    | none => exact dead b rfl e
    | some B => match e' : B.slots[j]? with
      | none => exact slot b j B rfl rfl e e'
      | some none => exact go _ _ (.rpLost hi e e') rfl (by simp)
      | some (some v) => exact go _ _ (.rpXchg hi e e') rfl (by simp)
  | rx3 g j x old b =>
    match e : y.blk? b with
    | none => exact dead b rfl e
    | some B => match e' : B.slots[j]? with
      | none => exact slot b j B rfl rfl e e'
      | some v =>
        by_cases h : v = some old
        · subst h; exact go _ _ (.rxCas hi e e') rfl (by simp)
        · exact go _ _ (.rxFail hi e e' h) rfl (by simp)
  | ap3 g x b m idx max =>
    by_cases h : idx < max
    · match e : y.blk? b with
      | none => exact dead b (by simp [PC.uses?, h]) e
      | some B => match e' : B.slots[idx]? with
        | none => exact slot b idx B (by simp [PC.uses?, h]) (by simp [PC.slot?, h]) e e'
        | some none => exact go _ _ (.apStore hi h e e') rfl (by simp)
        | some (some v) => exact go _ _ (.apNext hi h e e') rfl (by simp)
    · exact go _ _ (.apFull hi h) rfl (by simp)
  | ap4 g x b idx k =>
    match e : y.blk? b with
    | none => exact dead b rfl e
    | some B => exact go _ _ (.apCount hi e) rfl (by simp)
  | up g c r k => exact go _ _ (.upInc hi) rfl (by simp)
  | fi g c r k => exact go _ _ (.fiDec hi) rfl (by simp)
  | af g x b m idx max => exact go _ _ (.afDec hi) rfl (by simp)
  | ag g x b m idx max =>
    match e : y.blk? b with
    | none => exact dead b rfl e
    | some B =>
      by_cases h : idx = B.count
      · exact go _ _ (.agSame hi e h) rfl (by simp)
      · exact go _ _ (.agDiff hi e h) rfl (by simp)
  | wr0 g c => exact go _ _ (.wrPtr hi) rfl (by simp)
  | wr1 g c b m =>
    match e : y.blk? b with
    | none => exact dead b rfl e
    | some B =>
      by_cases h : c.index ≥ B.count ∨ B.count = 0
      · exact go _ _ (.wrRefuse hi e h) rfl (by simp)
      · exact go _ _ (.wrCopy hi e h) rfl (by simp)
  | cp g c b m n max got =>
    by_cases h : got.length < n
    · match e : y.blk? b with
      | none => exact dead b (by simp [PC.uses?, h]) e
      | some B => match e' : B.slots[c.from got.length]? with
        | none => exact slot b _ B (by simp [PC.uses?, h]) (by simp [PC.slot?, h]) e e'
        | some v => exact go _ _ (.cpLoad hi h e e') rfl (by simp)
    · by_cases k : y.modify % w = 0 ∧ y.mutate % w = m % w ∧ y.data = b
      · cases c with
        | remove j => exact go _ _ (.cpCas hi h k) rfl (by simp)
        | append x => exact go _ _ (.cpCas hi h k) rfl (by simp)
        | insert j x => exact go _ _ (.cpCas hi h k) rfl (by simp)
        | count => exact go _ _ (.cpCas hi h k) rfl (by simp)
        | get j => exact go _ _ (.cpCas hi h k) rfl (by simp)
        | replace j x => exact go _ _ (.cpCas hi h k) rfl (by simp)
        | exact j x o => exact go _ _ (.cpCas hi h k) rfl (by simp)
      · exact go _ _ (.cpFail hi h k) rfl (by cases c <;> simp [retry])
  | rm g j b k =>
    match e : y.blk? b with
    | none => exact dead b rfl e
    | some B => match e' : B.slots[j]? with
      | none => exact slot b j B rfl rfl e e'
      | some v => exact go _ _ (.rmGet hi e e') rfl (by simp)

/-- Where the steps of a thread lead. -/
inductive Next (chunk : Nat) (y : Sys α) : PC α → PC α → Prop
  | start (c : Call α) : Next chunk y .idle (begin ⟨y.secs, y.ops.length⟩ c)
  | rdPtr {g : G} {c : Call α} {b : Nat} : Next chunk y (.rd0 g c) (.rd1 g c b)
  | rdCount {g : G} {b : Nat} : Next chunk y (.rd1 g .count b) .idle
  | rdMax {g : G} {b j : Nat} : Next chunk y (.rd1 g (.get j) b) (.rd2 g j b)
  | rdNone {g : G} {b j : Nat} : Next chunk y (.rd1 g (.get j) b) .idle
  | rdSlot {g : G} {b j : Nat} : Next chunk y (.rd2 g j b) .idle
  | mdInc {g : G} {c : Call α} : Next chunk y (.md0 g c) (.md1 g c)
  | mdPtr {g : G} {c : Call α} {b m : Nat} : Next chunk y (.md1 g c) (.md2 g c b m)
  | mdCount {g : G} {c : Call α} {b m k : Nat} : Next chunk y (.md2 g c b m) (counted chunk g b m k c)
  | rpSet {g : G} {j : Nat} {x : α} {b : Nat} : Next chunk y (.rp3 g j x b) (.rp4 g j x b)
  | rpUnset {g : G} {j : Nat} {x : α} {b : Nat} {c : Call α} {r : Res α} {k : Option Nat} : Next chunk y (.rp3 g j x b) (.fi g c r k)
  | rpXchg {g : G} {j : Nat} {x : α} {b : Nat} {c : Call α} {r : Res α} {k : Nat} : Next chunk y (.rp4 g j x b) (.up g c r k)
  | rpUnset' {g : G} {j : Nat} {x : α} {b : Nat} {c : Call α} {r : Res α} {k : Option Nat} : Next chunk y (.rp4 g j x b) (.fi g c r k)
  | rxCas {g : G} {j : Nat} {x o : α} {b : Nat} {c : Call α} {r : Res α} {k : Nat} : Next chunk y (.rx3 g j x o b) (.up g c r k)
  | rxFail {g : G} {j : Nat} {x o : α} {b : Nat} {c : Call α} {r : Res α} {k : Option Nat} : Next chunk y (.rx3 g j x o b) (.fi g c r k)
  | apNext {g : G} {x : α} {b m idx max : Nat} : idx < max → Next chunk y (.ap3 g x b m idx max) (.ap3 g x b m (idx + 1) max)
  | apStore {g : G} {x : α} {b m idx max k : Nat} : idx < max → Next chunk y (.ap3 g x b m idx max) (.ap4 g x b idx k)
  | apFull {g : G} {x : α} {b m idx max : Nat} : ¬ idx < max → Next chunk y (.ap3 g x b m idx max) (.af g x b m idx max)
  | apCount {g : G} {x : α} {b idx k : Nat} {c : Call α} {r : Res α} : Next chunk y (.ap4 g x b idx k) (.up g c r k)
  | upInc {g : G} {c : Call α} {r : Res α} {k : Nat} : Next chunk y (.up g c r k) (.fi g c r (some k))
  | fiDec {g : G} {c : Call α} {r : Res α} {k : Option Nat} : Next chunk y (.fi g c r k) .idle
  | afDec {g : G} {x : α} {b m idx max : Nat} : Next chunk y (.af g x b m idx max) (.ag g x b m idx max)
  | agSame {g : G} {x : α} {b m idx max n : Nat} : Next chunk y (.ag g x b m idx max) (.cp g (.append x) b m idx n [])
  | agFail {g : G} {x : α} {b m idx max : Nat} : Next chunk y (.ag g x b m idx max) .idle
  | agDiff {g : G} {x : α} {b m idx max : Nat} : Next chunk y (.ag g x b m idx max) (.md0 g (.append x))
  | wrPtr {g : G} {c : Call α} {b m : Nat} : Next chunk y (.wr0 g c) (.wr1 g c b m)
  | wrRefuse {g : G} {c : Call α} {b m : Nat} : Next chunk y (.wr1 g c b m) .idle
  | wrCopy {g : G} {c : Call α} {b m n max : Nat} : Next chunk y (.wr1 g c b m) (.cp g c b m n max [])
  | wrFail {g : G} {c : Call α} {b m : Nat} : Next chunk y (.wr1 g c b m) (.wr0 g c)
  | cpLoad {g : G} {c : Call α} {b m n max : Nat} {got got' : List (Option α)} : Next chunk y (.cp g c b m n max got) (.cp g c b m n max got')
  | cpRm {g : G} {c : Call α} {b m n max j k : Nat} {got : List (Option α)} : Next chunk y (.cp g c b m n max got) (.rm g j b k)
  | cpDone {g : G} {c : Call α} {b m n max : Nat} {got : List (Option α)} : Next chunk y (.cp g c b m n max got) .idle
  | cpFail {g : G} {c : Call α} {b m n max : Nat} {got : List (Option α)} : Next chunk y (.cp g c b m n max got) (retry g c)
  | rmGet {g : G} {j b k : Nat} : Next chunk y (.rm g j b k) .idle
  | fault {p : PC α} : Next chunk y p .fault

theorem maxCount_le {chunk : Nat} (n : Nat) (hc : 0 < chunk) : maxCount chunk n - n ≤ chunk := by
  have e := Nat.div_add_mod n chunk
  unfold maxCount
  rw [Nat.add_mul, Nat.mul_comm]
  split <;> omega

/-- A step is of another thread, or of this one. -/
theorem own_step {chunk w : Nat} {y y' : Sys α} (i : Nat) (s : Step chunk w y y') : y'.thrs[i]? = y.thrs[i]? ∨ ∃ p q, y.thrs[i]? = some p ∧ y'.thrs[i]? = some q ∧ Next chunk y p q := by
  have key : ∀ (j : Nat) (p q : PC α), y.thrs[j]? = some p → Next chunk y p q → y'.thrs = y.thrs.set j q →
      y'.thrs[i]? = y.thrs[i]? ∨ ∃ p q, y.thrs[i]? = some p ∧ y'.thrs[i]? = some q ∧ Next chunk y p q := by
    intro j p q h k e
    by_cases hj : j = i
    · subst hj
      exact Or.inr ⟨p, q, h, by rw [e, List.getElem?_set_self (List.getElem?_eq_some_iff.1 h).1], k⟩
    · exact Or.inl (by rw [e, List.getElem?_set_ne hj])
  cases s with
  | start c h => exact key _ _ _ h (.start c) rfl
  | free _ _ _ => exact Or.inl rfl
  | rdPtr h => exact key _ _ _ h .rdPtr rfl
  | rdCount h _ => exact key _ _ _ h .rdCount rfl
  | rdMax h _ _ => exact key _ _ _ h .rdMax rfl
  | rdNone h _ _ => exact key _ _ _ h .rdNone rfl
  | rdSlot h _ _ => exact key _ _ _ h .rdSlot rfl
  | mdInc h => exact key _ _ _ h .mdInc rfl
  | mdPtr h => exact key _ _ _ h .mdPtr rfl
  | mdCount h _ => exact key _ _ _ h .mdCount rfl
  | rpSet h _ _ => exact key _ _ _ h .rpSet rfl
  | rpUnset h _ _ => exact key _ _ _ h .rpUnset rfl
  | rpXchg h _ _ => exact key _ _ _ h .rpXchg rfl
  | rpLost h _ _ => exact key _ _ _ h .rpUnset' rfl
  | rxCas h _ _ => exact key _ _ _ h .rxCas rfl
  | rxFail h _ _ _ => exact key _ _ _ h .rxFail rfl
  | apNext h k _ _ => exact key _ _ _ h (.apNext k) rfl
  | apStore h k _ _ => exact key _ _ _ h (.apStore k) rfl
  | apFull h k => exact key _ _ _ h (.apFull k) rfl
  | apCount h _ => exact key _ _ _ h .apCount rfl
  | upInc h => exact key _ _ _ h .upInc rfl
  | fiDec h => exact key _ _ _ h .fiDec rfl
  | afDec h => exact key _ _ _ h .afDec rfl
  | agSame h _ _ => exact key _ _ _ h .agSame rfl
  | agFail h _ _ => exact key _ _ _ h .agFail rfl
  | agDiff h _ _ => exact key _ _ _ h .agDiff rfl
  | wrPtr h => exact key _ _ _ h .wrPtr rfl
  | wrRefuse h _ _ => exact key _ _ _ h .wrRefuse rfl
  | wrCopy h _ _ => exact key _ _ _ h .wrCopy rfl
  | wrFail h _ _ => exact key _ _ _ h .wrFail rfl
  | cpLoad h _ _ _ => exact key _ _ _ h .cpLoad rfl
  | @cpCas _ _ c _ _ _ _ _ h _ _ =>
    cases c with
    | remove j => exact key _ _ _ h .cpRm rfl
    | append x => exact key _ _ _ h .cpDone rfl
    | insert j x => exact key _ _ _ h .cpDone rfl
    | count => exact key _ _ _ h .cpDone rfl
    | get j => exact key _ _ _ h .cpDone rfl
    | replace j x => exact key _ _ _ h .cpDone rfl
    | exact j x o => exact key _ _ _ h .cpDone rfl
  | cpFail h _ _ => exact key _ _ _ h .cpFail rfl
  | rmGet h _ _ => exact key _ _ _ h .rmGet rfl
  | useFreed h _ _ => exact key _ _ _ h .fault rfl
  | useSlot h _ _ _ _ => exact key _ _ _ h .fault rfl

theorem easy_next {chunk : Nat} {y : Sys α} {p q : PC α} (n : Next chunk y p q) (g : easy (some p)) (o : ¬ Out (some p)) : Out (some q) ∨ easy (some q) ∧ easyLeft (some q) < easyLeft (some p) := by
  cases n
  case rdPtr g' c b => cases c <;> first | exact absurd g id | exact Or.inr ⟨trivial, by simp [easyLeft]⟩
  case mdInc g' c => cases c <;> first | exact absurd g id | exact Or.inr ⟨trivial, by simp [easyLeft]⟩
  case mdPtr g' c b m => cases c <;> first | exact absurd g id | exact Or.inr ⟨trivial, by simp [easyLeft]⟩
  case mdCount g' c b m k =>
    cases c
    case replace j x => simp only [counted]; split <;> exact Or.inr ⟨trivial, by simp [easyLeft]⟩
    case exact j x old => simp only [counted]; split <;> exact Or.inr ⟨trivial, by simp [easyLeft]⟩
    all_goals exact absurd g id
  all_goals first | exact Or.inl trivial | exact absurd trivial o | exact absurd g id | exact Or.inr ⟨trivial, by simp [easyLeft]⟩

theorem apnd_next {chunk : Nat} (hc : 0 < chunk) {y : Sys α} {p q : PC α} (n : Next chunk y p q) (g : apnd (some p)) (o : ¬ OutOrGrow (some p)) :
    OutOrGrow (some q) ∨ apnd (some q) ∧ apndLeft chunk (some q) < apndLeft chunk (some p) := by
  cases n
  case mdInc g' c => exact Or.inr ⟨g, by simp [apndLeft]⟩
  case mdPtr g' c b m => exact Or.inr ⟨g, by simp [apndLeft]⟩
  case mdCount g' c b m k =>
    cases c
    case append x => exact Or.inr ⟨trivial, by have := maxCount_le k hc; simp only [apndLeft, counted]; omega⟩
    all_goals exact absurd g id
  all_goals first | exact Or.inl trivial | exact absurd trivial o | exact absurd g id | exact Or.inr ⟨trivial, by simp only [apndLeft]; omega⟩

theorem easy_typed {p : PC α} (h : easy (some p)) : Typed p := by
  cases p
  case rd0 g c => cases c <;> first | exact Or.inl rfl | exact Or.inr ⟨_, rfl⟩ | exact absurd h id
  case rd1 g c b => cases c <;> first | exact Or.inl rfl | exact Or.inr ⟨_, rfl⟩ | exact absurd h id
  all_goals trivial

theorem apnd_typed {p : PC α} (h : apnd (some p)) : Typed p := by
  cases p <;> first | trivial | exact absurd h id

/-- The steps of a thread. -/
abbrev Mine (chunk w i n : Nat) (y : Sys α) : Prop := Within (Step chunk w) (fun y : Sys α => y.thrs[i]?) Out n y

theorem easy_within {chunk w i n : Nat} {y : Sys α} (g : easy y.thrs[i]?) (h : easyLeft y.thrs[i]? ≤ n) : Mine chunk w i n y := by
  refine within_of' easyLeft easy ?_ ?_ ?_ g h
  · intro p g o
    match p with
    | none => exact absurd trivial o
    | some p =>
      cases p
      case rd0 g' c => cases c <;> simp [easyLeft]
      case rd1 g' c b => cases c <;> simp [easyLeft]
      case md0 g' c => cases c <;> simp [easyLeft]
      case md1 g' c => cases c <;> simp [easyLeft]
      case md2 g' c b m => cases c <;> simp [easyLeft]
      all_goals first | exact absurd trivial o | exact absurd g id | simp [easyLeft]
  · intro y g o
    match e : y.thrs[i]? with
    | none => rw [e] at o; exact absurd trivial o
    | some p =>
      rw [e] at g o
      obtain ⟨y', a, b⟩ := moves (w := w) (chunk := chunk) e o (easy_typed g)
      exact ⟨y', a, by rw [← e]; exact b⟩
  · intro y y' g o s
    rcases own_step i s with h | ⟨p, q, e, e', n⟩
    · exact Or.inl h
    · rw [e] at g o
      simp only [e, e']
      exact Or.inr (easy_next n g o)

theorem apnd_within {chunk w i n : Nat} (hc : 0 < chunk) {y : Sys α} (g : apnd y.thrs[i]?) (h : apndLeft chunk y.thrs[i]? ≤ n) :
    Within (Step chunk w) (fun y : Sys α => y.thrs[i]?) OutOrGrow n y := by
  refine within_of' (apndLeft chunk) apnd ?_ ?_ ?_ g h
  · intro p g o
    match p with
    | none => exact absurd trivial o
    | some p => cases p <;> first | exact absurd trivial o | exact absurd g id | simp [apndLeft]
  · intro y g o
    match e : y.thrs[i]? with
    | none => rw [e] at o; exact absurd trivial o
    | some p =>
      rw [e] at g o
      obtain ⟨y', a, b⟩ := moves (w := w) (chunk := chunk) e (fun h => o (by cases p <;> trivial)) (apnd_typed g)
      exact ⟨y', a, by rw [← e]; exact b⟩
  · intro y y' g o s
    rcases own_step i s with h | ⟨p, q, e, e', n⟩
    · exact Or.inl h
    · rw [e] at g o
      simp only [e, e']
      exact Or.inr (apnd_next hc n g o)

/-- **C129, lookups and replacements.**  Whatever the other threads do, the thread is never held up, and from the beginning of the call `GetCount` is over with its 2nd step, `GetElementAtIndex` with its 3rd, `ReplaceElementAtIndex` with its 7th and
`ReplaceExactElementAtIndex` with its 6th. -/
theorem C129_wait_free (chunk w i : Nat) (y : Sys α) (g : G) :
    (y.thrs[i]? = some (begin g .count) → Mine chunk w i 2 y) ∧
    (∀ j, y.thrs[i]? = some (begin g (.get j)) → Mine chunk w i 3 y) ∧
    (∀ j x, y.thrs[i]? = some (begin g (.replace j x)) → Mine chunk w i 7 y) ∧
    (∀ j x old, y.thrs[i]? = some (begin g (.exact j x old)) → Mine chunk w i 6 y) :=
  ⟨fun h => easy_within (by rw [h]; trivial) (by rw [h]; simp [begin, easyLeft]), fun j h => easy_within (by rw [h]; trivial) (by rw [h]; simp [begin, easyLeft]),
    fun j x h => easy_within (by rw [h]; trivial) (by rw [h]; simp [begin, easyLeft]), fun j x old h => easy_within (by rw [h]; trivial) (by rw [h]; simp [begin, easyLeft])⟩

/-- **C129, appends.**  Whatever the other threads do, the thread is never held up, and with its `chunk + 6`-th step from the beginning `AppendElement` has returned or found that new data is needed. -/
theorem C129_append (chunk w i : Nat) (hc : 0 < chunk) (y : Sys α) (g : G) (x : α) (h : y.thrs[i]? = some (begin g (.append x))) :
    Within (Step chunk w) (fun y : Sys α => y.thrs[i]?) OutOrGrow (chunk + 6) y :=
  apnd_within hc (by rw [h]; trivial) (by rw [h]; simp [begin, apndLeft])

theorem typed_next {chunk : Nat} {y : Sys α} {p q : PC α} (n : Next chunk y p q) (h : Typed p) : Typed q := by
  cases n
  case start c => cases c <;> first | trivial | exact Or.inl rfl | exact Or.inr ⟨_, rfl⟩
  case mdCount g' c b m k => cases c <;> simp only [counted] <;> first | trivial | (split <;> trivial)
  case cpFail g c b m n max got => cases c <;> trivial
  all_goals first | exact h | trivial

theorem typed_reach {chunk w n : Nat} {y : Sys α} (h : Reach chunk w n y) : ∀ (i : Nat) (p : PC α), y.thrs[i]? = some p → Typed p := by
  induction h with
  | init =>
    intro i p h
    have := List.mem_of_getElem? h
    simp [init] at this
    rw [this.2]
    trivial
  | step h s _ ih =>
    intro i p e
    rcases own_step i s with k | ⟨p', q, e1, e2, n⟩
    · exact ih i p (k ▸ e)
    · rw [e2] at e
      injection e with e
      subst e
      exact typed_next n (ih i p' e1)

/-- **C129, all calls.**  No thread in a call is ever without a step to make: what waits does so by trying again. -/
theorem C129_no_deadlock (chunk w n : Nat) (y : Sys α) (h : Reach chunk w n y) (i : Nat) (p : PC α) (hi : y.thrs[i]? = some p) (hn : p ≠ .idle) (hf : p ≠ .fault) :
    ∃ y', Step chunk w y y' ∧ y'.thrs[i]? ≠ some p := by
  obtain ⟨y', a, b⟩ := moves (chunk := chunk) (w := w) hi (by cases p <;> first | exact fun h => h | exact absurd rfl hn | exact absurd rfl hf) (typed_reach h i p hi)
  exact ⟨y', a, hi ▸ b⟩

/-- An execution of other threads than `i`. -/
inductive Others (chunk w i : Nat) (y : Sys α) : Sys α → Prop
  | refl : Others chunk w i y y
  | step {z z' : Sys α} : Others chunk w i y z → Step chunk w z z' → Calm w z' → z'.thrs[i]? = z.thrs[i]? → Others chunk w i y z'

/-- The thread is between its increment and its decrement of `modify`: in a replacement, or in an append. -/
def Changing : PC α → Prop
  | .md1 _ _ | .md2 _ _ _ _ | .rp3 _ _ _ _ | .rp4 _ _ _ _ | .rx3 _ _ _ _ _ | .ap3 _ _ _ _ _ _ | .ap4 _ _ _ _ _ | .up _ _ _ _ | .fi _ _ _ _ | .af _ _ _ _ _ _ => True
  | _ => False

/-- **C129, what waits.**  As documented, while a thread is inside a replacement or an append, and for ever if it stops there, the data is not exchanged, no matter how many steps the others make: none of them removes or inserts an element or gets new data for
an append.  (Fewer than 2^32 threads.) -/
theorem C129_resize_waits [DecidableEq α] (chunk w n : Nat) (hc : 0 < chunk) (hw : n < w) (y : Sys α) (h : Reach chunk w n y) (i : Nat) (p : PC α) (hi : y.thrs[i]? = some p) (hp : Changing p) (z : Sys α)
    (hz : Others chunk w i y z) : z.data = y.data ∧ ∃ l, z.ops = y.ops ++ l ∧ ∀ c ∈ l, (∃ j x, c = .replace j x) ∨ (∃ j x old, c = .exact j x old) ∨ ∃ x, c = .append x := by
  have key : Reach chunk w n z ∧ z.thrs[i]? = some p ∧ z.data = y.data ∧ ∃ l, z.ops = y.ops ++ l ∧ ∀ c ∈ l, (∃ j x, c = .replace j x) ∨ (∃ j x old, c = .exact j x old) ∨ ∃ x, c = .append x := by
    induction hz with
    | refl => exact ⟨h, hi, rfl, [], by simp, by simp⟩
    | @step z z' _ s k e ih =>
      obtain ⟨r, t, d, l, hl, ha⟩ := ih
      have I := (r.inv hc hw).1
      have hold : 0 < z.modify ∧ z.modify < w := by
        have h1 := le_sumBy PC.hold t
        have h2 : p.hold = 1 := by cases p <;> first | rfl | exact absurd hp id
        have h3 : sumBy PC.hold z.thrs ≤ z.thrs.length := SharedRes.sumBy_le _ (fun a => by cases a <;> simp [PC.hold]) _
        have := I.modi
        have := I.len
        omega
      refine ⟨r.step s k, e.trans t, ?_⟩
      have same : z'.data = z.data → z'.ops = z.ops → z'.data = y.data ∧ ∃ l, z'.ops = y.ops ++ l ∧ ∀ c ∈ l, (∃ j x, c = .replace j x) ∨ (∃ j x old, c = .exact j x old) ∨ ∃ x, c = .append x :=
        fun a b => ⟨a.trans d, l, b.trans hl, ha⟩
      have more : ∀ c, z'.data = z.data → z'.ops = z.ops ++ [c] → ((∃ j x, c = .replace j x) ∨ (∃ j x old, c = .exact j x old) ∨ ∃ x, c = .append x) →
          z'.data = y.data ∧ ∃ l, z'.ops = y.ops ++ l ∧ ∀ c ∈ l, (∃ j x, c = .replace j x) ∨ (∃ j x old, c = .exact j x old) ∨ ∃ x, c = .append x :=
        fun c a b o => ⟨a.trans d, l ++ [c], by rw [b, hl, List.append_assoc], fun c' hc' => by
          rcases List.mem_append.1 hc' with q | q
          · exact ha c' q
          · rw [List.mem_singleton.1 q]; exact o⟩
      cases s with
      | cpCas _ _ q =>
        have := q.1
        rw [Nat.mod_eq_of_lt hold.2] at this
        omega
      | rpXchg _ _ _ => exact more _ rfl rfl (Or.inl ⟨_, _, rfl⟩)
      | rxCas _ _ _ => exact more _ rfl rfl (Or.inr (Or.inl ⟨_, _, _, rfl⟩))
      | apStore _ _ _ _ => exact more _ rfl rfl (Or.inr (Or.inr ⟨_, rfl⟩))
      | _ => exact same rfl rfl
  exact key.2.2

/-- Writes the state out. -/
local macro "nf" h:ident : tactic => `(tactic| simp [Sys.go, Sys.ret, Sys.put, Sys.publish, Sys.swapped, Sys.active, PC.g?, Sys.lag, PC.lag, init, begin, counted, maxCount, Call.build, Call.resize, Call.refused, retry,
  List.replicate] at $h:ident)

/-- A map with one element: thread 0 is in `ReplaceElementAtIndex`, thread 1 in `RemoveElementAtIndex` is about to exchange the data, and fails. -/
example : ∃ y z : Sys Nat, Reach 2 (2 ^ 32) 2 y ∧ y.thrs[0]? = some (.md1 ⟨1, 1⟩ (.replace 0 5)) ∧ Changing (.md1 ⟨1, 1⟩ (.replace 0 5) : PC Nat) ∧
    y.thrs[1]? = some (.cp ⟨2, 1⟩ (.remove 0) 0 1 0 2 []) ∧ Others 2 (2 ^ 32) 0 y z ∧ z.thrs[1]? = some (.wr0 ⟨2, 1⟩ (.remove 0)) := by
  have c0 : ∀ {y : Sys Nat}, y.mutate < 2 ^ 32 → Calm (2 ^ 32) y := fun h p _ m _ => by omega
  have h := Reach.init (α := Nat) (chunk := 2) (w := 2 ^ 32) (n := 2)
  have h := h.step (Step.start (i := 0) (.append 10) rfl) (c0 (by decide))
  nf h
  have h := h.step (Step.mdInc (i := 0) rfl) (c0 (by decide))
  nf h
  have h := h.step (Step.mdPtr (i := 0) rfl) (c0 (by decide))
  nf h
  have h := h.step (Step.mdCount (i := 0) rfl rfl) (c0 (by decide))
  nf h
  have h := h.step (Step.apStore (i := 0) rfl (by decide) rfl rfl) (c0 (by decide))
  nf h
  have h := h.step (Step.apCount (i := 0) rfl rfl) (c0 (by decide))
  nf h
  have h := h.step (Step.upInc (i := 0) rfl) (c0 (by decide))
  nf h
  have h := h.step (Step.fiDec (i := 0) rfl) (c0 (by decide))
  nf h
  have h := h.step (Step.start (i := 0) (.replace 0 5) rfl) (c0 (by decide))
  nf h
  have h := h.step (Step.start (i := 1) (.remove 0) rfl) (c0 (by decide))
  nf h
  have h := h.step (Step.mdInc (i := 0) rfl) (c0 (by decide))
  nf h
  have h := h.step (Step.wrPtr (i := 1) rfl) (c0 (by decide))
  nf h
  have h := h.step (Step.wrCopy (i := 1) rfl rfl (by decide)) (c0 (by decide))
  nf h
  exact ⟨_, _, h, rfl, trivial, rfl, .step .refl (.cpFail (i := 1) rfl (by decide) (by decide)) (c0 (by decide)) rfl, rfl⟩

/-- Calls of the four kinds begin in reachable states. -/
example : ∃ y : Sys Nat, Reach 2 (2 ^ 32) 4 y ∧ y.thrs[0]? = some (begin ⟨0, 0⟩ .count) ∧ y.thrs[1]? = some (begin ⟨1, 0⟩ (.get 3)) ∧ y.thrs[2]? = some (begin ⟨2, 0⟩ (.exact 0 7 8)) ∧
    y.thrs[3]? = some (begin ⟨3, 0⟩ (.append 9)) := by
  have c0 : ∀ {y : Sys Nat}, y.mutate < 2 ^ 32 → Calm (2 ^ 32) y := fun h p _ m _ => by omega
  exact ⟨_, .step (.step (.step (.step .init (.start (i := 0) .count rfl) (c0 (by decide))) (.start (i := 1) (.get 3) rfl) (c0 (by decide))) (.start (i := 2) (.exact 0 7 8) rfl) (c0 (by decide)))
    (.start (i := 3) (.append 9) rfl) (c0 (by decide)), rfl, rfl, rfl, rfl⟩

#print axioms C129_wait_free
#print axioms C129_append
#print axioms C129_no_deadlock
#print axioms C129_resize_waits

end Verif.IndexMapProgress
