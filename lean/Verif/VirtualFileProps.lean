import Verif.VirtualFile
import Verif.ArrayProps
import Verif.FileHandleProps
/-!
# C64: virtual files
-/
namespace Verif.VirtualFile
open Verif.Array (Arr Cell Fault Src Good ok_bind deref_eq)
open Verif.FileHandle (Mode Result W)

/-- A file with its handles' offsets; `FileHandle.Spec.step` is the effect of a call on a list of bytes (C63). -/
structure Files where
  bytes : List UInt8
  offs : Nat → Nat

def Files.step (f : Files) (h : Nat) (op : FileHandle.Spec.Op) : Files × List UInt8 :=
  let (g, d) := FileHandle.Spec.step ⟨f.bytes, f.offs h⟩ op
  (⟨g.bytes, fun k => if k = h then g.off else f.offs k⟩, d)

def Files.run (f : Files) : List (Nat × FileHandle.Spec.Op) → Files × List (List UInt8)
  | [] => (f, [])
  | (h, op) :: ops =>
    let (f, d) := f.step h op
    let (f, ds) := f.run ops
    (f, d :: ds)

/-- The handle was opened for the call, offsets stay below 2^64, and the call is none of those refuted below. -/
def Fits (mode : Nat → Mode) (f : Files) (h : Nat) : FileHandle.Spec.Op → Prop
  | .read at' _ upd => mode h ≠ .write ∧ (upd = true → at'.getD (f.offs h) + f.bytes.length < W)
  | .overwrite at' d _ => mode h ≠ .read ∧ at'.getD (f.offs h) + d.length < W ∧
      (d ≠ [] → at'.getD (f.offs h) < f.bytes.length → at'.getD (f.offs h) + d.length ≠ f.bytes.length)
  | .insert at' d _ => mode h = .update ∧ f.bytes.length + d.length < W ∧ (d ≠ [] → at'.getD (f.offs h) < f.bytes.length)
  | .remove at' n upd => mode h = .update ∧ (upd = true → at'.getD (f.offs h) + n < W) ∧ (n = 0 → at'.getD (f.offs h) = 0 → f.bytes = [])
  | .seek _ => True

def FitsAll (mode : Nat → Mode) (f : Files) : List (Nat × FileHandle.Spec.Op) → Prop
  | [] => True
  | (h, op) :: ops => Fits mode f h op ∧ FitsAll mode (f.step h op).1 ops

/-! ## The array -/

theorem append_good {a : Arr UInt8} {l} (g : Good a l) (src : Src UInt8) (hs : src.count ≠ 0) :
    ∃ a', append a src true = .ok a' ∧ Good a' (l ++ src.cells) := by
  obtain ⟨a', r, h1, -, h3, h4, -⟩ := Array.step_appendN g src true hs
  have hr : r ≠ .sizeMax := fun e => by have := (h4 e).1; simp [Array.Spec.refused] at this
  rw [if_neg hr] at h3
  exact ⟨a', by unfold append; rw [show Array.appendN a src true = .ok (a', r) from h1]; rfl, h3⟩

theorem replace_good {a : Arr UInt8} {l} (g : Good a l) (i : Nat) (d : List UInt8) (hd : d.length ≠ 0) (hi : i + d.length ≤ l.length) :
    ∃ a' r, Array.replaceN a i (.buf d) = .ok (a', r) ∧ Good a' (l.take i ++ d.map some ++ l.drop (i + d.length)) := by
  obtain ⟨a', r, h1, -, h3, h4, -⟩ := Array.step_replaceN g i (.buf d) hd hi
  have hr : r ≠ .sizeMax := fun e => by have := (h4 e).1; simp [Array.Spec.refused] at this
  rw [if_neg hr] at h3
  exact ⟨a', r, h1, h3⟩

theorem insert_good {a : Arr UInt8} {l} (g : Good a l) (i : Nat) (d : List UInt8) (hd : d.length ≠ 0) (hi : i < l.length) :
    ∃ a' r, Array.insertN a i (.buf d) true = .ok (a', r) ∧ Good a' (l.take i ++ d.map some ++ l.drop i) := by
  obtain ⟨a', r, h1, -, h3, h4, -⟩ := Array.step_insertN g i (.buf d) true hd hi
  have hr : r ≠ .sizeMax := fun e => by have := (h4 e).1; simp [Array.Spec.refused] at this
  rw [if_neg hr] at h3
  exact ⟨a', r, h1, h3⟩

theorem memset_good {a : Arr UInt8} {l} (g : Good a l) (i n : Nat) (hi : i + n ≤ l.length) :
    ∃ a', memset a i n = .ok a' ∧ Good a' (l.take i ++ List.replicate n (some 0) ++ l.drop (i + n)) := by
  by_cases hn : n = 0
  · subst hn
    refine ⟨a, rfl, ?_⟩
    rw [List.replicate_zero, List.append_nil, Nat.add_zero, List.take_append_drop]
    exact g
  · obtain ⟨a', r, h1, h2⟩ := replace_good g i (List.replicate n 0) (by simpa using hn) (by simpa using hi)
    rw [List.map_replicate, List.length_replicate] at h2
    refine ⟨a', ?_, h2⟩
    unfold Array.replaceN at h1
    rw [if_pos ⟨by have := g.cnt; omega, by simpa [Src.count] using hn⟩] at h1
    unfold memset
    rw [if_neg hn]
    cases hdr : Array.deref a with
    | error e => rw [hdr] at h1; cases h1
    | ok c =>
      rw [hdr, ok_bind] at h1
      rw [ok_bind]
      simp only [Array.writeSrc, List.map_replicate] at h1
      cases hwr : Array.write c i (List.replicate n (some 0)) with
      | error e => rw [hwr] at h1; cases h1
      | ok c' => rw [hwr] at h1; rw [ok_bind]; cases h1; rfl

theorem extend_good {a : Arr UInt8} {l} (g : Good a l) {o n : Nat} (hn : n ≠ 0) (ho : l.length ≤ o) (hw : o + n < W) :
    ∃ a', extend a o n true = .ok a' ∧ Good a' (l ++ List.replicate (o - l.length) (some 0) ++ List.replicate n none) := by
  have hc := g.cnt
  have hm : (o - a.count + n) % W = o - l.length + n := by rw [hc, Nat.mod_eq_of_lt (by omega)]
  obtain ⟨a1, h1, g1⟩ := append_good g (.null ((o - a.count + n) % W)) (by simp only [Src.count, hm]; omega)
  simp only [Src.cells, hm] at g1
  obtain ⟨a2, h2, g2⟩ := memset_good g1 l.length (o - l.length) (by simp)
  refine ⟨a2, ?_, ?_⟩
  · unfold extend
    rw [h1, ok_bind, hc, h2]
  · rw [List.take_left, List.drop_append, List.drop_eq_nil_of_le (by omega), List.nil_append, List.drop_replicate,
      show o - l.length + n - (l.length + (o - l.length) - l.length) = n by omega] at g2
    exact g2

theorem room_good {a : Arr UInt8} {B : List UInt8} (g : Good a (B.map some)) {o n : Nat} (hn : n ≠ 0) (hw : o + n < W) (he : o < B.length → o + n ≠ B.length) :
    ∃ a' l, room a o n true = .ok a' ∧ Good a' l ∧ o + n ≤ l.length ∧ l.take o = (B.take o ++ List.replicate (o - B.length) 0).map some ∧ l.drop (o + n) = (B.drop (o + n)).map some := by
  have hc := g.cnt
  rw [List.length_map] at hc
  unfold room
  by_cases h1 : o ≥ a.count
  · rw [if_pos h1]
    obtain ⟨a', h2, g2⟩ := extend_good g hn (by rw [List.length_map]; omega) hw
    rw [List.length_map] at g2
    refine ⟨a', _, h2, g2, by simp; omega, ?_, ?_⟩
    · rw [List.take_append_of_le_length (by simp; omega), List.take_of_length_le (by simp; omega), List.take_of_length_le (l := B) (by omega)]
      simp
    · rw [List.drop_eq_nil_of_le (by simp; omega), List.drop_eq_nil_of_le (by omega)]; rfl
  · rw [if_neg h1, Nat.mod_eq_of_lt hw]
    by_cases h2 : o + n ≥ a.count
    · rw [if_pos h2]
      have := he (by omega)
      obtain ⟨a', h3, g3⟩ := append_good g (.null (o + n - a.count)) (by simp only [Src.count]; omega)
      simp only [Src.cells] at g3
      refine ⟨a', _, h3, g3, by simp; omega, ?_, ?_⟩
      · rw [List.take_append_of_le_length (by simp; omega), show o - B.length = 0 by omega]
        simp [List.map_take]
      · rw [List.drop_eq_nil_of_le (by simp; omega), List.drop_eq_nil_of_le (by omega)]; rfl
    · rw [if_neg h2]
      refine ⟨a, _, rfl, g, by simp; omega, ?_, ?_⟩
      · rw [show o - B.length = 0 by omega]; simp [List.map_take]
      · rw [List.map_drop]

theorem cut_good {a : Arr UInt8} {B : List UInt8} (g : Good a (B.map some)) {o n : Nat} (h0 : n = 0 → o = 0 → B = []) :
    ∃ a', cut a o n = .ok a' ∧ Good a' ((FileHandle.Spec.remove B o n).map some) := by
  have hc := g.cnt
  rw [List.length_map] at hc
  unfold cut FileHandle.Spec.remove
  by_cases h1 : o < a.count
  · rw [if_pos h1]
    by_cases hn : n = 0
    · subst hn
      have ho : o ≠ 0 := fun e => by have := h0 rfl e; subst this; simp at hc; omega
      rw [Nat.min_zero, Nat.add_zero, List.take_append_drop]
      obtain ⟨cells, hd, hle, -⟩ := g.cells (by rw [List.length_map]; omega)
      refine ⟨a, ?_, g⟩
      unfold Array.removeN
      rw [if_pos ⟨by omega, by omega⟩, deref_eq hd, ok_bind]
      unfold Array.memmove
      rw [if_pos (by omega), Array.write_ok (by simp; omega), ok_bind]
      have e : cells.take o ++ (cells.drop (o + 0)).take (a.count - (o + 0)) ++ cells.drop (o + ((cells.drop (o + 0)).take (a.count - (o + 0))).length) = cells := by
        rw [Nat.add_zero, List.append_assoc, List.length_take, List.length_drop, show min (a.count - o) (cells.length - o) = a.count - o by omega, ← List.drop_drop,
          List.take_append_drop, List.take_append_drop]
      rw [e]
      show Except.ok _ = Except.ok a
      cases a
      simp only at hd
      subst hd
      rfl
    · obtain ⟨a', r, h2, -, g2, h4, -⟩ := Array.step_removeN g o (min (a.count - o) n) (by omega) (by rw [List.length_map]; omega)
      have hr : r ≠ .sizeMax := fun e => by have := (h4 e).1; simp [Array.Spec.refused] at this
      rw [if_neg hr] at g2
      refine ⟨a', by rw [show Array.removeN a o (min (a.count - o) n) = .ok (a', r) from h2]; rfl, ?_⟩
      have e : B.drop (o + min (a.count - o) n) = B.drop (o + n) := by
        rcases Nat.le_total (a.count - o) n with h | h
        · rw [Nat.min_eq_left h, List.drop_eq_nil_of_le (by omega), List.drop_eq_nil_of_le (by omega)]
        · rw [Nat.min_eq_right h]
      have e2 : Array.Spec.edit (B.map some) (.removeN o (min (a.count - o) n)) = (B.take o ++ B.drop (o + n)).map some := by
        simp only [Array.Spec.edit, List.map_append, List.map_take, List.map_drop] at *
        rw [← List.map_drop, e, List.map_drop]
      rw [e2] at g2
      exact g2
  · rw [if_neg h1, List.take_of_length_le (by omega), List.drop_eq_nil_of_le (by omega), List.append_nil]
    exact ⟨a, rfl, g⟩

theorem look_good {a : Arr UInt8} {B : List UInt8} (g : Good a (B.map some)) (o n : Nat) : look a o n = .ok (((B.drop o).take n).map some) := by
  have hc := g.cnt
  rw [List.length_map] at hc
  unfold look
  by_cases h1 : o < a.count
  · rw [if_pos h1]
    obtain ⟨cells, hd, hle, -⟩ := g.cells (by rw [List.length_map]; omega)
    unfold fetch
    rw [deref_eq hd, ok_bind, if_pos (by omega)]
    have e : (cells.drop o).take (min (a.count - o) n) = ((B.drop o).take n).map some := by
      apply List.ext_getElem?
      intro i
      rw [List.getElem?_take, List.getElem?_map, List.getElem?_take, List.getElem?_drop, List.getElem?_drop]
      by_cases h2 : i < min (a.count - o) n
      · rw [if_pos h2, if_pos (by omega)]
        have hb : B[o + i]? = some (B[o + i]'(by omega)) := List.getElem?_eq_getElem (by omega)
        have := g.agree cells hd (o + i) (B[o + i]'(by omega)) (by rw [List.getElem?_map, hb]; rfl)
        rw [this, hb]; rfl
      · rw [if_neg h2]
        split
        · rw [List.getElem?_eq_none (by omega)]; rfl
        · rfl
    rw [e]; rfl
  · rw [if_neg h1, List.drop_eq_nil_of_le (by omega), List.take_nil]; rfl

/-! ## The calls -/

/-- The system and the file agree. -/
structure Rel (mode : Nat → Mode) (y : Sys) (f : Files) : Prop where
  mode : y.mode = mode
  good : Good y.file (f.bytes.map some)
  offs : y.off = f.offs

/-- A call at the current offset. -/
def Does (y : Sys) (h : Nat) (f : Sys → Except Fault (Result × List (Cell UInt8) × Sys)) (a : List UInt8) (d : List UInt8) (o : Nat) : Prop :=
  ∃ a', f y = .ok (.success, d.map some, setOffset { y with file := a' } h o) ∧ Good a' (a.map some)

theorem from_does {mode : Nat → Mode} {y : Sys} {f : Files} (r : Rel mode y f) (h : Nat) (at' : Option Nat) (upd : Bool)
    (g : Sys → Except Fault (Result × List (Cell UInt8) × Sys)) (b d : List UInt8) (e : Nat)
    (hd : ∀ z : Sys, z.mode = mode → z.file = y.file → z.off h = at'.getD (f.offs h) → Does z h g b d (if upd then e else z.off h)) :
    ∃ y', fromOffset y h at' upd g = .ok (.success, d.map some, y') ∧ Rel mode y' ⟨b, fun k => if k = h then (if upd then e else f.offs h) else f.offs k⟩ := by
  cases at' with
  | none =>
    obtain ⟨a', h1, h2⟩ := hd y r.mode rfl (by rw [r.offs]; rfl)
    refine ⟨_, h1, r.mode, h2, ?_⟩
    simp only [setOffset, r.offs]
  | some o =>
    obtain ⟨a', h1, h2⟩ := hd (setOffset y h o) r.mode rfl (by simp [setOffset])
    cases upd
    · refine ⟨setOffset (setOffset { setOffset y h o with file := a' } h ((setOffset y h o).off h)) h (y.off h), by simp only [fromOffset]; rw [h1, ok_bind]; rfl, r.mode, h2, ?_⟩
      simp only [setOffset, r.offs, Bool.false_eq_true, if_false]
      funext k
      split <;> simp_all
    · refine ⟨setOffset { setOffset y h o with file := a' } h e, by simp only [fromOffset]; rw [h1, ok_bind]; rfl, r.mode, h2, ?_⟩
      simp only [setOffset, r.offs, if_true]
      funext k
      split <;> simp_all

theorem setOffset_self (y : Sys) (h : Nat) : setOffset { y with file := y.file } h (y.off h) = y := by
  cases y
  simp only [setOffset]
  congr
  funext k
  split
  · rename_i h1; rw [h1]
  · rfl

theorem step_good {mode : Nat → Mode} {y : Sys} {f : Files} (r : Rel mode y f) (h : Nat) (op : FileHandle.Spec.Op) (hf : Fits mode f h op) :
    ∃ y', step y h (fun _ => true) op = .ok (.success, (f.step h op).2.map some, y') ∧ Rel mode y' (f.step h op).1 := by
  cases op with
  | read at' n upd =>
    obtain ⟨hm, hu⟩ := hf
    refine from_does r h at' upd (fun y => read y h n upd) f.bytes ((f.bytes.drop (at'.getD (f.offs h))).take n) (at'.getD (f.offs h) + ((f.bytes.drop (at'.getD (f.offs h))).take n).length) ?_
    intro z hz1 hz2 hz3
    have hg : Good z.file (f.bytes.map some) := hz2 ▸ r.good
    suffices key : ∃ a', read z h n upd = .ok (.success, ((f.bytes.drop (at'.getD (f.offs h))).take n).map some, setOffset { z with file := a' } h
        (if upd then at'.getD (f.offs h) + ((f.bytes.drop (at'.getD (f.offs h))).take n).length else z.off h)) ∧ Good a' (f.bytes.map some) from key
    unfold read
    rw [if_neg (show ¬ z.mode h = .write by rw [hz1]; exact hm)]
    by_cases hn : n = 0
    · subst hn
      refine ⟨z.file, ?_, hg⟩
      rw [if_pos rfl, List.take_zero, List.length_nil, Nat.add_zero, ← hz3]
      rw [show (if upd = true then z.off h else z.off h) = z.off h by split <;> rfl, setOffset_self]
      rfl
    · refine ⟨z.file, ?_, hg⟩
      rw [if_neg hn, look_good hg, ok_bind, hz3]
      simp only [finish, List.length_map]
      cases upd
      · rfl
      · have : ((f.bytes.drop (at'.getD (f.offs h))).take n).length ≤ f.bytes.length := by simp only [List.length_take, List.length_drop]; omega
        rw [if_pos rfl, if_pos rfl, Nat.mod_eq_of_lt (by have := hu rfl; omega)]
        rfl
  | overwrite at' d upd =>
    obtain ⟨hm, hw, he⟩ := hf
    refine from_does r h at' upd (fun y => do
      let (r, y) ← overwrite y h d true upd
      return (r, [], y)) (FileHandle.Spec.overwrite f.bytes (at'.getD (f.offs h)) d) [] (at'.getD (f.offs h) + d.length) ?_
    intro z hz1 hz2 hz3
    have hg : Good z.file (f.bytes.map some) := hz2 ▸ r.good
    suffices key : ∃ a', overwrite z h d true upd = .ok (.success, setOffset { z with file := a' } h (if upd then at'.getD (f.offs h) + d.length else z.off h)) ∧
        Good a' ((FileHandle.Spec.overwrite f.bytes (at'.getD (f.offs h)) d).map some) by
      obtain ⟨a', k1, k2⟩ := key
      exact ⟨a', by dsimp only; rw [k1]; rfl, k2⟩
    unfold overwrite
    rw [if_neg (show ¬ z.mode h = .read by rw [hz1]; exact hm)]
    by_cases hn : d.length = 0
    · have hd := List.length_eq_zero_iff.1 hn
      subst hd
      refine ⟨z.file, ?_, hg⟩
      rw [if_pos hn, List.length_nil, Nat.add_zero, ← hz3]
      rw [show (if upd = true then z.off h else z.off h) = z.off h by split <;> rfl, setOffset_self]
    · have hd : d ≠ [] := fun e => hn (by rw [e]; rfl)
      obtain ⟨a1, l, h1, g1, hl, ht, hdr⟩ := room_good hg hn hw (he hd)
      obtain ⟨a2, r2, h2, g2⟩ := replace_good g1 (at'.getD (f.offs h)) d hn hl
      refine ⟨a2, ?_, ?_⟩
      · rw [if_neg hn, hz3, h1, ok_bind, h2, ok_bind]
        cases upd
        · rfl
        · simp only [finish, if_true]; rw [Nat.mod_eq_of_lt hw]; rfl
      · rw [ht, hdr] at g2
        unfold FileHandle.Spec.overwrite
        rw [if_neg hd, List.map_append, List.map_append]
        exact g2
  | insert at' d upd =>
    obtain ⟨hm, hw, he⟩ := hf
    refine from_does r h at' upd (fun y => do
      let (r, y) ← insert y h d true true true upd
      return (r, [], y)) (FileHandle.Spec.insert f.bytes (at'.getD (f.offs h)) d) [] (at'.getD (f.offs h) + d.length) ?_
    intro z hz1 hz2 hz3
    have hg : Good z.file (f.bytes.map some) := hz2 ▸ r.good
    suffices key : ∃ a', insert z h d true true true upd = .ok (.success, setOffset { z with file := a' } h (if upd then at'.getD (f.offs h) + d.length else z.off h)) ∧
        Good a' ((FileHandle.Spec.insert f.bytes (at'.getD (f.offs h)) d).map some) by
      obtain ⟨a', k1, k2⟩ := key
      exact ⟨a', by dsimp only; rw [k1]; rfl, k2⟩
    unfold insert
    rw [if_neg (show ¬ z.mode h = .read by rw [hz1, hm]; decide)]
    by_cases hn : d.length = 0
    · have hd := List.length_eq_zero_iff.1 hn
      subst hd
      refine ⟨z.file, ?_, by simpa [FileHandle.Spec.insert, ← List.map_append] using hg⟩
      rw [if_pos hn, List.length_nil, Nat.add_zero, ← hz3]
      rw [show (if upd = true then z.off h else z.off h) = z.off h by split <;> rfl, setOffset_self]
    · have hd : d ≠ [] := fun e => hn (by rw [e]; rfl)
      have ho := he hd
      have hc := hg.cnt
      rw [List.length_map] at hc
      obtain ⟨a2, r2, h2, g2⟩ := insert_good hg (at'.getD (f.offs h)) d hn (by rw [List.length_map]; exact ho)
      refine ⟨a2, ?_, ?_⟩
      · rw [if_neg hn, if_neg (show ¬ z.mode h ≠ .update by rw [hz1, hm]; exact fun h => h rfl), hz3]
        have : insertRoom z.file (at'.getD (f.offs h)) d true true = .ok z.file := by unfold insertRoom; rw [if_neg (by omega)]
        rw [this, ok_bind, h2, ok_bind]
        cases upd
        · rfl
        · simp only [finish, if_true]; rw [Nat.mod_eq_of_lt (by omega)]; rfl
      · unfold FileHandle.Spec.insert
        rw [List.map_append, List.map_append, List.map_take, List.map_drop]
        exact g2
  | remove at' n upd =>
    obtain ⟨hm, hw, he⟩ := hf
    refine from_does r h at' upd (fun y => do
      let (r, y) ← remove y h n upd
      return (r, [], y)) (FileHandle.Spec.remove f.bytes (at'.getD (f.offs h)) n) [] (at'.getD (f.offs h) + n) ?_
    intro z hz1 hz2 hz3
    have hg : Good z.file (f.bytes.map some) := hz2 ▸ r.good
    suffices key : ∃ a', remove z h n upd = .ok (.success, setOffset { z with file := a' } h (if upd then at'.getD (f.offs h) + n else z.off h)) ∧
        Good a' ((FileHandle.Spec.remove f.bytes (at'.getD (f.offs h)) n).map some) by
      obtain ⟨a', k1, k2⟩ := key
      exact ⟨a', by dsimp only; rw [k1]; rfl, k2⟩
    unfold remove
    rw [if_neg (show ¬ z.mode h ≠ .update by rw [hz1, hm]; exact fun h => h rfl)]
    obtain ⟨a', h1, g1⟩ := cut_good hg he
    refine ⟨a', ?_, g1⟩
    rw [hz3, h1, ok_bind]
    cases upd
    · rfl
    · simp only [finish, if_true]; rw [Nat.mod_eq_of_lt (hw rfl)]; rfl
  | seek o =>
    exact ⟨_, rfl, r.mode, r.good, by simp only [setOffset, r.offs]; rfl⟩

/-- **C64**, partial.  Every history of calls that `Fits` on any number of handles of a new virtual file succeeds throughout and returns what the same calls return on one list of bytes with an offset for each handle; and what is then in
the file are those bytes.  Missing: the calls refuted below. -/
theorem C64_virtual_file_partial (mode : Nat → Mode) (ok : Bool) (y : Sys) (hy : create ok mode = .ok y) (ops : List (Nat × FileHandle.Spec.Op))
    (h : FitsAll mode ⟨[], fun _ => 0⟩ ops) : ∃ y', run y ops = .ok ((Files.run ⟨[], fun _ => 0⟩ ops).2.map fun d => (.success, d.map some), y') ∧
    y'.off = (Files.run ⟨[], fun _ => 0⟩ ops).1.offs ∧ Array.Spec.Shows y'.file ((Files.run ⟨[], fun _ => 0⟩ ops).1.bytes.map some) := by
  have main : ∀ (ops : List (Nat × FileHandle.Spec.Op)) (y : Sys) (f : Files), Rel mode y f → FitsAll mode f ops →
      ∃ y', run y ops = .ok ((f.run ops).2.map fun d => (.success, d.map some), y') ∧ Rel mode y' (f.run ops).1 := by
    intro ops
    induction ops with
    | nil => intro y f r _; exact ⟨y, rfl, r⟩
    | cons op ops ih =>
      intro y f r hf
      obtain ⟨y1, h1, r1⟩ := step_good r op.1 op.2 hf.1
      obtain ⟨y2, h2, r2⟩ := ih y1 _ r1 hf.2
      refine ⟨y2, ?_, r2⟩
      simp only [run]
      rw [h1, ok_bind]
      dsimp only
      rw [h2]
      rfl
  have hr : Rel mode y ⟨[], fun _ => 0⟩ := by
    unfold create at hy
    cases hc : Array.create UInt8 128 ok with
    | error e => rw [hc] at hy; cases hy
    | ok a =>
      rw [hc] at hy
      cases hy
      exact ⟨rfl, Array.good_create hc, rfl⟩
  obtain ⟨y', h1, r1⟩ := main ops y _ hr h
  exact ⟨y', h1, r1.offs, Array.good_shows r1.good⟩

/-- **C64**, what inserting `d` at or behind the end does: the data is inserted where it should be, but as many bytes as it has, of unknown value, and the data once more follow it. -/
theorem C64_insert_at_end_exact (y : Sys) (h : Nat) (B d : List UInt8) (upd : Bool) (hg : Good y.file (B.map some)) (hm : y.mode h = .update) (hd : d ≠ []) (ho : B.length ≤ y.off h)
    (hw : y.off h + d.length < W) : ∃ a', insert y h d true true true upd = .ok (.success, setOffset { y with file := a' } h (if upd then y.off h + d.length else y.off h)) ∧
    Array.Spec.Shows a' ((FileHandle.Spec.overwrite B (y.off h) d).map some ++ List.replicate d.length none ++ d.map some) := by
  have hn : d.length ≠ 0 := fun e => hd (List.length_eq_zero_iff.1 e)
  have hc := hg.cnt
  rw [List.length_map] at hc
  obtain ⟨a1, h1, g1⟩ := extend_good hg hn (by rw [List.length_map]; exact ho) hw
  obtain ⟨a2, h2, g2⟩ := append_good g1 (.buf d) hn
  rw [List.length_map] at g2
  obtain ⟨a3, r3, h3, g3⟩ := insert_good g2 (y.off h) d hn (by simp [Src.cells]; omega)
  refine ⟨a3, ?_, ?_⟩
  · unfold insert
    rw [if_neg (by rw [hm]; decide), if_neg hn, if_neg (by rw [hm]; exact fun h => h rfl)]
    have : insertRoom y.file (y.off h) d true true = .ok a2 := by
      unfold insertRoom
      rw [if_pos (by omega), h1, ok_bind, h2]
    rw [this, ok_bind, h3, ok_bind]
    cases upd
    · rfl
    · simp only [finish, if_true]; rw [Nat.mod_eq_of_lt hw]; rfl
  · have e1 : (B.map some ++ List.replicate (y.off h - B.length) (some 0) ++ List.replicate d.length none ++ (Src.buf d).cells).take (y.off h) =
        B.map some ++ List.replicate (y.off h - B.length) (some 0) := by
      rw [List.append_assoc]
      exact List.take_left' (by simp; omega)
    have e2 : (B.map some ++ List.replicate (y.off h - B.length) (some 0) ++ List.replicate d.length none ++ (Src.buf d).cells).drop (y.off h) =
        List.replicate d.length none ++ d.map some := by
      rw [List.append_assoc]
      exact List.drop_left' (by simp; omega)
    rw [e1, e2] at g3
    have e3 : (FileHandle.Spec.overwrite B (y.off h) d).map some = B.map some ++ List.replicate (y.off h - B.length) (some 0) ++ d.map some := by
      unfold FileHandle.Spec.overwrite
      rw [if_neg hd, List.take_of_length_le ho, List.drop_eq_nil_of_le (by omega)]
      simp
    have := Array.good_shows g3
    rw [e3, List.append_assoc _ (List.replicate _ _)]
    exact this

/-- **C64.** A handle opened for reading does not change the file and one opened for writing neither reads, removes nor inserts: the calls fail and leave everything as it is. -/
theorem C64_modes (y : Sys) (h n : Nat) (d : List UInt8) (ok1 ok2 ok3 upd : Bool) :
    (y.mode h = .read → overwrite y h d ok1 upd = .ok (.failure, y) ∧ insert y h d ok1 ok2 ok3 upd = .ok (.failure, y) ∧ remove y h n upd = .ok (.failure, y)) ∧
    (y.mode h = .write → read y h n upd = .ok (.failure, [], y) ∧ remove y h n upd = .ok (.failure, y) ∧ (d ≠ [] → insert y h d ok1 ok2 ok3 upd = .ok (.failure, y))) := by
  refine ⟨fun hm => ?_, fun hm => ?_⟩
  · refine ⟨?_, ?_, ?_⟩
    · unfold overwrite; rw [if_pos hm]
    · unfold insert; rw [if_pos hm]
    · unfold remove; rw [if_pos (by rw [hm]; decide)]
  · refine ⟨?_, ?_, fun hd => ?_⟩
    · unfold read; rw [if_pos hm]
    · unfold remove; rw [if_pos (by rw [hm]; decide)]
    · unfold insert
      rw [if_neg (by rw [hm]; decide), if_neg (fun e => hd (List.length_eq_zero_iff.1 e)), if_pos (by rw [hm]; decide)]

/-- A new file with one byte, the result of `FSHandleWrite`. -/
def oneByte : Except Fault (Result × Sys) := do
  let y ← create true fun _ => .update
  overwrite y 0 [7] true false

set_option maxRecDepth 4000 in
/-- **C64**, refuted: overwriting a file up to exactly its end fails an assertion (the call asks the array for zero more elements). -/
theorem C64_overwrite_to_end_refuted : ∃ y, oneByte = .ok (.success, y) ∧ overwrite y 0 [8] true false = .error .assertion := ⟨_, rfl, rfl⟩

set_option maxRecDepth 4000 in
/-- **C64**, refuted: removing no bytes at the start of a file fails an assertion. -/
theorem C64_remove_none_refuted : ∃ y, oneByte = .ok (.success, y) ∧ remove y 0 0 false = .error .assertion := ⟨_, rfl, rfl⟩

set_option maxRecDepth 4000 in
/-- **C64**, refuted: a write far behind the end for which there is no memory clears memory outside of the file. -/
theorem C64_write_without_memory_refuted : ∃ y, create true (fun _ => .update) = .ok y ∧ overwrite (setOffset y 0 200) 0 [7] false false = .error .outOfBounds := ⟨_, rfl, rfl⟩

set_option maxRecDepth 4000 in
/-- **C64**, refuted: an insertion for which there is no memory reports success. -/
theorem C64_insert_without_memory_refuted : ∃ y, oneByte = .ok (.success, y) ∧ ∃ y', insert y 0 (List.replicate 128 9) false false false false = .ok (.success, y') ∧ y'.file.count = 1 := ⟨_, rfl, _, rfl, rfl⟩

/-! ## Non-vacuity -/

/-- Two handles, one of which reads what the other has written, inserted and removed. -/
example : FitsAll (fun k => if k = 0 then .update else .read) ⟨[], fun _ => 0⟩
    [(0, .overwrite (some 2) [1, 2, 3] true), (0, .insert (some 3) [9] false), (1, .read none 4 true), (0, .remove (some 0) 2 false), (1, .read none 4 true)] ∧
    (Files.run ⟨[], fun _ => 0⟩ [(0, .overwrite (some 2) [1, 2, 3] true), (0, .insert (some 3) [9] false), (1, .read none 4 true), (0, .remove (some 0) 2 false), (1, .read none 4 true)]).2 =
      [[], [], [0, 0, 1, 9], [], []] := by
  refine ⟨?_, by decide⟩
  simp only [FitsAll, Fits, Files.step, FileHandle.Spec.step, FileHandle.Spec.insert, FileHandle.Spec.remove, FileHandle.Spec.overwrite]
  decide

#print axioms C64_virtual_file_partial
#print axioms C64_insert_at_end_exact
end Verif.VirtualFile
