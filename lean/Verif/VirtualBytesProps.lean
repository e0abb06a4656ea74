import Verif.VirtualBytes
import Verif.VirtualFileProps
/-!
# C150: the direct accesses to a virtual file
-/
namespace Verif.VirtualBytes
open Verif.Array (Arr Cell Fault Src Good ok_bind)
open Verif.FileHandle (W)

/-! ## What is meant, on a list of bytes (`FileHandle.Spec`, C63) -/

/-- The file after a call, and the bytes the call returns. -/
def specStep (B : List UInt8) : Op → List UInt8 × List UInt8
  | .read o n => (B, (B.drop o).take n)
  | .write o d false => (FileHandle.Spec.overwrite B o d, [])
  | .write o d true => (FileHandle.Spec.insert B o d, [])
  | .remove o n => (FileHandle.Spec.remove B o n, [])

def specRun (B : List UInt8) : List Op → List UInt8 × List (List UInt8)
  | [] => (B, [])
  | op :: ops =>
    let (B, d) := specStep B op
    let (B, ds) := specRun B ops
    (B, d :: ds)

/-- The calls the code gets right: writing something, overwriting from a place in the file or its end, inserting no more than there is behind the place (or anything at the end), removing something that
begins in the file. -/
def Fits (B : List UInt8) : Op → Prop
  | .read _ _ => True
  | .write o d false => d ≠ [] ∧ o ≤ B.length
  | .write o d true => d ≠ [] ∧ (o + d.length ≤ B.length ∨ o = B.length)
  | .remove o n => n ≠ 0 ∧ o < B.length ∧ B.length < W

def FitsAll (B : List UInt8) : List Op → Prop
  | [] => True
  | op :: ops => Fits B op ∧ FitsAll (specStep B op).1 ops

/-- `a` is the array of a file that holds `B`: it was created and brought there by calls the code gets right. -/
def Holds (a : Arr UInt8) (B : List UInt8) : Prop :=
  ∃ a0 ops outs, Array.create UInt8 128 true = .ok a0 ∧ FitsAll [] ops ∧ run a0 ops = .ok (a, outs) ∧ (specRun [] ops).1 = B

/-- What the accesses see of the file: its size, and every piece of it. -/
def Seen (a : Arr UInt8) (B : List UInt8) : Prop := size a = B.length ∧ ∀ o n, readBytes a o n = .ok (((B.drop o).take n).map some)

/-! ## The calls -/

theorem seen_of_good {a : Arr UInt8} {B : List UInt8} (g : Good a (B.map some)) : Seen a B :=
  ⟨by have := g.cnt; rwa [List.length_map] at this, fun o n => VirtualFile.look_good g o n⟩

theorem count_of {a : Arr UInt8} {B : List UInt8} (g : Good a (B.map some)) : a.count = B.length := by
  have := g.cnt; rwa [List.length_map] at this

theorem overwrite_good {a : Arr UInt8} {B : List UInt8} (g : Good a (B.map some)) {o : Nat} {d : List UInt8} (hd : d ≠ []) :
    ∃ a', writeBytes a o d false true = .ok a' ∧ Good a' ((B.take o ++ d ++ B.drop (o + d.length)).map some) := by
  have hc := count_of g
  have hdl : d.length ≠ 0 := fun h => hd (List.length_eq_zero_iff.mp h)
  unfold writeBytes
  by_cases h : o < a.count
  · rw [if_pos h]
    have l1 : (d.take (min (a.count - o) d.length)).length = min (a.count - o) d.length := by rw [List.length_take]; omega
    obtain ⟨b, r, e, gb⟩ := VirtualFile.replace_good g o (d.take (min (a.count - o) d.length)) (by rw [l1]; omega) (by rw [l1, List.length_map]; omega)
    dsimp only
    simp only [Bool.false_eq_true, if_false, e, ok_bind, pure, Except.pure]
    by_cases h2 : d.length ≤ a.count - o
    · have m : min (a.count - o) d.length = d.length := by omega
      rw [m, List.drop_length]
      refine ⟨b, rfl, ?_⟩
      rw [m, List.take_length] at gb
      simpa [List.map_append, List.map_take, List.map_drop] using gb
    · have m : min (a.count - o) d.length = a.count - o := by omega
      rw [m]
      have hl : (d.drop (a.count - o)).length ≠ 0 := by rw [List.length_drop]; omega
      rw [if_pos hl]
      obtain ⟨c, ec, gc⟩ := VirtualFile.append_good gb (.buf (d.drop (a.count - o))) hl
      refine ⟨c, ec, ?_⟩
      have eq : (B.map some).take o ++ (d.take (min (a.count - o) d.length)).map some ++ (B.map some).drop (o + (d.take (min (a.count - o) d.length)).length) ++
          (Src.buf (d.drop (a.count - o))).cells = (B.take o ++ d ++ B.drop (o + d.length)).map some := by
        rw [l1, m]
        rw [List.drop_eq_nil_of_le (by rw [List.length_map]; omega), List.drop_eq_nil_of_le (as := B) (by omega)]
        simp only [Src.cells, List.append_nil, List.append_assoc, ← List.map_append, ← List.map_take, List.take_append_drop]
      rwa [eq] at gc
  · rw [if_neg h]
    simp only [ok_bind, pure, Except.pure]
    rw [if_pos hdl]
    obtain ⟨c, ec, gc⟩ := VirtualFile.append_good g (.buf d) hdl
    refine ⟨c, ec, ?_⟩
    rw [List.take_of_length_le (by omega), List.drop_eq_nil_of_le (by omega), List.append_nil, List.map_append]
    exact gc

theorem insert_good {a : Arr UInt8} {B : List UInt8} (g : Good a (B.map some)) {o : Nat} {d : List UInt8} (hd : d ≠ []) :
    ∃ a', writeBytes a o d true true = .ok a' ∧ Good a' ((B.take o ++ d.take (B.length - o) ++ B.drop o ++ d.drop (B.length - o)).map some) := by
  have hc := count_of g
  have hdl : d.length ≠ 0 := fun h => hd (List.length_eq_zero_iff.mp h)
  unfold writeBytes
  by_cases h : o < a.count
  · rw [if_pos h]
    have t1 : d.take (min (a.count - o) d.length) = d.take (B.length - o) := by rw [← hc, List.take_eq_take_iff]; omega
    have l1 : (d.take (B.length - o)).length ≠ 0 := by rw [List.length_take]; omega
    obtain ⟨b, r, e, gb⟩ := VirtualFile.insert_good g o (d.take (B.length - o)) l1 (by rw [List.length_map]; omega)
    dsimp only
    rw [t1]
    simp only [if_true, e, ok_bind, pure, Except.pure]
    by_cases h2 : d.length ≤ a.count - o
    · have m : min (a.count - o) d.length = d.length := by omega
      rw [m, List.drop_length, List.drop_eq_nil_of_le (as := d) (by omega), List.append_nil]
      refine ⟨b, rfl, ?_⟩
      simpa [List.map_append, List.map_take, List.map_drop] using gb
    · have m : min (a.count - o) d.length = B.length - o := by omega
      rw [m]
      have hl : (d.drop (B.length - o)).length ≠ 0 := by rw [List.length_drop]; omega
      rw [if_pos hl]
      obtain ⟨c, ec, gc⟩ := VirtualFile.append_good gb (.buf (d.drop (B.length - o))) hl
      refine ⟨c, ec, ?_⟩
      simpa [List.map_append, List.map_take, List.map_drop, Src.cells] using gc
  · rw [if_neg h]
    simp only [ok_bind, pure, Except.pure]
    rw [if_pos hdl]
    obtain ⟨c, ec, gc⟩ := VirtualFile.append_good g (.buf d) hdl
    refine ⟨c, ec, ?_⟩
    have z : B.length - o = 0 := by omega
    rw [z, List.take_zero, List.drop_zero, List.take_of_length_le (by omega), List.drop_eq_nil_of_le (by omega), List.append_nil, List.append_nil, List.map_append]
    exact gc

/-- Without a wrap it is the removal of C01. -/
theorem removeElements_eq {a : Arr UInt8} {l : List (Option UInt8)} (g : Good a l) {i n : Nat} (hn : 0 < n) (h : i + n ≤ a.count) (hW : a.count < W) :
    removeElements a i n = (do let (b, _) ← Array.removeN a i n; pure b) := by
  have hW' : W = 18446744073709551616 := by unfold W; omega
  have c1 : (i + n + W - 1) % W = i + n - 1 := by
    have : i + n + W - 1 = (i + n - 1) + W := by omega
    rw [this, Nat.add_mod_right, Nat.mod_eq_of_lt (by omega)]
  have c2 : (i + n) % W = i + n := Nat.mod_eq_of_lt (by omega)
  have c3 : (a.count + W - (i + n)) % W = a.count - (i + n) := by
    have : a.count + W - (i + n) = (a.count - (i + n)) + W := by omega
    rw [this, Nat.add_mod_right, Nat.mod_eq_of_lt (by omega)]
  have c4 : (a.count + W - n) % W = a.count - n := by
    have : a.count + W - n = (a.count - n) + W := by omega
    rw [this, Nat.add_mod_right, Nat.mod_eq_of_lt (by omega)]
  unfold removeElements Array.removeN
  rw [c1, c2, c3, c4, if_pos (by omega), if_pos ⟨by omega, by omega⟩]
  obtain ⟨cells, hd, hle, -⟩ := g.cells (by have := g.cnt; omega)
  rw [Array.deref_eq hd]
  simp only [ok_bind]
  by_cases z : a.count - (i + n) = 0
  · rw [if_pos z, z]
    unfold Array.memmove
    rw [if_pos (by omega), Array.write_ok (by simp; omega)]
    simp [ok_bind, pure, Except.pure]
  · rw [if_neg z]
    cases Array.memmove cells i (i + n) (a.count - (i + n)) <;> rfl

theorem remove_good {a : Arr UInt8} {B : List UInt8} (g : Good a (B.map some)) {o n : Nat} (hn : n ≠ 0) (ho : o < B.length) (hW : B.length < W) :
    ∃ a', removeBytes a o n = .ok a' ∧ Good a' ((FileHandle.Spec.remove B o n).map some) := by
  have hc := count_of g
  obtain ⟨a', e, ga⟩ := VirtualFile.cut_good g (o := o) (n := n) (fun h => absurd h hn)
  refine ⟨a', ?_, ga⟩
  have m : (a.count + W - o) % W = a.count - o := by
    have : a.count + W - o = (a.count - o) + W := by omega
    rw [this, Nat.add_mod_right, Nat.mod_eq_of_lt (by omega)]
  unfold removeBytes
  rw [m, removeElements_eq g (by omega) (by omega) (by omega)]
  unfold VirtualFile.cut at e
  rwa [if_pos (by omega)] at e

theorem step_good {a : Arr UInt8} {B : List UInt8} (g : Good a (B.map some)) (op : Op) (h : Fits B op) :
    ∃ a', step a op = .ok (a', (specStep B op).2.map some) ∧ Good a' ((specStep B op).1.map some) := by
  cases op with
  | read o n =>
    refine ⟨a, ?_, g⟩
    simp only [step, (seen_of_good g).2 o n, ok_bind, pure, Except.pure]
    rfl
  | write o d i =>
    cases i with
    | false =>
      obtain ⟨hd, ho⟩ := h
      obtain ⟨a', e, ga⟩ := overwrite_good g (o := o) hd
      refine ⟨a', by simp only [step, e, ok_bind, pure, Except.pure]; rfl, ?_⟩
      have z : o - B.length = 0 := by omega
      simpa only [specStep, FileHandle.Spec.overwrite, if_neg hd, z, List.replicate_zero, List.append_nil] using ga
    | true =>
      obtain ⟨hd, ho⟩ := h
      obtain ⟨a', e, ga⟩ := insert_good g (o := o) hd
      refine ⟨a', by simp only [step, e, ok_bind, pure, Except.pure]; rfl, ?_⟩
      have q : B.take o ++ d.take (B.length - o) ++ B.drop o ++ d.drop (B.length - o) = FileHandle.Spec.insert B o d := by
        unfold FileHandle.Spec.insert
        rcases ho with ho | ho
        · rw [List.take_of_length_le (l := d) (by omega), List.drop_eq_nil_of_le (as := d) (by omega), List.append_nil]
        · subst ho; simp
      rw [q] at ga
      exact ga
  | remove o n =>
    obtain ⟨hn, ho, hW⟩ := h
    obtain ⟨a', e, ga⟩ := remove_good g hn ho hW
    exact ⟨a', by simp only [step, e, ok_bind, pure, Except.pure]; rfl, ga⟩

theorem run_good (ops : List Op) : ∀ {a : Arr UInt8} {B : List UInt8}, Good a (B.map some) → FitsAll B ops →
    ∃ a', run a ops = .ok (a', (specRun B ops).2.map (·.map some)) ∧ Good a' ((specRun B ops).1.map some) := by
  induction ops with
  | nil => intro a B g _; exact ⟨a, rfl, g⟩
  | cons op ops ih =>
    intro a B g h
    obtain ⟨a1, e1, g1⟩ := step_good g op h.1
    obtain ⟨a2, e2, g2⟩ := ih g1 h.2
    refine ⟨a2, ?_, g2⟩
    simp only [run, e1, ok_bind, e2, pure, Except.pure]
    rfl

theorem create_good : ∃ a0, Array.create UInt8 128 true = .ok a0 ∧ Good a0 (([] : List UInt8).map some) := by
  have h : Array.create UInt8 128 true = .ok ⟨128, 0, some (List.replicate 128 none)⟩ := by unfold Array.create; rw [if_pos (by omega)]; rfl
  exact ⟨_, h, Array.good_create h⟩

theorem good_of_holds {a : Arr UInt8} {B : List UInt8} (h : Holds a B) : Good a (B.map some) := by
  obtain ⟨a0, ops, outs, h0, hf, hr, hB⟩ := h
  obtain ⟨a1, h1, g1⟩ := create_good
  rw [h0] at h1
  cases h1
  obtain ⟨a2, e2, g2⟩ := run_good ops g1 hf
  rw [hr] at e2
  cases e2
  rwa [hB] at g2

/-! ## The theorems -/

/-- **C150 (partial).** For every history of calls the code gets right, from an empty file: no assertion fails and no memory outside the array is touched, every read gives the bytes the file should have there, and
the file is in the end what it should be.  Missing: the calls refuted below. -/
theorem C150_history_partial (ops : List Op) (h : FitsAll [] ops) :
    ∃ a0 a, Array.create UInt8 128 true = .ok a0 ∧ run a0 ops = .ok (a, (specRun [] ops).2.map (·.map some)) ∧ Seen a (specRun [] ops).1 := by
  obtain ⟨a0, h0, g0⟩ := create_good
  obtain ⟨a, h1, g1⟩ := run_good ops g0 h
  exact ⟨a0, a, h0, h1, seen_of_good g1⟩

/-- **C150, inserting.** Exactly what an insertion does: of the new bytes only as many go to the place as there were bytes behind it, the others go to the end of the file. -/
theorem C150_insert_exact {a : Arr UInt8} {B : List UInt8} (h : Holds a B) (o : Nat) (d : List UInt8) (hd : d ≠ []) :
    ∃ a', writeBytes a o d true true = .ok a' ∧ Seen a' (B.take o ++ d.take (B.length - o) ++ B.drop o ++ d.drop (B.length - o)) := by
  obtain ⟨a', e, g⟩ := insert_good (good_of_holds h) (o := o) hd
  exact ⟨a', e, seen_of_good g⟩

/-- **C150, refuted for insertions of more than follows.** `XYZ` inserted after the `a` of `ab`. -/
theorem C150_insert_refuted : ∃ a a', Holds a [97, 98] ∧ writeBytes a 1 [88, 89, 90] true true = .ok a' ∧ Seen a' [97, 88, 98, 89, 90] ∧
    FileHandle.Spec.insert [97, 98] 1 [88, 89, 90] = [97, 88, 89, 90, 98] := by
  obtain ⟨a0, h0, g0⟩ := create_good
  have f : FitsAll [] [.write 0 [97, 98] false] := ⟨⟨by simp, by simp⟩, trivial⟩
  obtain ⟨a, h1, g1⟩ := run_good _ g0 f
  have hh : Holds a [97, 98] := ⟨a0, _, _, h0, f, h1, by simp [specRun, specStep, FileHandle.Spec.overwrite]⟩
  obtain ⟨a', e, s⟩ := C150_insert_exact hh 1 [88, 89, 90] (by simp)
  exact ⟨a, a', hh, e, by simpa using s, by simp [FileHandle.Spec.insert]⟩

/-- **C150, refuted for writes behind the end.** Whatever is written behind the end of the file, in either way, is put at the end: there is no gap. -/
theorem C150_behind_refuted {a : Arr UInt8} {B : List UInt8} (h : Holds a B) (o : Nat) (d : List UInt8) (i : Bool) (hd : d ≠ []) (ho : B.length < o) :
    ∃ a', writeBytes a o d i true = .ok a' ∧ Seen a' (B ++ d) ∧ FileHandle.Spec.overwrite B o d ≠ B ++ d := by
  have ne : FileHandle.Spec.overwrite B o d ≠ B ++ d := fun e => by
    have := congrArg List.length e
    rw [FileHandle.Spec.overwrite, if_neg hd] at this
    simp only [List.length_append, List.length_take, List.length_replicate, List.length_drop] at this
    omega
  have z : B.length - o = 0 := by omega
  cases i with
  | false =>
    obtain ⟨a', e, g⟩ := overwrite_good (good_of_holds h) (o := o) hd
    rw [List.take_of_length_le (by omega), List.drop_eq_nil_of_le (by omega), List.append_nil] at g
    exact ⟨a', e, seen_of_good g, ne⟩
  | true =>
    obtain ⟨a', e, g⟩ := insert_good (good_of_holds h) (o := o) hd
    rw [z, List.take_zero, List.drop_zero, List.take_of_length_le (by omega), List.drop_eq_nil_of_le (by omega), List.append_nil, List.append_nil] at g
    exact ⟨a', e, seen_of_good g, ne⟩

/-- **C150, refuted for writing nothing.** Writing nothing at a place in the file fails an assertion of the array; at the end or behind it nothing happens. -/
theorem C150_nothing_refuted {a : Arr UInt8} {B : List UInt8} (h : Holds a B) (o : Nat) (i ok : Bool) :
    writeBytes a o [] i ok = if o < B.length then .error .assertion else .ok a := by
  have hc := count_of (good_of_holds h)
  unfold writeBytes
  rw [hc]
  by_cases ho : o < B.length
  · rw [if_pos ho, if_pos ho]
    cases i <;> simp [Array.insertN, Array.replaceN, Src.count] <;> rfl
  · rw [if_neg ho, if_neg ho]
    rfl

/-- **C150, refuted for removals behind the end.** A removal of not too many bytes that begins behind the end of the file fails an assertion of the array, as does one of nothing at the start of the file and
any from an empty file. -/
theorem C150_remove_refuted {a : Arr UInt8} {B : List UInt8} (h : Holds a B) (o n : Nat) (hW : B.length < W) :
    (B.length < o → o + n ≤ W → removeBytes a o n = .error .assertion) ∧
    (B = [] → removeBytes a 0 n = .error .assertion) ∧
    (removeBytes a 0 0 = .error .assertion) := by
  have g := good_of_holds h
  have hc := count_of g
  have hW' : W = 18446744073709551616 := by unfold W; omega
  refine ⟨fun h1 h2 => ?_, fun h1 => ?_, ?_⟩
  · have m : (a.count + W - o) % W = a.count + W - o := Nat.mod_eq_of_lt (by omega)
    have e : min (a.count + W - o) n = n := by omega
    unfold removeBytes removeElements
    rw [m, e]
    have : (o + n + W - 1) % W = o + n - 1 := by
      have : o + n + W - 1 = (o + n - 1) + W := by omega
      rw [this, Nat.add_mod_right, Nat.mod_eq_of_lt (by omega)]
    rw [this, if_neg (by omega)]
  · subst h1
    have z : a.count = 0 := hc
    unfold removeBytes removeElements
    rw [z, if_neg (by omega)]
  · unfold removeBytes removeElements
    rw [Nat.min_zero]
    have : (0 + 0 + W - 1) % W = W - 1 := Nat.mod_eq_of_lt (by omega)
    rw [this, if_neg (by omega)]

/-- **C150, removing at the end.** A removal at the end of a file that is not empty, and one of nothing within it but not at its start, changes nothing. -/
theorem C150_remove_end {a : Arr UInt8} {B : List UInt8} (h : Holds a B) (o n : Nat) (hW : B.length < W) (ho : 0 < o) (hn : o = B.length ∨ o < B.length ∧ n = 0) :
    removeBytes a o n = .ok a ∧ Seen a B := by
  have g := good_of_holds h
  have hc := count_of g
  refine ⟨?_, seen_of_good g⟩
  have hW' : W = 18446744073709551616 := by unfold W; omega
  have e : min ((a.count + W - o) % W) n = 0 := by
    rcases hn with hn | ⟨-, hn⟩
    · have : a.count + W - o = W := by omega
      rw [this, Nat.mod_self, Nat.zero_min]
    · rw [hn, Nat.min_zero]
  obtain ⟨cells, hd, hle, -⟩ := g.cells (by rw [List.length_map]; omega)
  have c1 : (o + 0 + W - 1) % W = o - 1 := by
    have : o + 0 + W - 1 = (o - 1) + W := by omega
    rw [this, Nat.add_mod_right, Nat.mod_eq_of_lt (by omega)]
  have c2 : (o + 0) % W = o := by rw [Nat.add_zero, Nat.mod_eq_of_lt (by omega)]
  have c3 : (a.count + W - o) % W = a.count - o := by
    have : a.count + W - o = (a.count - o) + W := by omega
    rw [this, Nat.add_mod_right, Nat.mod_eq_of_lt (by omega)]
  have c4 : (a.count + W - 0) % W = a.count := by rw [Nat.sub_zero, Nat.add_mod_right, Nat.mod_eq_of_lt (by omega)]
  unfold removeBytes removeElements
  rw [e, c1, c2, c3, c4, if_pos (by omega), Array.deref_eq hd, ok_bind]
  have same : ({ a with data := some cells, count := a.count } : Arr UInt8) = a := by cases a; simp only at hd; subst hd; rfl
  by_cases z : a.count - o = 0
  · simp only [z, if_true]
    simp only [pure, Except.pure, ok_bind]
    rw [same]
  · simp only [z, if_false]
    have mv : Array.memmove cells o o (a.count - o) = .ok cells := by
      unfold Array.memmove
      rw [if_pos (by omega), Array.write_ok (by simp; omega)]
      rw [List.append_assoc, List.length_take, List.length_drop, show min (a.count - o) (cells.length - o) = a.count - o by omega, ← List.drop_drop,
        List.take_append_drop, List.take_append_drop]
    rw [mv]
    simp only [pure, Except.pure, ok_bind]
    rw [same]

/-- **C150, refuted for removing the rest of the file behind its end.** A removal behind the end of a file that is not empty, of as many bytes as there may be (`SIZE_MAX`, say), passes the assertion and makes the file longer: its size is then the offset. -/
theorem C150_remove_all_refuted {a : Arr UInt8} {B : List UInt8} (h : Holds a B) (o n : Nat) (hW : B.length < W) (hB : B ≠ []) (ho : B.length < o) (ho' : o < W) (hn : W - (o - B.length) ≤ n) :
    ∃ a', removeBytes a o n = .ok a' ∧ size a' = o := by
  have g := good_of_holds h
  have hc := count_of g
  have pos : 0 < B.length := List.length_pos_iff.mpr hB
  have hW' : W = 18446744073709551616 := by unfold W; omega
  have m : (a.count + W - o) % W = a.count + W - o := Nat.mod_eq_of_lt (by omega)
  have e : min (a.count + W - o) n = a.count + W - o := by omega
  obtain ⟨cells, hd, hle, -⟩ := g.cells (by rw [List.length_map]; omega)
  have s : o + (a.count + W - o) = a.count + W := by omega
  have c1 : (a.count + W + W - 1) % W = a.count - 1 := by
    have : a.count + W + W - 1 = (a.count - 1) + W + W := by omega
    rw [this, Nat.add_mod_right, Nat.add_mod_right, Nat.mod_eq_of_lt (by omega)]
  have c2 : (a.count + W) % W = a.count := by rw [Nat.add_mod_right, Nat.mod_eq_of_lt (by omega)]
  have c3 : (a.count + W - a.count) % W = 0 := by rw [Nat.add_sub_cancel_left, Nat.mod_self]
  have c4 : (a.count + W - (a.count + W - o)) % W = o := by
    have : a.count + W - (a.count + W - o) = o := by omega
    rw [this, Nat.mod_eq_of_lt ho']
  unfold removeBytes removeElements
  rw [m, e, s, c1, if_pos (by omega), Array.deref_eq hd, ok_bind, c2]
  simp only [c3, if_true, c4]
  exact ⟨_, rfl, rfl⟩

/-- The rest of a file of two bytes from the offset 7. -/
example : ∃ a, Holds a [1, 2] ∧ ∃ a', removeBytes a 7 (W - 1) = .ok a' ∧ size a' = 7 := by
  obtain ⟨a0, h0, g0⟩ := create_good
  have f : FitsAll [] [.write 0 [1, 2] false] := ⟨⟨by simp, by simp⟩, trivial⟩
  obtain ⟨a, h1, g1⟩ := run_good _ g0 f
  have hh : Holds a [1, 2] := ⟨a0, _, _, h0, f, h1, by simp [specRun, specStep, FileHandle.Spec.overwrite]⟩
  have hW' : W = 18446744073709551616 := by unfold W; omega
  exact ⟨a, hh, C150_remove_all_refuted hh 7 _ (by simp only [List.length_cons, List.length_nil]; omega) (by simp) (by simp) (by omega) (by simp only [List.length_cons, List.length_nil]; omega)⟩

/-- A history that meets the hypotheses. -/
example : FitsAll [] [.write 0 [1, 2, 3] false, .write 1 [9] true, .write 3 [7, 8] false, .remove 1 2, .read 0 9] := by
  simp [FitsAll, Fits, specStep, FileHandle.Spec.overwrite, FileHandle.Spec.insert, W]
example : specRun [] [.write 0 [1, 2, 3] false, .write 1 [9] true, .write 3 [7, 8] false, .remove 1 2, .read 0 9] = ([1, 7, 8], [[], [], [], [], [1, 7, 8]]) := by decide

#print axioms C150_history_partial
#print axioms C150_insert_exact
#print axioms C150_insert_refuted
#print axioms C150_behind_refuted
#print axioms C150_nothing_refuted
#print axioms C150_remove_refuted
#print axioms C150_remove_end
#print axioms C150_remove_all_refuted

end Verif.VirtualBytes
