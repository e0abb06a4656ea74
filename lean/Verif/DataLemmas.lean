import Verif.DataSpec
namespace Verif.Data
open Spec

theorem written_length {l : List Cell} {off : Nat} {new : List Cell} (h : off + new.length ≤ l.length) :
    (written l off new).length = l.length := by
  simp [written]; omega

theorem written_get {l : List Cell} {off : Nat} {new : List Cell} (h : off + new.length ≤ l.length) (i : Nat) :
    (written l off new)[i]? = if off ≤ i ∧ i < off + new.length then new[i - off]? else l[i]? := by
  unfold written
  rw [List.append_assoc, List.getElem?_append, List.getElem?_append]
  simp only [List.length_take, List.getElem?_take, List.getElem?_drop]
  grind

theorem range_length {l : List Cell} {off n : Nat} (h : off + n ≤ l.length) : (range l off n).length = n := by
  simp [range]; omega

theorem range_get (l : List Cell) (off n i : Nat) : (range l off n)[i]? = if i < n then l[off + i]? else none := by
  simp [range, List.getElem?_take]

theorem range_append (l : List Cell) (off a b : Nat) : range l off a ++ range l (off + a) b = range l off (a + b) := by
  unfold range
  rw [List.take_add, List.drop_drop]

theorem written_written {l : List Cell} {off : Nat} {a b : List Cell} (h : off + a.length + b.length ≤ l.length) :
    written (written l off a) (off + a.length) b = written l off (a ++ b) := by
  apply List.ext_getElem?
  intro i
  have hl : (written l off a).length = l.length := written_length (by omega)
  rw [written_get (by rw [hl]; omega), written_get (by omega), written_get (by simp; omega)]
  simp only [List.length_append, List.getElem?_append]
  grind

theorem written_nil (l : List Cell) (off : Nat) : written l off [] = l := by
  simp [written]

theorem range_zero (l : List Cell) (off : Nat) : range l off 0 = [] := by simp [range]

theorem slice_eq {l : List Cell} {pos n : Nat} (h : pos + n ≤ l.length) : slice l pos n = some (range l pos n) := by
  unfold slice; rw [if_pos h]; rfl

theorem overwrite_eq {l : List Cell} {pos : Nat} {new : List Cell} (h : pos + new.length ≤ l.length) :
    overwrite l pos new = some (written l pos new) := by
  unfold overwrite; rw [if_pos h]; rfl

variable {σ τ : Type} {I : Interface σ} {bytes : σ → List Cell} {Inv : σ → Prop} {R : Access → Nat → Nat → Prop}

/-- One step of a read. -/
theorem readStep_spec (L : Law I bytes Inv R) (d : Data σ) (hi : Inv d.st) (hh : (I.hints d.st).read = true)
    (off n : Nat) (buf : List Cell) (pos : Nat) (hb : off + n ≤ (bytes d.st).length) (hr : R .r off n) (hp : pos + n ≤ buf.length) :
    ∃ d' k, readStep I d off n buf pos = some (d', written buf pos (range (bytes d.st) off k), k) ∧ k ≤ n ∧ Inv d'.st ∧
      bytes d'.st = bytes d.st ∧ I.hints d'.st = I.hints d.st ∧ (Full I → k = n) := by
  obtain ⟨m, e, ho, hs, hhint, hlen, hread, hun⟩ := L.map d.st off n .r hi hb hr
  obtain ⟨s', eu, hi', hh', hb'⟩ := hun (m.mem.take m.size) (by simp; omega) (Or.inr rfl)
  rw [List.take_append_drop] at eu
  have hrd := hread rfl
  refine ⟨{ d with st := s', mutated := m.hint.write }, m.size, ?_, hs, hi', ?_, hh', fun hf => hf _ _ _ _ _ e⟩
  · unfold readStep mapBuffer unmapBuffer
    rw [if_pos ⟨by rw [L.size _ hi]; exact hb, fun _ => hh, fun h => by cases h⟩, e]
    simp only [Option.bind_eq_bind, Option.bind_some]
    rw [slice_eq (by omega)]
    have hr2 : range m.mem 0 m.size = range (bytes d.st) off m.size := by rw [← hrd]; simp [range]
    rw [hr2]
    simp only [Option.bind_some]
    rw [overwrite_eq (by rw [range_length (by omega)]; omega)]
    simp only [Option.bind_some, eu]
  · simpa [Access.r] using hb'

theorem readLoop_spec (L : Law I bytes Inv R) (p off size : Nat) (left loop : Nat) (d : Data σ) (hi : Inv d.st)
    (hh : (I.hints d.st).read = true) (buf : List Cell) (hb : off + size ≤ (bytes d.st).length) (hbuf : size ≤ buf.length)
    (hfit : (loop + left) * p ≤ size)
    (hr : ∀ k, loop ≤ k → k < loop + left → R .r (off + k * p) p)
    (hlast : R .r (off + (loop + left) * p) (size - (loop + left) * p)) :
    ∃ d' n, readLoop I p off size left loop d buf (loop * p) =
        some (d', written buf (loop * p) (range (bytes d.st) (off + loop * p) n), loop * p + n) ∧
      loop * p + n ≤ size ∧ Inv d'.st ∧ bytes d'.st = bytes d.st ∧ I.hints d'.st = I.hints d.st ∧ (Full I → loop * p + n = size) := by
  induction left generalizing loop d buf with
  | zero =>
    rw [Nat.add_zero] at *
    obtain ⟨d', k, e, hk, hi', hb', hh', hf⟩ := readStep_spec L d hi hh (off + loop * p) (size - loop * p) buf (loop * p)
      (by omega) hlast (by omega)
    refine ⟨d', k, ?_, by omega, hi', hb', hh', fun h => by have := hf h; omega⟩
    unfold readLoop
    rw [e]; rfl
  | succ left ih =>
    have hm : (loop + 1) * p = loop * p + p := Nat.succ_mul loop p
    have hle : (loop + 1) * p ≤ (loop + (left + 1)) * p := Nat.mul_le_mul_right _ (by omega)
    obtain ⟨d', k, e, hk, hi', hb', hh', hf⟩ := readStep_spec L d hi hh (off + loop * p) p buf (loop * p)
      (by omega) (hr loop (by omega) (by omega)) (by omega)
    unfold readLoop
    rw [e]
    simp only [Option.bind_eq_bind, Option.bind_some]
    by_cases hkp : k = p
    · rw [if_neg (by omega)]
      subst hkp
      have hrl : (range (bytes d.st) (off + loop * k) k).length = k := range_length (by omega)
      have hbl : (written buf (loop * k) (range (bytes d.st) (off + loop * k) k)).length = buf.length :=
        written_length (by omega)
      obtain ⟨d2, n2, e2, hn2, hi2, hb2, hh2, hf2⟩ := ih (loop + 1) d' hi' (by rw [hh']; exact hh) (written buf (loop * k) (range (bytes d.st) (off + loop * k) k))
        (by rw [hb']; exact hb) (by omega) (by rw [show loop + 1 + left = loop + (left + 1) by omega]; exact hfit)
        (fun j h1 h2 => hr j (by omega) (by omega)) (by rw [show loop + 1 + left = loop + (left + 1) by omega]; exact hlast)
      refine ⟨d2, k + n2, ?_, by omega, hi2, by rw [hb2, hb'], by rw [hh2, hh'], fun h => by have := hf2 h; omega⟩
      rw [← hm, e2, hb', ← range_append (bytes d.st) (off + loop * k) k n2, hm]
      have hrl2 : (range (bytes d.st) (off + loop * k + k) n2).length = n2 := range_length (by omega)
      have hww := written_written (l := buf) (off := loop * k) (a := range (bytes d.st) (off + loop * k) k)
        (b := range (bytes d.st) (off + loop * k + k) n2) (by omega)
      rw [hrl] at hww
      rw [← Nat.add_assoc off, hww, Nat.add_assoc (loop * k) k n2]
    · rw [if_pos hkp]
      exact ⟨d', k, rfl, by omega, hi', hb', hh', fun h => absurd (hf h) hkp⟩

/-- One step of a write. -/
theorem writeStep_spec (L : Law I bytes Inv R) (d : Data σ) (hi : Inv d.st) (hh : (I.hints d.st).write = true)
    (off n : Nat) (src : Nat → Option (List Cell)) (val : Nat → List Cell) (hsrc : ∀ k, k ≤ n → src k = some (val k) ∧ (val k).length = k)
    (hb : off + n ≤ (bytes d.st).length) (hr : R .w off n) :
    ∃ d' k, writeStep I d off n src = some (d', k) ∧ k ≤ n ∧ Inv d'.st ∧
      bytes d'.st = written (bytes d.st) off (val k) ∧ I.hints d'.st = I.hints d.st ∧ d'.mutated = true ∧ d'.hash = d.hash ∧ (Full I → k = n) := by
  obtain ⟨m, e, ho, hs, hhint, hlen, hread, hun⟩ := L.map d.st off n .w hi hb hr
  obtain ⟨hv1, hv2⟩ := hsrc m.size hs
  obtain ⟨s', eu, hi', hh', hb'⟩ := hun (val m.size) hv2 (Or.inl rfl)
  refine ⟨{ d with st := s', mutated := m.hint.write }, m.size, ?_, hs, hi', ?_, hh', by simp [hhint, Access.w], rfl, fun hf => hf _ _ _ _ _ e⟩
  · unfold writeStep mapBuffer unmapBuffer
    rw [if_pos ⟨by rw [L.size _ hi]; exact hb, (fun h => by cases h), fun _ => hh⟩, e]
    simp only [Option.bind_eq_bind, Option.bind_some, hv1]
    rw [overwrite_eq (by omega)]
    have hw : written m.mem 0 (val m.size) = val m.size ++ m.mem.drop m.size := by simp [written, hv2]
    simp only [Option.bind_some, hw, eu]
  · simpa [Access.w] using hb'

theorem writeLoop_spec (L : Law I bytes Inv R) (src : Nat → Nat → Option (List Cell)) (all : List Cell) (p off size : Nat)
    (hall : all.length = size) (hsrc : ∀ pos k, pos + k ≤ size → src pos k = some (range all pos k))
    (left loop : Nat) (d : Data σ) (hi : Inv d.st)
    (hh : (I.hints d.st).write = true) (hb : off + size ≤ (bytes d.st).length)
    (hfit : (loop + left) * p ≤ size)
    (hr : ∀ k, loop ≤ k → k < loop + left → R .w (off + k * p) p)
    (hlast : R .w (off + (loop + left) * p) (size - (loop + left) * p)) :
    ∃ d' n, writeLoop I src p off size left loop d (loop * p) = some (d', loop * p + n) ∧
      loop * p + n ≤ size ∧ Inv d'.st ∧ bytes d'.st = written (bytes d.st) (off + loop * p) (range all (loop * p) n) ∧
      I.hints d'.st = I.hints d.st ∧ d'.mutated = true ∧ (Full I → loop * p + n = size) := by
  induction left generalizing loop d with
  | zero =>
    rw [Nat.add_zero] at *
    obtain ⟨d', k, e, hk, hi', hb', hh', hm', -, hf⟩ := writeStep_spec L d hi hh (off + loop * p) (size - loop * p) (src (loop * p))
      (range all (loop * p)) (fun k hk => ⟨hsrc _ _ (by omega), range_length (by omega)⟩) (by omega) hlast
    refine ⟨{ d' with mutated := true }, k, ?_, by omega, hi', hb', hh', rfl, fun h => by have := hf h; omega⟩
    unfold writeLoop
    rw [e]; rfl
  | succ left ih =>
    have hm : (loop + 1) * p = loop * p + p := Nat.succ_mul loop p
    have hle : (loop + 1) * p ≤ (loop + (left + 1)) * p := Nat.mul_le_mul_right _ (by omega)
    obtain ⟨d', k, e, hk, hi', hb', hh', hm', -, hf⟩ := writeStep_spec L d hi hh (off + loop * p) p (src (loop * p))
      (range all (loop * p)) (fun k hk => ⟨hsrc _ _ (by omega), range_length (by omega)⟩) (by omega) (hr loop (by omega) (by omega))
    unfold writeLoop
    rw [e]
    simp only [Option.bind_eq_bind, Option.bind_some]
    by_cases hkp : k = p
    · rw [if_neg (by omega)]
      subst hkp
      have hrl : (range all (loop * k) k).length = k := range_length (by omega)
      have hbl : (bytes d'.st).length = (bytes d.st).length := by rw [hb']; exact written_length (by omega)
      obtain ⟨d2, n2, e2, hn2, hi2, hb2, hh2, hm2, hf2⟩ := ih (loop + 1) d' hi' (by rw [hh']; exact hh)
        (by rw [hbl]; exact hb) (by rw [show loop + 1 + left = loop + (left + 1) by omega]; exact hfit)
        (fun j h1 h2 => hr j (by omega) (by omega)) (by rw [show loop + 1 + left = loop + (left + 1) by omega]; exact hlast)
      refine ⟨d2, k + n2, ?_, by omega, hi2, ?_, by rw [hh2, hh'], hm2, fun h => by have := hf2 h; omega⟩
      · rw [← hm, e2, hm, Nat.add_assoc (loop * k) k n2]
      · rw [hb2, hb', ← range_append all (loop * k) k n2, hm]
        have hrl2 : (range all (loop * k + k) n2).length = n2 := range_length (by omega)
        have hww := written_written (l := bytes d.st) (off := off + loop * k) (a := range all (loop * k) k)
          (b := range all (loop * k + k) n2) (by omega)
        rw [hrl] at hww
        rw [← Nat.add_assoc off, hww]
    · rw [if_pos hkp]
      exact ⟨d', k, rfl, by omega, hi', hb', hh', hm', fun h => absurd (hf h) hkp⟩

variable {J : Interface τ} {bytes₂ : τ → List Cell} {Inv₂ : τ → Prop} {R₂ : Access → Nat → Nat → Prop}

/-- One step of a copy; only sources whose maps are full are considered, so that the region written is known beforehand. -/
theorem copyStep_spec (L : Law I bytes Inv R) (K : Law J bytes₂ Inv₂ R₂) (hF : Full I) (s : Data σ) (t : Data τ) (hi : Inv s.st) (hi₂ : Inv₂ t.st)
    (hh : (I.hints s.st).read = true) (hh₂ : (J.hints t.st).write = true) (so dst n : Nat)
    (hb : so + n ≤ (bytes s.st).length) (hb₂ : dst + n ≤ (bytes₂ t.st).length) (hr : R .r so n) (hr₂ : R₂ .w dst n) :
    ∃ s' t' k, copyStep I J s t so dst n = some (s', t', k) ∧ k ≤ n ∧ Inv s'.st ∧ Inv₂ t'.st ∧ bytes s'.st = bytes s.st ∧
      bytes₂ t'.st = written (bytes₂ t.st) dst (range (bytes s.st) so k) ∧ I.hints s'.st = I.hints s.st ∧ J.hints t'.st = J.hints t.st ∧
      t'.mutated = true ∧ (Full J → k = n) := by
  obtain ⟨m, e, ho, hs, hhint, hlen, hread, hun⟩ := L.map s.st so n .r hi hb hr
  obtain ⟨s', eu, hi', hh', hb'⟩ := hun (m.mem.take m.size) (by simp; omega) (Or.inr rfl)
  rw [List.take_append_drop] at eu
  have hrd := hread rfl
  have hms : m.size = n := hF _ _ _ _ _ e
  have hval : ∀ k, k ≤ n → range m.mem 0 k = range (bytes s.st) so k := by
    intro k hk
    have h1 : range m.mem 0 k = (m.mem.take m.size).take k := by
      simp [range, List.take_take]; omega
    rw [h1, hrd]; simp [range, List.take_take]; omega
  obtain ⟨t', k, e2, hk, hi2, hb2, hh2, hm2, -, hf2⟩ := writeStep_spec K t hi₂ hh₂ dst n (fun k => slice m.mem 0 k)
    (fun k => range (bytes s.st) so k) (fun k hk => ⟨by rw [slice_eq (by omega), hval k hk], range_length (by omega)⟩) hb₂ hr₂
  refine ⟨{ s with st := s', mutated := m.hint.write }, t', k, ?_, hk, hi', hi2, by simpa [Access.r] using hb', hb2, hh', hh2, hm2, hf2⟩
  unfold copyStep mapBuffer
  rw [if_pos ⟨by rw [L.size _ hi]; exact hb, fun _ => hh, fun h => by cases h⟩, e]
  simp only [Option.bind_eq_bind, Option.bind_some, hms, e2, unmapBuffer, eu]

theorem copyLoop_spec (L : Law I bytes Inv R) (K : Law J bytes₂ Inv₂ R₂) (hF : Full I) (p so dst size : Nat) (left loop : Nat)
    (s : Data σ) (t : Data τ) (hi : Inv s.st) (hi₂ : Inv₂ t.st) (hh : (I.hints s.st).read = true) (hh₂ : (J.hints t.st).write = true)
    (hb : so + size ≤ (bytes s.st).length) (hb₂ : dst + size ≤ (bytes₂ t.st).length) (hfit : (loop + left) * p ≤ size)
    (hr : ∀ k, loop ≤ k → k < loop + left → R .r (so + k * p) p) (hlast : R .r (so + (loop + left) * p) (size - (loop + left) * p))
    (hr₂ : ∀ k, loop ≤ k → k < loop + left → R₂ .w (dst + k * p) p) (hlast₂ : R₂ .w (dst + (loop + left) * p) (size - (loop + left) * p)) :
    ∃ s' t' n, copyLoop I J p so dst size left loop s t (loop * p) = some (s', t', loop * p + n) ∧ loop * p + n ≤ size ∧
      bytes s'.st = bytes s.st ∧ bytes₂ t'.st = written (bytes₂ t.st) (dst + loop * p) (range (bytes s.st) (so + loop * p) n) ∧
      t'.mutated = true ∧ (Full J → loop * p + n = size) := by
  induction left generalizing loop s t with
  | zero =>
    rw [Nat.add_zero] at *
    obtain ⟨s', t', k, e, hk, hi', hi2', hb', hb2', hh', hh2', hm', hf⟩ := copyStep_spec L K hF s t hi hi₂ hh hh₂ (so + loop * p) (dst + loop * p)
      (size - loop * p) (by omega) (by omega) hlast hlast₂
    refine ⟨s', { t' with mutated := true }, k, ?_, by omega, hb', hb2', rfl, fun h => by have := hf h; omega⟩
    unfold copyLoop
    rw [e]; rfl
  | succ left ih =>
    have hm : (loop + 1) * p = loop * p + p := Nat.succ_mul loop p
    have hle : (loop + 1) * p ≤ (loop + (left + 1)) * p := Nat.mul_le_mul_right _ (by omega)
    obtain ⟨s', t', k, e, hk, hi', hi2', hb', hb2', hh', hh2', hm', hf⟩ := copyStep_spec L K hF s t hi hi₂ hh hh₂ (so + loop * p) (dst + loop * p)
      p (by omega) (by omega) (hr loop (by omega) (by omega)) (hr₂ loop (by omega) (by omega))
    unfold copyLoop
    rw [e]
    simp only [Option.bind_eq_bind, Option.bind_some]
    by_cases hkp : k = p
    · rw [if_neg (by omega)]
      subst hkp
      have hrl : (range (bytes s.st) (so + loop * k) k).length = k := range_length (by omega)
      have hbl : (bytes₂ t'.st).length = (bytes₂ t.st).length := by rw [hb2']; exact written_length (by omega)
      have ea : loop + 1 + left = loop + (left + 1) := by omega
      obtain ⟨s2, t2, n2, e2, hn2, hbs, hbt, hm2, hf2⟩ := ih (loop + 1) s' t' hi' hi2' (by rw [hh']; exact hh) (by rw [hh2']; exact hh₂)
        (by rw [hb']; exact hb) (by rw [hbl]; exact hb₂) (by rw [ea]; exact hfit)
        (fun j h1 h2 => hr j (by omega) (by omega)) (by rw [ea]; exact hlast)
        (fun j h1 h2 => hr₂ j (by omega) (by omega)) (by rw [ea]; exact hlast₂)
      refine ⟨s2, t2, k + n2, ?_, by omega, by rw [hbs, hb'], ?_, hm2, fun h => by have := hf2 h; omega⟩
      · rw [← hm, e2, hm, Nat.add_assoc (loop * k) k n2]
      · rw [hbt, hb2', hb', ← range_append (bytes s.st) (so + loop * k) k n2, hm]
        have hrl2 : (range (bytes s.st) (so + loop * k + k) n2).length = n2 := range_length (by omega)
        have hww := written_written (l := bytes₂ t.st) (off := dst + loop * k) (a := range (bytes s.st) (so + loop * k) k)
          (b := range (bytes s.st) (so + loop * k + k) n2) (by omega)
        rw [hrl] at hww
        rw [← Nat.add_assoc dst, ← Nat.add_assoc so, hww]
    · rw [if_pos hkp]
      exact ⟨s', t', k, rfl, by omega, hb', hb2', hm', fun h => absurd (hf h) hkp⟩

end Verif.Data
