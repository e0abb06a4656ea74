import Verif.DataContainerLaw
/-!
# C32: data objects transfer exactly the requested bytes. C33: the hash of a data object
-/
namespace Verif.Data
open Spec

variable {σ τ : Type} {I : Interface σ} {bytes : σ → List Cell} {Inv : σ → Prop} {R : Access → Nat → Nat → Prop}

theorem rest_eq (size p : Nat) : size - (0 + size / p) * p = size % p := by
  have h := Nat.div_add_mod size p
  rw [Nat.zero_add, Nat.mul_comm]; omega

theorem chunks_fit (size p : Nat) : (0 + size / p) * p ≤ size := by
  rw [Nat.zero_add]; exact Nat.div_mul_le_self _ _

/-! ## C32 for every implementation without its own transfer functions, and every preferred map size -/

/-- **C32, read**: the bytes returned are those of the object, the count says how many (all of them if maps are never short), and
the object and the rest of the caller's buffer are unchanged. -/
theorem C32_read (L : Law I bytes Inv R) (hI : I.read = none) (d : Data σ) (hi : Inv d.st) (hh : (I.hints d.st).read = true)
    (off size : Nat) (buf : List Cell) (hb : off + size ≤ (bytes d.st).length) (hbuf : size ≤ buf.length)
    (hp : 0 < preferred I d) (hc : Chunks (R .r) (preferred I d) off size) :
    ∃ d' n, readBuffer I d off size buf = some (d', written buf 0 (range (bytes d.st) off n), n) ∧ n ≤ size ∧
      bytes d'.st = bytes d.st ∧ Inv d'.st ∧ (Full I → n = size) := by
  unfold readBuffer
  rw [if_pos ⟨by rw [L.size _ hi]; exact hb, hh⟩, hI]
  simp only
  rw [if_neg (by omega)]
  obtain ⟨d', n, e, hn, hi', hb', -, hf⟩ := readLoop_spec L (preferred I d) off size (size / preferred I d) 0 d hi hh buf hb hbuf
    (chunks_fit _ _) (fun k _ hk => hc.1 k (by omega)) (by rw [rest_eq, Nat.zero_add]; exact hc.2)
  simp only [Nat.zero_mul, Nat.add_zero, Nat.zero_add] at e hn hf
  exact ⟨d', n, e, hn, hb', hi', hf⟩

/-- **C32, write**: the bytes of the range become those of the caller's buffer, and no other byte changes. -/
theorem C32_write (L : Law I bytes Inv R) (hI : I.write = none) (d : Data σ) (hi : Inv d.st) (hh : (I.hints d.st).write = true)
    (off size : Nat) (buf : List Cell) (hb : off + size ≤ (bytes d.st).length) (hbuf : size ≤ buf.length)
    (hp : 0 < preferred I d) (hc : Chunks (R .w) (preferred I d) off size) :
    ∃ d' n, writeBuffer I d off size buf = some (d', n) ∧ n ≤ size ∧
      bytes d'.st = written (bytes d.st) off (range buf 0 n) ∧ Inv d'.st ∧ d'.mutated = true ∧ (Full I → n = size) := by
  unfold writeBuffer
  rw [if_pos ⟨by rw [L.size _ hi]; exact hb, hh⟩, hI]
  simp only
  rw [if_neg (by omega)]
  have hall : (buf.take size).length = size := by simp; omega
  obtain ⟨d', n, e, hn, hi', hb', -, hm, hf⟩ := writeLoop_spec L (fun pos n => slice buf pos n) (buf.take size) (preferred I d) off size hall
    (fun pos k hk => by
      show slice buf pos k = _
      rw [slice_eq (by omega)]
      congr 1
      apply List.ext_getElem?
      intro i
      rw [range_get, range_get, List.getElem?_take]
      by_cases hik : i < k
      · rw [if_pos hik, if_pos hik, if_pos (by omega)]
      · rw [if_neg hik, if_neg hik])
    (size / preferred I d) 0 d hi hh hb
    (chunks_fit _ _) (fun k _ hk => hc.1 k (by omega)) (by rw [rest_eq, Nat.zero_add]; exact hc.2)
  simp only [Nat.zero_mul, Nat.add_zero, Nat.zero_add] at e hn hf hb'
  refine ⟨d', n, e, hn, ?_, hi', hm, hf⟩
  rw [hb']
  congr 1
  simp [range, List.take_take]; omega

/-- **C32, fill**: the bytes of the range become the given value, and no other byte changes. -/
theorem C32_fill (L : Law I bytes Inv R) (hI : I.fill = none) (d : Data σ) (hi : Inv d.st) (hh : (I.hints d.st).write = true)
    (off size : Nat) (v : UInt8) (hb : off + size ≤ (bytes d.st).length)
    (hp : 0 < preferred I d) (hc : Chunks (R .w) (preferred I d) off size) :
    ∃ d' n, fillBuffer I d off size v = some (d', n) ∧ n ≤ size ∧
      bytes d'.st = written (bytes d.st) off (List.replicate n (some v)) ∧ Inv d'.st ∧ d'.mutated = true ∧ (Full I → n = size) := by
  unfold fillBuffer
  rw [if_pos ⟨by rw [L.size _ hi]; exact hb, hh⟩, hI]
  simp only
  rw [if_neg (by omega)]
  obtain ⟨d', n, e, hn, hi', hb', -, hm, hf⟩ := writeLoop_spec L (fun _ n => some (List.replicate n (some v))) (List.replicate size (some v))
    (preferred I d) off size (by simp)
    (fun pos k hk => by
      simp only [range, List.drop_replicate, List.take_replicate]
      congr 2; omega)
    (size / preferred I d) 0 d hi hh hb
    (chunks_fit _ _) (fun k _ hk => hc.1 k (by omega)) (by rw [rest_eq, Nat.zero_add]; exact hc.2)
  simp only [Nat.zero_mul, Nat.add_zero, Nat.zero_add] at e hn hf hb'
  refine ⟨d', n, e, hn, ?_, hi', hm, hf⟩
  rw [hb']
  congr 1
  simp only [range, List.drop_replicate, List.take_replicate]
  congr 1; omega

/-- **C32, copy** between two objects, of possibly different implementations. -/
theorem C32_copy {J : Interface τ} {bytes₂ : τ → List Cell} {Inv₂ : τ → Prop} {R₂ : Access → Nat → Nat → Prop}
    (L : Law I bytes Inv R) (K : Law J bytes₂ Inv₂ R₂) (hF : Full I) (s : Data σ) (t : Data τ) (hi : Inv s.st) (hi₂ : Inv₂ t.st)
    (hh : (I.hints s.st).read = true) (hh₂ : (J.hints t.st).write = true) (so size dst : Nat)
    (hb : so + size ≤ (bytes s.st).length) (hb₂ : dst + size ≤ (bytes₂ t.st).length)
    (hp : 0 < preferred I s) (hc : Chunks (R .r) (preferred I s) so size) (hc₂ : Chunks (R₂ .w) (preferred I s) dst size) :
    ∃ s' t' n, copyBuffer I J s so size t dst = some (s', t', n) ∧ n ≤ size ∧ bytes s'.st = bytes s.st ∧
      bytes₂ t'.st = written (bytes₂ t.st) dst (range (bytes s.st) so n) ∧ t'.mutated = true ∧ (Full J → n = size) := by
  unfold copyBuffer
  rw [if_pos ⟨by rw [L.size _ hi]; exact hb, by rw [K.size _ hi₂]; exact hb₂, hh, hh₂⟩, if_neg (by omega)]
  obtain ⟨s', t', n, e, hn, hbs, hbt, hm, hf⟩ := copyLoop_spec L K hF (preferred I s) so dst size (size / preferred I s) 0 s t hi hi₂ hh hh₂ hb hb₂
    (chunks_fit _ _) (fun k _ hk => hc.1 k (by omega)) (by rw [rest_eq, Nat.zero_add]; exact hc.2)
    (fun k _ hk => hc₂.1 k (by omega)) (by rw [rest_eq, Nat.zero_add]; exact hc₂.2)
  simp only [Nat.zero_mul, Nat.add_zero, Nat.zero_add] at e hn hf hbt
  exact ⟨s', t', n, e, hn, hbs, hbt, hm, hf⟩

/-! ## C32 for plain memory, with the callbacks of `DataBuffer.c` and with any preferred map size -/

theorem plain_law (p : Nat) : Law (plainInterface p) Buffer.mem (fun _ => True) (fun _ _ _ => True) where
  size _ _ := rfl
  map s off n a _ hb _ := by
    refine ⟨{ offset := off, size := n, hint := a, mem := range s.mem off n }, ?_, rfl, Nat.le_refl _, rfl, ?_, ?_, ?_⟩
    · show (slice s.mem off n).bind _ = _
      rw [slice_eq hb]; rfl
    · rw [range_length hb]; exact Nat.le_refl _
    · intro _
      exact List.take_of_length_le (by rw [range_length hb]; exact Nat.le_refl _)
    · intro new hl hc
      have hd : new ++ (range s.mem off n).drop n = new := by
        rw [List.drop_eq_nil_of_le (by rw [range_length hb]; exact Nat.le_refl _), List.append_nil]
      simp only [hd]
      show ∃ s', (if a.write = true then (overwrite s.mem off new).bind (fun mem => some { s with mem := mem }) else some s) = some s' ∧ _
      by_cases hw : a.write = true
      · rw [if_pos hw, overwrite_eq (by simp only at hl; omega), if_pos hw]
        exact ⟨_, rfl, trivial, rfl, rfl⟩
      · rw [if_neg hw, if_neg hw]
        exact ⟨_, rfl, trivial, rfl, rfl⟩

theorem plain_full (p : Nat) : Full (plainInterface p) := by
  intro s off n a m h
  unfold plainInterface bufferInterface at h
  simp only [Option.bind_eq_bind, Option.bind_eq_some_iff] at h
  obtain ⟨ptr, -, h⟩ := h
  rw [← Option.some.inj h]

/-- **C32 for every preferred map size**: writing and then reading any two ranges through maps of any size gives the written
bytes inside the range written and the previous bytes outside it. -/
theorem C32_write_read (p : Nat) (hp : 0 < p) (d : Data Buffer) (hr : d.st.hint.read = true) (hw : d.st.hint.write = true)
    (off size : Nat) (src : List Cell) (hb : off + size ≤ d.st.mem.length) (hs : src.length = size)
    (off₂ size₂ : Nat) (buf : List Cell) (hb₂ : off₂ + size₂ ≤ d.st.mem.length) (hs₂ : buf.length = size₂) :
    ∃ d₁ d₂ out, writeBuffer (plainInterface p) d off size src = some (d₁, size) ∧
      readBuffer (plainInterface p) d₁ off₂ size₂ buf = some (d₂, out, size₂) ∧
      ∀ i, i < size₂ → out[i]? = if off ≤ off₂ + i ∧ off₂ + i < off + size then src[off₂ + i - off]? else d.st.mem[off₂ + i]? := by
  have hpp : ∀ x : Data Buffer, preferred (plainInterface p) x = p := fun _ => rfl
  -- the access rights do not change
  have hhint : ∀ (s s' : Buffer) m, (plainInterface p).unmap s m = some s' → s'.hint = s.hint := by
    intro s s' m h
    have h : (if m.hint.write = true then (overwrite s.mem m.offset m.mem).bind (fun mem => some { s with mem := mem }) else some s) = some s' := h
    split at h
    · simp only [Option.bind_eq_some_iff] at h
      obtain ⟨_, -, h⟩ := h
      rw [← Option.some.inj h]
    · rw [← Option.some.inj h]
  have L' : Law (plainInterface p) Buffer.mem (fun s => s.hint = d.st.hint) (fun _ _ _ => True) :=
    { size := fun _ _ => rfl
      map := fun s off n a hi hb _ => by
        obtain ⟨m, e, h1, h2, h3, h4, h5, h6⟩ := (plain_law p).map s off n a trivial hb trivial
        refine ⟨m, e, h1, h2, h3, h4, h5, fun new hn hc => ?_⟩
        obtain ⟨s', eu, -, hh, hb'⟩ := h6 new hn hc
        exact ⟨s', eu, by rw [hhint _ _ _ eu, hi], hh, hb'⟩ }
  obtain ⟨d₁, n, e1, hn, hb1, hi1, -, hf1⟩ := C32_write L' rfl d rfl hw off size src hb (by omega) (by rw [hpp]; exact hp) ⟨fun _ _ => trivial, trivial⟩
  have hn1 := hf1 (plain_full p)
  subst hn1
  have hrs : range src 0 n = src := by unfold range; rw [List.drop_zero]; exact List.take_of_length_le (by omega)
  rw [hrs] at hb1
  have hl1 : d₁.st.mem.length = d.st.mem.length := by rw [hb1]; exact written_length (by omega)
  obtain ⟨d₂, k, e2, hk, hb2, -, hf2⟩ := C32_read L' rfl d₁ hi1 (by show d₁.st.hint.read = true; rw [hi1]; exact hr) off₂ size₂ buf (by omega) (by omega) (by rw [hpp]; exact hp) ⟨fun _ _ => trivial, trivial⟩
  have hk2 := hf2 (plain_full p)
  subst hk2
  refine ⟨d₁, d₂, _, e1, e2, ?_⟩
  intro i hi
  have hrl : (range d₁.st.mem off₂ k).length = k := range_length (by omega)
  rw [written_get (by omega), if_pos (by omega), range_get, Nat.sub_zero, if_pos hi, hb1, written_get (by omega), hs]

/-- **C32 for `CCDataBuffer`** with its own read, write, fill and copy. -/
theorem C32_buffer (d : Data Buffer) (hr : d.st.hint.read = true) (hw : d.st.hint.write = true) (off size : Nat) (hb : off + size ≤ d.st.mem.length) :
    (∀ buf : List Cell, size ≤ buf.length → readBuffer bufferInterface d off size buf = some (d, written buf 0 (range d.st.mem off size), size)) ∧
    (∀ buf : List Cell, size ≤ buf.length → writeBuffer bufferInterface d off size buf =
      some ({ d with st := { d.st with mem := written d.st.mem off (range buf 0 size) }, mutated := true }, size)) ∧
    (∀ v, fillBuffer bufferInterface d off size v =
      some ({ d with st := { d.st with mem := written d.st.mem off (List.replicate size (some v)) }, mutated := true }, size)) ∧
    (∀ (t : Data Buffer) dst, t.st.hint.write = true → dst + size ≤ t.st.mem.length → copyDirect bufferInterface d off size t dst =
      some ({ t with st := { t.st with mem := written t.st.mem dst (range d.st.mem off size) }, mutated := true }, size)) := by
  have hrl : (range d.st.mem off size).length = size := range_length hb
  refine ⟨fun buf hl => ?_, fun buf hl => ?_, fun v => ?_, fun t dst ht hl => ?_⟩
  · unfold readBuffer
    rw [if_pos ⟨hb, hr⟩]
    show ((slice d.st.mem off size).bind fun src => (overwrite buf 0 src).bind fun buf => some (size, buf)).bind _ = _
    rw [slice_eq hb, Option.bind_some, overwrite_eq (by omega)]; rfl
  · have hrl2 : (range buf 0 size).length = size := range_length (by omega)
    unfold writeBuffer
    rw [if_pos ⟨hb, hw⟩]
    show ((slice buf 0 size).bind fun src => (overwrite d.st.mem off src).bind fun mem => some (size, { d.st with mem := mem })).bind _ = _
    rw [slice_eq (by omega), Option.bind_some, overwrite_eq (by omega)]; rfl
  · unfold fillBuffer
    rw [if_pos ⟨hb, hw⟩]
    show ((overwrite d.st.mem off (List.replicate size (some v))).bind fun mem => some (size, { d.st with mem := mem })).bind _ = _
    rw [overwrite_eq (by simpa using hb)]; rfl
  · unfold copyDirect
    rw [if_pos ⟨hb, hl, hr, ht⟩]
    show ((slice d.st.mem off size).bind fun src => (overwrite t.st.mem dst src).bind fun mem => some (size, { t.st with mem := mem })).bind _ = _
    rw [slice_eq hb, Option.bind_some, overwrite_eq (by omega)]; rfl

/-! ## C32 for `CCDataContainer` -/

theorem container_chunks {R : Nat → Nat → Prop} {off size : Nat} (hs : size < sizeMax) (h : R off size) : Chunks R sizeMax off size := by
  have h0 : size / sizeMax = 0 := Nat.div_eq_of_lt hs
  have h1 : size % sizeMax = size := Nat.mod_eq_of_lt hs
  refine ⟨fun k hk => by omega, ?_⟩
  rw [h0, h1, Nat.zero_mul, Nat.add_zero]; exact h

/-- **C32 for `CCDataContainer` (partial), read**: any range of at least one byte, whatever the element size. Missing: ranges of zero
bytes at the start of an element (`C32_container_refuted`). -/
theorem C32_container_read_partial (d : Data Container) (es count : Nat) (hes : 0 < es) (hd : Shape es count d.st) (hh : d.st.hint.read = true)
    (off size : Nat) (buf : List Cell) (hb : off + size ≤ (cbytes d.st).length) (hbuf : size ≤ buf.length) (hpos : 0 < size) (hs : size < sizeMax) :
    ∃ d', readBuffer containerInterface d off size buf = some (d', written buf 0 (range (cbytes d.st) off size), size) ∧
      cbytes d'.st = cbytes d.st := by
  obtain ⟨d', n, e, -, hb', -, hf⟩ := C32_read (container_law es count hes) rfl d hd hh off size buf hb hbuf (show 0 < sizeMax by decide)
    (container_chunks hs ⟨Or.inl hpos, fun h => by cases h⟩)
  have hn := hf container_full
  subst hn
  exact ⟨d', e, hb'⟩

/-- **C32 for `CCDataContainer` (partial), write and fill**: ranges of whole elements. Missing: ranges that cover an element in part. -/
theorem C32_container_write_partial (d : Data Container) (es count : Nat) (hes : 0 < es) (hd : Shape es count d.st) (hh : d.st.hint.write = true)
    (off size : Nat) (hb : off + size ≤ (cbytes d.st).length) (hpos : 0 < size) (hs : size < sizeMax)
    (ha : off % es = 0) (hz : size % es = 0) :
    (∀ buf : List Cell, size ≤ buf.length →
      ∃ d', writeBuffer containerInterface d off size buf = some (d', size) ∧ cbytes d'.st = written (cbytes d.st) off (range buf 0 size)) ∧
    (∀ v, ∃ d', fillBuffer containerInterface d off size v = some (d', size) ∧
      cbytes d'.st = written (cbytes d.st) off (List.replicate size (some v))) := by
  have hch : Chunks (CRight es count .w) (preferred containerInterface d) off size :=
    container_chunks hs ⟨Or.inl hpos, fun _ => Or.inr ⟨ha, hz⟩⟩
  constructor
  · intro buf hbuf
    obtain ⟨d', n, e, -, hb', -, -, hf⟩ := C32_write (container_law es count hes) rfl d hd hh off size buf hb hbuf (show 0 < sizeMax by decide) hch
    have hn := hf container_full
    subst hn
    exact ⟨d', e, hb'⟩
  · intro v
    obtain ⟨d', n, e, -, hb', -, -, hf⟩ := C32_fill (container_law es count hes) rfl d hd hh off size v hb (show 0 < sizeMax by decide) hch
    have hn := hf container_full
    subst hn
    exact ⟨d', e, hb'⟩

/-- **C32 is false for `CCDataContainer`**: writing the first byte of a two-byte element replaces the second byte by uninitialised
memory, and reading zero bytes overruns the staging block. -/
theorem C32_container_refuted :
    (writeBuffer containerInterface (create ⟨2, [[some 1, some 2]], ⟨true, true⟩⟩) 0 1 [some 9]).map (fun r => cbytes r.1.st) = some [some 9, none] ∧
    (readBuffer containerInterface (create ⟨2, [[some 1, some 2]], ⟨true, true⟩⟩) 0 0 []).isNone = true := by decide

/-! ## C33 -/

/-- The calls on a data object. `modify` stands for `CCDataSync`, `CCDataInvalidate` and `CCDataModifiedRange` after the contents
became `s`; `unmap` ends an access that was mapped by the caller. -/
inductive Op (σ : Type)
  | hash
  | modify (s : σ)
  | unmap (m : BufMap)
  | read (off size : Nat) (buf : List Cell)
  | write (off size : Nat) (buf : List Cell)
  | fill (off size : Nat) (v : UInt8)
  | resize (n : Nat)

/-- One call: the new state, and the hash if one was asked for. -/
def exec (I : Interface σ) (H : σ → Nat) (d : Data σ) : Op σ → Option (Data σ × Option Nat)
  | .hash => some ((getHash H d).2, some (getHash H d).1)
  | .modify s => some (touch d s, none)
  | .unmap m => (unmapBuffer I d m).map fun d => (d, none)
  | .read off size buf => (readBuffer I d off size buf).map fun r => (r.1, none)
  | .write off size buf => (writeBuffer I d off size buf).map fun r => (r.1, none)
  | .fill off size v => (fillBuffer I d off size v).map fun r => (r.1, none)
  | .resize n => some ((setSize I d n).2, none)

/-- A history of calls from a state on: the hashes returned, each with the contents at that time. -/
inductive Run (I : Interface σ) (H : σ → Nat) : Data σ → List (Op σ) → List (Nat × σ) → Prop
  | nil (d) : Run I H d [] []
  | quiet {d d' op ops out} : exec I H d op = some (d', none) → Run I H d' ops out → Run I H d (op :: ops) out
  | hash {d d' h ops out} : exec I H d .hash = some (d', some h) → Run I H d' ops out → Run I H d (.hash :: ops) ((h, d.st) :: out)

/-- Whether a call ends a read-only access through a map. -/
def Op.readsMap (I : Interface σ) : Op σ → Bool
  | .unmap m => !m.hint.write
  | .read .. => I.read.isNone
  | _ => false

/-- Whether contents not yet hashed are pending after a call (`true` at first). -/
def Op.pending (p : Bool) : Op σ → Bool
  | .hash => false
  | .modify _ | .write .. | .fill .. => true
  | .unmap m => m.hint.write || p
  | .read .. | .resize _ => p

/-- The histories on which the hash is right: a read-only map is ended only while nothing is pending, a resize happens only while
something is pending. -/
def Right (I : Interface σ) : Bool → List (Op σ) → Prop
  | _, [] => True
  | p, op :: ops => (op.readsMap I = true → p = false) ∧ ((∃ n, op = .resize n) → p = true) ∧ Right I (op.pending p) ops

/-- The implementation records the access in the map and leaves the contents alone when a read-only map ends. -/
structure Honest (I : Interface σ) (H : σ → Nat) : Prop where
  hint : ∀ s off n a m, I.map s off n a = some m → m.hint = a
  unmap : ∀ s m s', m.hint.write = false → I.unmap s m = some s' → H s' = H s

theorem unmap_flag {I : Interface σ} {d d' : Data σ} {m : BufMap} (h : unmapBuffer I d m = some d') :
    d'.mutated = m.hint.write ∧ d'.hash = d.hash ∧ I.unmap d.st m = some d'.st := by
  unfold unmapBuffer at h
  simp only [Option.bind_eq_bind, Option.bind_eq_some_iff] at h
  obtain ⟨s, e, h⟩ := h
  rw [← Option.some.inj h]
  exact ⟨rfl, rfl, e⟩

theorem readStep_flag {I : Interface σ} {H : σ → Nat} (hI : Honest I H) {d d' : Data σ} {off n : Nat} {buf buf' : List Cell} {pos k : Nat}
    (h : readStep I d off n buf pos = some (d', buf', k)) : d'.mutated = false ∧ d'.hash = d.hash ∧ H d'.st = H d.st := by
  unfold readStep mapBuffer at h
  simp only [Option.bind_eq_bind, Option.bind_eq_some_iff] at h
  obtain ⟨m, hm, src, -, b, -, x, hx, h⟩ := h
  split at hm
  · have hh := hI.hint _ _ _ _ _ hm
    obtain ⟨h1, h2, h3⟩ := unmap_flag hx
    simp only [Option.some.injEq, Prod.mk.injEq] at h
    rw [← h.1]
    rw [hh] at h1
    exact ⟨h1, h2, hI.unmap _ _ _ (by rw [hh]; rfl) h3⟩
  · cases hm

theorem readLoop_flag {I : Interface σ} {H : σ → Nat} (hI : Honest I H) {p off size left loop : Nat} {d d' : Data σ} {buf buf' : List Cell} {read k : Nat}
    (h : readLoop I p off size left loop d buf read = some (d', buf', k)) : d'.mutated = false ∧ d'.hash = d.hash ∧ H d'.st = H d.st := by
  induction left generalizing loop d buf read with
  | zero =>
    unfold readLoop at h
    simp only [Option.bind_eq_bind, Option.bind_eq_some_iff] at h
    obtain ⟨⟨x, b, n⟩, hx, h⟩ := h
    simp only [Option.some.injEq, Prod.mk.injEq] at h
    rw [← h.1]
    exact readStep_flag hI hx
  | succ left ih =>
    unfold readLoop at h
    simp only [Option.bind_eq_bind, Option.bind_eq_some_iff] at h
    obtain ⟨⟨x, b, n⟩, hx, h⟩ := h
    obtain ⟨h1, h2, h3⟩ := readStep_flag hI hx
    simp only at h
    split at h
    · simp only [Option.some.injEq, Prod.mk.injEq] at h
      rw [← h.1]
      exact ⟨h1, h2, h3⟩
    · obtain ⟨i1, i2, i3⟩ := ih h
      exact ⟨i1, by rw [i2, h2], by rw [i3, h3]⟩

theorem writeStep_flag {I : Interface σ} {H : σ → Nat} (hI : Honest I H) {d d' : Data σ} {off n : Nat} {src : Nat → Option (List Cell)} {k : Nat}
    (h : writeStep I d off n src = some (d', k)) : d'.mutated = true := by
  unfold writeStep mapBuffer at h
  simp only [Option.bind_eq_bind, Option.bind_eq_some_iff] at h
  obtain ⟨m, hm, new, -, b, -, x, hx, h⟩ := h
  split at hm
  · have hh := hI.hint _ _ _ _ _ hm
    obtain ⟨h1, h2, h3⟩ := unmap_flag hx
    simp only [Option.some.injEq, Prod.mk.injEq] at h
    rw [← h.1, h1]
    show m.hint.write = true
    rw [hh]; rfl
  · cases hm

theorem writeLoop_flag {I : Interface σ} {H : σ → Nat} (hI : Honest I H) {src : Nat → Nat → Option (List Cell)} {p off size left loop : Nat} {d d' : Data σ}
    {w k : Nat} (h : writeLoop I src p off size left loop d w = some (d', k)) : d'.mutated = true := by
  induction left generalizing loop d w with
  | zero =>
    unfold writeLoop at h
    simp only [Option.bind_eq_bind, Option.bind_eq_some_iff] at h
    obtain ⟨⟨x, n⟩, hx, h⟩ := h
    simp only [Option.some.injEq, Prod.mk.injEq] at h
    rw [← h.1]
  | succ left ih =>
    unfold writeLoop at h
    simp only [Option.bind_eq_bind, Option.bind_eq_some_iff] at h
    obtain ⟨⟨x, n⟩, hx, h⟩ := h
    simp only at h
    split at h
    · simp only [Option.some.injEq, Prod.mk.injEq] at h
      rw [← h.1]
      exact writeStep_flag hI hx
    · exact ih h

theorem writeBuffer_flag {I : Interface σ} {H : σ → Nat} (hI : Honest I H) {d : Data σ} {off size : Nat} {buf : List Cell} {r : Data σ × Nat}
    (h : writeBuffer I d off size buf = some r) : r.1.mutated = true := by
  unfold writeBuffer at h
  split at h
  · split at h
    · simp only [Option.bind_eq_bind, Option.bind_eq_some_iff] at h
      obtain ⟨_, -, h⟩ := h
      rw [← Option.some.inj h]
    · split at h
      · cases h
      · exact writeLoop_flag hI (d' := r.1) (k := r.2) h
  · cases h

theorem fillBuffer_flag {I : Interface σ} {H : σ → Nat} (hI : Honest I H) {d : Data σ} {off size : Nat} {v : UInt8} {r : Data σ × Nat}
    (h : fillBuffer I d off size v = some r) : r.1.mutated = true := by
  unfold fillBuffer at h
  split at h
  · split at h
    · simp only [Option.bind_eq_bind, Option.bind_eq_some_iff] at h
      obtain ⟨_, -, h⟩ := h
      rw [← Option.some.inj h]
    · split at h
      · cases h
      · exact writeLoop_flag hI (d' := r.1) (k := r.2) h
  · cases h

/-- A successful read: through the callback it changes nothing, through maps it clears the flag. -/
theorem readBuffer_flag {I : Interface σ} {H : σ → Nat} (hI : Honest I H) {d : Data σ} {off size : Nat} {buf : List Cell} {r : Data σ × List Cell × Nat}
    (h : readBuffer I d off size buf = some r) :
    (I.read.isSome = true → r.1 = d) ∧ (I.read.isNone = true → r.1.mutated = false ∧ r.1.hash = d.hash ∧ H r.1.st = H d.st) := by
  unfold readBuffer at h
  split at h
  · split at h
    · rename_i f hf
      simp only [Option.bind_eq_bind, Option.bind_eq_some_iff] at h
      obtain ⟨_, -, h⟩ := h
      rw [← Option.some.inj h]
      exact ⟨fun _ => rfl, fun hn => by simp [hf] at hn⟩
    · rename_i hf
      split at h
      · cases h
      · exact ⟨fun hn => by simp [hf] at hn, fun _ => readLoop_flag hI (d' := r.1) (buf' := r.2.1) (k := r.2.2) h⟩
  · cases h

theorem right_run {I : Interface σ} {H : σ → Nat} (hI : Honest I H) {d : Data σ} {ops : List (Op σ)} {out : List (Nat × σ)}
    (hrun : Run I H d ops out) (p : Bool) (hp : d.mutated = p) (hfresh : p = false → d.hash = H d.st) (hr : Right I p ops) :
    ∀ x ∈ out, x.1 = H x.2 := by
  induction hrun generalizing p with
  | nil => simp
  | @quiet d d' op ops out he hrest ih =>
    obtain ⟨hr1, hr2, hr3⟩ := hr
    have key : d'.mutated = op.pending p ∧ (op.pending p = false → d'.hash = H d'.st) := by
      cases op with
      | hash => simp [exec] at he
      | modify s =>
        simp only [exec, Option.some.injEq, Prod.mk.injEq] at he
        rw [← he.1]
        exact ⟨rfl, fun h => by cases h⟩
      | unmap m =>
        simp only [exec, Option.map_eq_some_iff, Prod.mk.injEq, and_true] at he
        obtain ⟨x, hx, rfl⟩ := he
        obtain ⟨h1, h2, h3⟩ := unmap_flag hx
        simp only [Op.readsMap] at hr1
        cases hw : m.hint.write with
        | true => simp [Op.pending, hw, h1]
        | false =>
          have hp0 : p = false := hr1 (by simp [hw])
          simp only [Op.pending, hw, hp0, Bool.or_false]
          refine ⟨by rw [h1, hw], fun _ => ?_⟩
          rw [h2, hfresh hp0, hI.unmap _ _ _ hw h3]
      | read off size buf =>
        simp only [exec, Option.map_eq_some_iff, Prod.mk.injEq, and_true] at he
        obtain ⟨x, hx, rfl⟩ := he
        obtain ⟨h1, h2⟩ := readBuffer_flag hI hx
        simp only [Op.readsMap] at hr1
        simp only [Op.pending]
        cases hn : I.read.isNone with
        | true =>
          obtain ⟨g1, g2, g3⟩ := h2 hn
          have hp0 : p = false := hr1 hn
          exact ⟨by rw [g1, hp0], fun _ => by rw [g2, g3]; exact hfresh hp0⟩
        | false =>
          rw [h1 (by cases h : I.read <;> simp_all)]
          exact ⟨hp, hfresh⟩
      | write off size buf =>
        simp only [exec, Option.map_eq_some_iff, Prod.mk.injEq, and_true] at he
        obtain ⟨x, hx, rfl⟩ := he
        exact ⟨writeBuffer_flag hI hx, fun h => by cases h⟩
      | fill off size v =>
        simp only [exec, Option.map_eq_some_iff, Prod.mk.injEq, and_true] at he
        obtain ⟨x, hx, rfl⟩ := he
        exact ⟨fillBuffer_flag hI hx, fun h => by cases h⟩
      | resize n =>
        simp only [exec, Option.some.injEq, Prod.mk.injEq, and_true] at he
        have hp1 : p = true := hr2 ⟨n, rfl⟩
        have hm : (setSize I d n).2.mutated = d.mutated := by
          unfold setSize
          split
          · split <;> rfl
          · rfl
        rw [← he]
        exact ⟨by rw [hm, hp]; rfl, fun h => by { rw [show Op.pending p (.resize n : Op σ) = p from rfl, hp1] at h; cases h }⟩
    exact ih _ key.1 key.2 hr3
  | @hash d d' h ops out he hrest ih =>
    obtain ⟨hr1, hr2, hr3⟩ := hr
    simp only [exec, Option.some.injEq, Prod.mk.injEq] at he
    have key : h = H d.st ∧ d'.mutated = false ∧ d'.hash = H d'.st := by
      rw [← he.1, ← he.2]
      unfold getHash
      cases hm : d.mutated with
      | true => simp
      | false =>
        rw [if_neg (by simp)]
        exact ⟨hfresh (by rw [← hp, hm]), hm, hfresh (by rw [← hp, hm])⟩
    intro x hx
    rcases List.mem_cons.1 hx with rfl | hx
    · exact key.1
    · exact ih false key.2.1 (fun _ => key.2.2) hr3 x hx

/-- **C33 (partial)**: on every history in which read-only maps end only while nothing modified is waiting to be hashed, and the size
changes only while something is, every hash returned is the hash of the contents at that time. Missing: the other histories, where the
property is false. -/
theorem C33_partial (I : Interface σ) (H : σ → Nat) (hI : Honest I H) (internal : σ) (ops : List (Op σ)) (out : List (Nat × σ))
    (hrun : Run I H (create internal) ops out) (hr : Right I true ops) : ∀ x ∈ out, x.1 = H x.2 :=
  right_run hI hrun true rfl (fun h => by cases h) hr

/-- **C33 is false as stated**: if a read-only map is ended at any time, by the caller or inside a read, the next hash is the last
one computed (zero at first), whatever happened to the contents in between. -/
theorem C33_stale (I : Interface σ) (H : σ → Nat) (hI : Honest I H) (d d' : Data σ) (op : Op σ) (hop : op.readsMap I = true)
    (he : exec I H d op = some (d', none)) : exec I H d' .hash = some (d', some d.hash) := by
  have key : d'.mutated = false ∧ d'.hash = d.hash := by
    cases op with
    | unmap m =>
      simp only [exec, Option.map_eq_some_iff, Prod.mk.injEq, and_true] at he
      obtain ⟨x, hx, rfl⟩ := he
      obtain ⟨h1, h2, h3⟩ := unmap_flag hx
      simp only [Op.readsMap] at hop
      exact ⟨by rw [h1]; simpa using hop, h2⟩
    | read off size buf =>
      simp only [exec, Option.map_eq_some_iff, Prod.mk.injEq, and_true] at he
      obtain ⟨x, hx, rfl⟩ := he
      obtain ⟨g1, g2, g3⟩ := (readBuffer_flag hI hx).2 hop
      exact ⟨g1, g2⟩
    | _ => simp [Op.readsMap] at hop
  simp only [exec, getHash, key.1, key.2]
  rfl

/-- A new container of one byte, read and then hashed: the hash is zero, for every hash function. -/
theorem C33_refuted (H : Container → Nat) : ∃ d, exec containerInterface H (create ⟨1, [[some 7]], ⟨true, true⟩⟩) (.read 0 1 [none]) = some (d, none) ∧
    d.st = ⟨1, [[some 7]], ⟨true, true⟩⟩ ∧ exec containerInterface H d .hash = some (d, some 0) := by
  refine ⟨⟨⟨1, [[some 7]], ⟨true, true⟩⟩, 0, false⟩, ?_, rfl, rfl⟩
  have : (readBuffer containerInterface (create ⟨1, [[some 7]], ⟨true, true⟩⟩) 0 1 [none]).map (fun r => (r.1.st, r.1.hash, r.1.mutated)) =
      some (⟨1, [[some 7]], ⟨true, true⟩⟩, 0, false) := by decide
  simp only [Option.map_eq_some_iff, Prod.mk.injEq] at this
  obtain ⟨⟨⟨s, h, m⟩, b, n⟩, e, e1, e2, e3⟩ := this
  simp only at e1 e2 e3
  simp only [exec, e, Option.map_some, e1, e2, e3]

/-- A change of size does not renew the hash either. -/
theorem C33_resize_refuted (H : Buffer → Nat) (s : Buffer) (n : Nat) :
    ∃ d d', exec bufferInterface H (create s) .hash = some (d, some (H s)) ∧ exec bufferInterface H d (.resize n) = some (d', none) ∧
      d'.st.mem.length = n ∧ exec bufferInterface H d' .hash = some (d', some (H s)) := by
  refine ⟨_, _, rfl, rfl, ?_, rfl⟩
  show (s.mem.take n ++ List.replicate (n - s.mem.length) none).length = n
  simp; omega

/-! ## Examples -/

theorem buffer_honest (H : Buffer → Nat) : Honest bufferInterface H where
  hint s off n a m h := by
    unfold bufferInterface at h
    simp only [Option.bind_eq_bind, Option.bind_eq_some_iff] at h
    obtain ⟨_, -, h⟩ := h
    rw [← Option.some.inj h]
  unmap s m s' hw h := by
    have h : (if m.hint.write = true then _ else some s) = some s' := h
    rw [hw, if_neg (by simp)] at h
    rw [Option.some.inj h]

theorem container_honest (H : Container → Nat) : Honest containerInterface H where
  hint s off n a m h := by
    unfold containerInterface at h
    simp only [Option.bind_eq_bind, Option.bind_eq_some_iff] at h
    obtain ⟨_, -, h⟩ := h
    rw [← Option.some.inj h]
  unmap s m s' hw h := by
    unfold containerInterface at h
    simp only [Option.bind_eq_bind, Option.bind_eq_some_iff] at h
    obtain ⟨_, -, h⟩ := h
    unfold containerUnstage at h
    simp only [hw] at h
    split at h
    · cases h
    · rw [← Option.some.inj h]

/-- A history that meets the hypotheses of `C33_partial`. -/
example : Right containerInterface true
    [.write 0 2 [some 1, some 2], .hash, .read 0 2 [none, none], .unmap ⟨0, 1, .r, [none]⟩, .hash, .fill 0 2 3, .hash] := by
  simp [Right, Op.readsMap, Op.pending, containerInterface, Access.r]

/-- Reads and writes in chunks of two of five bytes. -/
example : Chunks (fun _ _ => True) 2 1 5 := ⟨fun _ _ => trivial, trivial⟩
example : (readBuffer (plainInterface 2) (create ⟨[some 1, some 2, some 3, some 4, some 5, some 6], ⟨true, false⟩⟩) 1 5
    (List.replicate 5 none)).map (fun r => r.2) = some ([some 2, some 3, some 4, some 5, some 6], 5) := by decide
/-- A partial element at both ends of a read. -/
example : Shape 2 3 ⟨2, [[some 1, some 2], [some 3, some 4], [some 5, some 6]], ⟨true, true⟩⟩ := ⟨rfl, rfl, by decide⟩
example : (readBuffer containerInterface (create ⟨2, [[some 1, some 2], [some 3, some 4], [some 5, some 6]], ⟨true, true⟩⟩) 1 4
    (List.replicate 4 none)).map (fun r => r.2) = some ([some 2, some 3, some 4, some 5], 4) := by decide
example : (writeBuffer containerInterface (create ⟨2, [[some 1, some 2], [some 3, some 4], [some 5, some 6]], ⟨true, true⟩⟩) 2 4
    [some 9, some 9, some 8, some 8]).map (fun r => cbytes r.1.st) = some [some 1, some 2, some 9, some 9, some 8, some 8] := by decide

#print axioms C32_read
#print axioms C32_write
#print axioms C32_fill
#print axioms C32_copy
#print axioms C32_write_read
#print axioms C32_buffer
#print axioms C32_container_read_partial
#print axioms C32_container_write_partial
#print axioms C32_container_refuted
#print axioms C33_partial
#print axioms C33_stale
#print axioms C33_refuted
#print axioms C33_resize_refuted

end Verif.Data
