import Verif.AllocError
/-!
# C155: what a failed allocation does
-/
namespace Verif.AllocError

/-- **C155, the callback**: memory that could be allocated is returned and nobody is told.  Otherwise the callback is called, first of all
and with the data of the caller; it is told where the call is, the allocator, the size and for a reallocation the pointer; what it returns
is returned, and if it ends the program the program ends.  Without a callback NULL is returned. -/
theorem C155_callback (fn : Fn) (a : Args) (callback : Option Callback) :
    (∀ m, call fn a (some m) callback = ⟨[], [], .ok (some m)⟩) ∧
    (∀ f, callback = some f → ∃ r, r.site = a.site ∧ r.type = a.type ∧ r.bytes = a.bytes ∧
      r.ptr = (if fn = .realloc ∨ fn = .reallocBlock then some a.ptr else none) ∧
      (call fn a none callback).told = (r, a.data) :: (f r a.data).told ∧
      (call fn a none callback).logged = (f r a.data).logged ∧ (call fn a none callback).result = (f r a.data).result) ∧
    (callback = none → call fn a none callback = ⟨[], [], .ok none⟩) := by
  refine ⟨fun m => rfl, ?_, ?_⟩
  · rintro f rfl
    exact ⟨report a fn, by cases fn <;> rfl, by cases fn <;> rfl, by cases fn <;> rfl, by cases fn <;> rfl, rfl, rfl, rfl⟩
  · rintro rfl; rfl

/-- **C155, who failed**: a callback can tell by the indicator whether it was told about a reallocation, and so whether what it got has a
pointer in it; but the indicator is the function that was called exactly if that is not `CCReallocBlock`. -/
theorem C155_indicator_partial (fn : Fn) (a : Args) (f : Callback) :
    ∃ r rest, (call fn a none (some f)).told = (r, a.data) :: rest ∧
      (r.ptr.isSome = true ↔ r.indicator = .realloc ∨ r.indicator = .reallocBlock) ∧ (r.indicator = fn ↔ fn ≠ .reallocBlock) := by
  refine ⟨report a fn, _, rfl, ?_, ?_⟩ <;> cases fn <;> simp [report]

/-- **C155, refuted**: `CCReallocBlock` says that `CCRealloc` failed. -/
theorem C155_indicator_refuted : ¬ ∀ (fn : Fn) (a : Args) (f : Callback) r rest,
    (call fn a none (some f)).told = r :: rest → r.1.indicator = fn := by
  intro h
  have := h .reallocBlock ⟨⟨"", "", 0⟩, 0, none, 1, 0⟩ errorLog _ _ rfl
  simp [report] at this

/-- **C155, the two callbacks of the library**: both log one message at the place of the call, and that only if there is no memory.  With
the first NULL is then returned.  With the second NULL is never returned: the program ends, with status 0, which means success. -/
theorem C155_library (fn : Fn) (a : Args) (memory : Option Nat) :
    (call fn a memory (some errorLog)).result = .ok memory ∧
    (call fn a memory (some errorLogAndExit)).result = (match memory with | some m => .ok (some m) | none => .error 0) ∧
    ∀ f, f = errorLog ∨ f = errorLogAndExit →
      (memory.isSome = true → (call fn a memory (some f)).logged = []) ∧
      (memory = none → ∃ text, text ≠ "" ∧ (call fn a memory (some f)).logged = [(a.site, text)]) := by
  refine ⟨by cases memory <;> rfl, by cases memory <;> rfl, ?_⟩
  rintro f (rfl | rfl) <;> refine ⟨fun h => ?_, fun h => ?_⟩
  · cases memory with
    | none => simp at h
    | some m => rfl
  · subst h
    exact ⟨(report a fn).info, by cases fn <;> simp [report], by cases fn <;> rfl⟩
  · cases memory with
    | none => simp at h
    | some m => rfl
  · subst h
    exact ⟨(report a fn).info, by cases fn <;> simp [report], by cases fn <;> rfl⟩

/-- **C155, the macros**: after `CC_SAFE_Malloc` the variable holds the memory, or NULL and the statements for the failure were run.  After
`CC_SAFE_Realloc` the variable holds the new memory, or what it held before and the statements were run: the old memory is not lost. -/
theorem C155_safe (a : Args) (x memory : Option Nat) :
    (safeMalloc a memory).2 = .ok (memory, memory.isNone) ∧
    (safeRealloc a x memory).2 = .ok (memory.orElse fun _ => x, memory.isNone) ∧
    ((safeMalloc a memory).1 = [] ↔ memory.isSome = true) ∧ ((safeRealloc a x memory).1 = [] ↔ memory.isSome = true) := by
  cases memory with
  | none => exact ⟨rfl, rfl, by simp [safeMalloc, call, errorLog], by simp [safeRealloc, call, errorLog]⟩
  | some m => exact ⟨rfl, rfl, by simp [safeMalloc, call], by simp [safeRealloc, call]⟩

/-- **C155, trying again**: with callbacks that try again, however many, the first memory any attempt gets is returned, NULL if none gets
any; the callback is called once for each attempt that failed, the last aside, which has none. -/
theorem C155_again (fn : Fn) (a : Args) (outcomes : List (Option Nat)) :
    (attempts fn a outcomes).result = .ok (outcomes.findSome? id) ∧
    (attempts fn a outcomes).told.length = min (outcomes.takeWhile (·.isNone)).length (outcomes.length - 1) := by
  induction outcomes with
  | nil => exact ⟨rfl, rfl⟩
  | cons m ms ih =>
    cases ms with
    | nil => cases m <;> exact ⟨rfl, by simp [attempts, call]⟩
    | cons m' ms =>
      cases m with
      | some m => exact ⟨rfl, by simp [attempts, call]⟩
      | none =>
        refine ⟨?_, ?_⟩
        · simp only [attempts, call, ih.1]; rfl
        · simp only [attempts, call, List.length_cons, ih.2, List.takeWhile_cons, Option.isNone_none, if_true]
          omega

/-! ### Cases -/

/-- The third attempt gets memory; two callbacks were called. -/
example : (match (attempts .malloc ⟨⟨"a.c", "f", 3⟩, 0, none, 16, 9⟩ [none, none, some 5, some 6]).result with | .ok r => r | _ => none) = some 5 ∧
    (attempts .malloc ⟨⟨"a.c", "f", 3⟩, 0, none, 16, 9⟩ [none, none, some 5, some 6]).told.length = 2 := by decide

example : (call .reallocBlock ⟨⟨"a.c", "f", 3⟩, 0, some 7, 16, 9⟩ none (some errorLog)).told =
    [(⟨.realloc, "Failed to reallocate memory.", ⟨"a.c", "f", 3⟩, 0, some (some 7), 16⟩, 9)] := rfl

example : Fn.malloc ≠ .reallocBlock := by decide

#print axioms C155_callback
#print axioms C155_indicator_partial
#print axioms C155_indicator_refuted
#print axioms C155_library
#print axioms C155_safe
#print axioms C155_again

end Verif.AllocError
