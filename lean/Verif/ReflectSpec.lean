import Verif.Reflect
import Verif.VarIntProps
/-!
# Specification for C76, C77, C78: what data of a type is, when two data are alike
-/
namespace Verif.Reflect

/-- The size of the data of a type. -/
inductive Sized (env : Env) : Nat → Nat → Prop where
  | void {t} : env.ty t = some .void → Sized env t 1
  | pointer {t g o} : env.ty t = some (.pointer g o) → Sized env t 8
  | integer {t n e s f} : env.ty t = some (.integer n e s f) → Sized env t n
  | float {t n e} : env.ty t = some (.float n e) → Sized env t n
  | struct {t n fs} : env.ty t = some (.struct n fs) → Sized env t n
  | array {t e c s} : env.ty t = some (.array e c) → Sized env e s → Sized env t (s * c)
  | validator {t b s} : env.ty t = some (.validator b) → Sized env b s → Sized env t s

/-- The fields of every structure lie within it and do not overlap. -/
def Layout (env : Env) : Prop :=
  ∀ t n fs, env.ty t = some (.struct n fs) →
    (∀ p ∈ fs, ∃ s, Sized env p.2 s ∧ p.1 + s ≤ n) ∧
    fs.Pairwise fun p q => ∀ s r, Sized env p.2 s → Sized env q.2 r → p.1 + s ≤ q.1 ∨ q.1 + r ≤ p.1

/-- The data of type `t` at `a₁` in the one memory and at `a₂` in the other are alike: the numbers are the same, a pointer is
null in both; or, when pointers of its kind are kept, the same in both; or else points to data that are alike. -/
inductive Like (env : Env) (keep : Nat → Ownership → Bool) (m₁ m₂ : Mem) : Nat → Nat → Nat → Prop where
  | void {t a₁ a₂} : env.ty t = some .void → Like env keep m₁ m₂ t a₁ a₂
  | null {t g o a₁ a₂} : env.ty t = some (.pointer g o) → ptr m₁ a₁ = 0 → ptr m₂ a₂ = 0 → Like env keep m₁ m₂ t a₁ a₂
  | kept {t g o a₁ a₂} : env.ty t = some (.pointer g o) → keep g o = true → ptr m₁ a₁ ≠ 0 → ptr m₂ a₂ = ptr m₁ a₁ →
      Like env keep m₁ m₂ t a₁ a₂
  | deep {t g o a₁ a₂} : env.ty t = some (.pointer g o) → keep g o = false → ptr m₁ a₁ ≠ 0 → ptr m₂ a₂ ≠ 0 →
      Like env keep m₁ m₂ g (ptr m₁ a₁) (ptr m₂ a₂) → Like env keep m₁ m₂ t a₁ a₂
  | integer {t n e s f a₁ a₂} : env.ty t = some (.integer n e s f) → bytes m₁ a₁ n = bytes m₂ a₂ n → Like env keep m₁ m₂ t a₁ a₂
  | float {t n e a₁ a₂} : env.ty t = some (.float n e) → bytes m₁ a₁ n = bytes m₂ a₂ n → Like env keep m₁ m₂ t a₁ a₂
  | struct {t n fs a₁ a₂} : env.ty t = some (.struct n fs) →
      (∀ p, p ∈ fs → Like env keep m₁ m₂ p.2 (a₁ + p.1) (a₂ + p.1)) → Like env keep m₁ m₂ t a₁ a₂
  | array {t e c s a₁ a₂} : env.ty t = some (.array e c) → Sized env e s →
      (∀ i, i < c → Like env keep m₁ m₂ e (a₁ + s * i) (a₂ + s * i)) → Like env keep m₁ m₂ t a₁ a₂
  | validator {t b a₁ a₂} : env.ty t = some (.validator b) → Like env keep m₁ m₂ b a₁ a₂ → Like env keep m₁ m₂ t a₁ a₂

/-- The type below all validators. -/
inductive Root (env : Env) : Nat → Nat → Prop where
  | base {b} : (∀ c, env.ty b ≠ some (.validator c)) → Root env b b
  | validator {b c r} : env.ty b = some (.validator c) → Root env c r → Root env b r

/-- There is data of type `t` at `a`: a finite tree (which may share parts) of which every byte is in `R`, every number is
`ok`, and which is valid for every validator, wherever data like it is. -/
inductive Data (env : Env) (keep : Nat → Ownership → Bool) (ok : Ty → List UInt8 → Prop) (m : Mem) (R : Nat → Prop) :
    Nat → Nat → Prop where
  | void {t a} : env.ty t = some .void → Data env keep ok m R t a
  | null {t g o a} : env.ty t = some (.pointer g o) → (∀ i, i < 8 → R (a + i)) → ptr m a = 0 → Data env keep ok m R t a
  | kept {t g o a} : env.ty t = some (.pointer g o) → keep g o = true → (∀ i, i < 8 → R (a + i)) → ptr m a ≠ 0 →
      Data env keep ok m R t a
  | deep {t g o a s} : env.ty t = some (.pointer g o) → keep g o = false → (∀ i, i < 8 → R (a + i)) → ptr m a ≠ 0 →
      Sized env g s → Data env keep ok m R g (ptr m a) → Data env keep ok m R t a
  | integer {t n e s f a} : env.ty t = some (.integer n e s f) → (∀ i, i < n → R (a + i)) →
      ok (.integer n e s f) (bytes m a n) → Data env keep ok m R t a
  | float {t n e a} : env.ty t = some (.float n e) → (∀ i, i < n → R (a + i)) → ok (.float n e) (bytes m a n) →
      Data env keep ok m R t a
  | struct {t n fs a} : env.ty t = some (.struct n fs) → (∀ p, p ∈ fs → Data env keep ok m R p.2 (a + p.1)) →
      Data env keep ok m R t a
  | array {t e c s a} : env.ty t = some (.array e c) → Sized env e s → (∀ i, i < c → Data env keep ok m R e (a + s * i)) →
      Data env keep ok m R t a
  | validator {t b r a} : env.ty t = some (.validator b) → Root env b r → env.success t = none →
      (∀ m' a', Like env keep m m' b a a' → env.check t r m' a' = true) → Data env keep ok m R b a → Data env keep ok m R t a

/-- What is done to memory by putting data like that at `a` in `m` to the `s` bytes at `dst`: nothing but these bytes and the
newly allocated memory is changed, and the data is there whatever happens to the rest of the memory. -/
structure Put (env : Env) (keep : Nat → Ownership → Bool) (m : Mem) (t a dst s : Nat) (st st' : St) : Prop where
  grows : st.brk ≤ st'.brk
  frame : ∀ x, ¬(dst ≤ x ∧ x < dst + s) → ¬(st.brk ≤ x ∧ x < st'.brk) → st'.mem x = st.mem x
  like : ∀ m', (∀ x, (dst ≤ x ∧ x < dst + s) ∨ (st.brk ≤ x ∧ x < st'.brk) → m' x = st'.mem x) → Like env keep m m' t a dst

/-- Which pointers are the same in the copy: all when the data is transferred, those to `void`, weak ones unless asked for,
and retained ones when they are shared. -/
def keeps (env : Env) (asg : Assignment) (g : Nat) (o : Ownership) : Bool :=
  (asg.kind = .transfer && !asg.weak) || decide (env.ty g = some .void) || (o = .weak && !asg.weak)
    || (o = .retain && asg.kind = .share)

/-- The pointers that have one more owner after the copy: those of data that is shared and is retained by its owner, and
retained pointers to `void`, unless the data is transferred. -/
def refs (env : Env) (asg : Assignment) (m : Mem) : Nat → Nat → Nat → List Nat
  | 0, _, _ => []
  | k + 1, t, a =>
    match env.ty t with
    | some (.pointer g o) =>
      if ptr m a = 0 then []
      else if keeps env asg g o then
        if o = .retain ∧ (asg.kind ≠ .transfer ∨ asg.weak) then [ptr m a] else []
      else refs env asg m k g (ptr m a)
    | some (.struct _ fs) => fs.flatMap fun p => refs env asg m k p.2 (a + p.1)
    | some (.array e c) => match typeSize env k e with
      | .ok s => (elements s e c).flatMap fun p => refs env asg m k p.2 (a + p.1)
      | .error _ => []
    | some (.validator b) => refs env asg m k b a
    | _ => []

/-- No pointer is kept. -/
def never : Nat → Ownership → Bool := fun _ _ => false

/-- The numbers that the binary encoding reads back (C75): floats of up to 64 bytes; integers of up to six bytes, unsigned ones
below `2 ^ 56`, signed ones from `- 2 ^ 48` to below `2 ^ 48`, and those of fixed length. -/
def Exact (prefer : Nat) : Ty → List UInt8 → Prop
  | .integer n e sign fixed, xs => 0 < n ∧ n ≤ 64 ∧ (n ≤ 6 ∨ (sign = false ∧ VarInt.value (VarInt.view e xs) < 2 ^ 56) ∨
      (sign = true ∧ -2 ^ 48 ≤ VarInt.signedValue (VarInt.view e xs) ∧ VarInt.signedValue (VarInt.view e xs) < 2 ^ 48) ∨
      (fixed = true ∧ n < prefer))
  | .float n _, _ => n ≤ 64
  | _, _ => True

end Verif.Reflect
