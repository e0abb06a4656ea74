/-!
# Model of the vectors (`CommonC/Vector2D.h`, `Vector3D.h`, `Vector4D.h`)

The arithmetic of `float` is a parameter (`Arith`): nothing is said of rounding here, the theorems name the laws they need.
Which instructions are used is decided when compiling (`Level`).  The instructions are modelled by what they do to the four
lanes; flipping the sign bit is the negation and clearing it the absolute value.  The comparisons by units in the last place
are in `Ulps.lean`.  Simplified: a failing assertion is `none`.
-/
namespace Verif.Vec

/-- The arithmetic of `float`. -/
class Arith (F : Type) extends Add F, Sub F, Mul F, Div F, Neg F where
  zero : F
  one : F
  /-- `fabsf`. -/
  abs : F → F
  /-- `sqrtf`. -/
  sqrt : F → F
  lt : F → F → Bool
  le : F → F → Bool
  eq : F → F → Bool
  /-- `1e-6f`. -/
  tiny : F

open Arith

/-- `CC_HARDWARE_VECTOR_SUPPORT_*`: each has what the former ones have. -/
inductive Level where
  | plain | sse | sse2 | sse3 | sse41
  deriving DecidableEq, Repr

def Level.hasSse : Level → Bool
  | .plain => false
  | _ => true

def Level.hasSse2 : Level → Bool
  | .plain => false
  | .sse => false
  | _ => true

def Level.hasSse3 : Level → Bool
  | .sse3 => true
  | .sse41 => true
  | _ => false

def Level.hasSse41 : Level → Bool
  | .sse41 => true
  | _ => false

/-- `CCVector2D` (Types.h). -/
@[ext] structure V2 (F : Type) where
  x : F
  y : F
  deriving DecidableEq, Repr

/-- `CCVector3D`. -/
@[ext] structure V3 (F : Type) where
  x : F
  y : F
  z : F
  deriving DecidableEq, Repr

/-- `CCVector4D`, and `CCVector` with its four lanes. -/
@[ext] structure V4 (F : Type) where
  x : F
  y : F
  z : F
  w : F
  deriving DecidableEq, Repr

variable {F : Type} [Arith F]

/-! ## The instructions -/

/-- An instruction that works lane by lane: `_mm_add_ps`, `_mm_sub_ps`, `_mm_mul_ps`, `_mm_div_ps`. -/
def lanes (f : F → F → F) (a b : V4 F) : V4 F := ⟨f a.x b.x, f a.y b.y, f a.z b.z, f a.w b.w⟩

/-- `_mm_set1_ps`. -/
def set1 (a : F) : V4 F := ⟨a, a, a, a⟩

/-- A lane by its number. -/
def V4.lane (a : V4 F) : Nat → F
  | 0 => a.x
  | 1 => a.y
  | 2 => a.z
  | _ => a.w

/-- `_mm_shuffle_ps(a, a, _MM_SHUFFLE(i3, i2, i1, i0))`. -/
def shuffle (a : V4 F) (i3 i2 i1 i0 : Nat) : V4 F := ⟨a.lane i0, a.lane i1, a.lane i2, a.lane i3⟩

/-- `_mm_hadd_ps`. -/
def hadd (a b : V4 F) : V4 F := ⟨a.x + a.y, a.z + a.w, b.x + b.y, b.z + b.w⟩

/-- `_mm_hsub_ps`. -/
def hsub (a b : V4 F) : V4 F := ⟨a.x - a.y, a.z - a.w, b.x - b.y, b.z - b.w⟩

/-- `_mm_unpacklo_ps`. -/
def unpacklo (a b : V4 F) : V4 F := ⟨a.x, b.x, a.y, b.y⟩

/-- `_mm_dp_ps(a, b, mask)`: bits 4 to 7 say which products are added, bits 0 to 3 where the sum goes. -/
def dp (a b : V4 F) (mask : Nat) : V4 F :=
  let p (bit : Nat) (v : F) : F := if mask.testBit bit then v else zero
  let s := (p 4 (a.x * b.x) + p 5 (a.y * b.y)) + (p 6 (a.z * b.z) + p 7 (a.w * b.w))
  ⟨p 0 s, p 1 s, p 2 s, p 3 s⟩

/-- `_mm_or_ps` of vectors of which in every lane one is zero (given by the masks of `_mm_dp_ps`). -/
def orLanes (hi : Nat) (a b : V4 F) : V4 F :=
  ⟨if hi.testBit 0 then b.x else a.x, if hi.testBit 1 then b.y else a.y, if hi.testBit 2 then b.z else a.z, if hi.testBit 3 then b.w else a.w⟩

/-- `_mm_sqrt_ps`. -/
def sqrtPs (a : V4 F) : V4 F := ⟨sqrt a.x, sqrt a.y, sqrt a.z, sqrt a.w⟩

/-- `_mm_sqrt_ss`, `_mm_div_ss`, `_mm_mul_ss`: the first lane only. -/
def sqrtSs (a : V4 F) : V4 F := { a with x := sqrt a.x }

def divSs (a b : V4 F) : V4 F := { a with x := a.x / b.x }

def mulSs (a b : V4 F) : V4 F := { a with x := a.x * b.x }

/-- `a < b ? a : b`, which also is what `_mm_min_ps` does. -/
def minF (a b : F) : F := if lt a b then a else b

/-- `a > b ? a : b`, which also is what `_mm_max_ps` does. -/
def maxF (a b : F) : F := if lt b a then a else b

/-- `a == b` as a number, and `_mm_and_ps(_mm_cmpeq_ps(a, b), 1)`. -/
def eqF (a b : F) : F := if eq a b then one else zero

/-- `a < b`. -/
def ltF (a b : F) : F := if lt a b then one else zero

/-- `a <= b`. -/
def leF (a b : F) : F := if le a b then one else zero

/-- `a > b`. -/
def gtF (a b : F) : F := if lt b a then one else zero

/-- `a >= b`. -/
def geF (a b : F) : F := if le b a then one else zero

/-! ## Vectorised vectors of two -/

/-- `CCVectorizeVector2DPack` (544-551). -/
def pack (a b : V2 F) : V4 F := ⟨a.x, a.y, b.x, b.y⟩

/-- `CCVectorizeVector2DWithZero` (488-505). -/
def withZero (a : V2 F) : V4 F := ⟨a.x, a.y, zero, zero⟩

/-- `CCVectorizeVector2D` (512-515). -/
def vectorize2 (a : V2 F) : V4 F := pack a a

/-- `CCVectorizeGetVector2D` (534-537), `CCVectorizeExtractVector2D(a, 0)` (571-574). -/
def get2 (a : V4 F) : V2 F := ⟨a.x, a.y⟩

/-- `CCVectorizeExtractVector2D(a, 1)`. -/
def high2 (a : V4 F) : V2 F := ⟨a.z, a.w⟩

/-- The functions that work lane by lane: `CCVectorize2Add`, `Sub`, `Mul`, `Div` (584-618), `Min`, `Max` (736-752) and the
comparisons (783-826). -/
def z2Lane (l : Level) (f : F → F → F) (a b : V4 F) : V4 F :=
  if l.hasSse then lanes f a b else ⟨f a.x b.x, f a.y b.y, zero, zero⟩

/-- `CCVectorize2AddScalar`, ... (831-865). -/
def z2Scalar (l : Level) (f : F → F → F) (a : V4 F) (b : F) : V4 F :=
  if l.hasSse then lanes f a (set1 b) else ⟨f a.x b, f a.y b, zero, zero⟩

/-- `CCVectorize2Dot` (620-637). -/
def z2Dot (l : Level) (a b : V4 F) : V4 F :=
  if l.hasSse41 then dp a b 0x33
  else if l.hasSse3 then
    let t := z2Lane l (· * ·) a b
    let t := hadd t t
    unpacklo t t
  else if l.hasSse then
    let xyxy := z2Lane l (· * ·) a b
    z2Lane l (· + ·) xyxy (shuffle xyxy 2 3 0 1)
  else
    let r := (a.x * b.x) + (a.y * b.y)
    ⟨r, r, zero, zero⟩

/-- `CCVectorize2ScalarDot` (639-652). -/
def z2ScalarDot (l : Level) (a b : V4 F) : V4 F :=
  if l.hasSse41 then dp a b 0x31
  else if l.hasSse3 then
    let t := z2Lane l (· * ·) a b
    hadd t t
  else if l.hasSse then z2Dot l a b
  else ⟨(a.x * b.x) + (a.y * b.y), zero, zero, zero⟩

/-- `CCVectorize2Length` (870-879). -/
def z2Length (l : Level) (a : V4 F) : V4 F :=
  let d := z2Dot l a a
  if l.hasSse then sqrtPs d else ⟨sqrt d.x, sqrt d.x, zero, zero⟩

/-- `CCVectorize2ScalarLength` (881-889). -/
def z2ScalarLength (l : Level) (a : V4 F) : V4 F :=
  let d := z2ScalarDot l a a
  if l.hasSse then sqrtSs d else ⟨sqrt d.x, zero, zero, zero⟩

/-- `CCVectorize2Distance` (654-657). -/
def z2Distance (l : Level) (a b : V4 F) : V4 F := z2Length l (z2Lane l (· - ·) a b)

/-- `CCVectorize2ScalarDistance` (659-662). -/
def z2ScalarDistance (l : Level) (a b : V4 F) : V4 F := z2ScalarLength l (z2Lane l (· - ·) a b)

/-- `CCVectorize2DistanceSquare` (664-668). -/
def z2DistanceSquare (l : Level) (a b : V4 F) : V4 F :=
  let d := z2Lane l (· - ·) a b
  z2Dot l d d

/-- `CCVectorize2ScalarDistanceSquare` (670-674). -/
def z2ScalarDistanceSquare (l : Level) (a b : V4 F) : V4 F :=
  let d := z2Lane l (· - ·) a b
  z2ScalarDot l d d

/-- `CCVectorize2Angle` (676-679). -/
def z2Angle (l : Level) (a b : V4 F) : V4 F :=
  z2Lane l (· / ·) (z2Dot l a b) (z2Lane l (· * ·) (z2Length l a) (z2Length l b))

/-- `CCVectorize2ScalarAngle` (681-688). -/
def z2ScalarAngle (l : Level) (a b : V4 F) : V4 F :=
  if l.hasSse then divSs (z2ScalarDot l a b) (mulSs (z2ScalarLength l a) (z2ScalarLength l b))
  else z2Lane l (· / ·) (z2ScalarDot l a b) (z2Lane l (· * ·) (z2ScalarLength l a) (z2ScalarLength l b))

/-- `CCVectorize2Cross` (690-705). -/
def z2Cross (l : Level) (a b : V4 F) : V4 F :=
  if l.hasSse3 then
    let t := z2Lane l (· * ·) a (shuffle b 2 3 0 1)
    let t := hsub t t
    unpacklo t t
  else if l.hasSse then
    let t := z2Lane l (· * ·) a (shuffle b 2 3 0 1)
    let r := z2Lane l (· - ·) t (shuffle t 3 3 1 1)
    shuffle r 2 2 0 0
  else
    let r := (a.x * b.y) - (a.y * b.x)
    ⟨r, r, zero, zero⟩

/-- `CCVectorize2ScalarCross` (707-719). -/
def z2ScalarCross (l : Level) (a b : V4 F) : V4 F :=
  if l.hasSse3 then
    let t := z2Lane l (· * ·) a (shuffle b 2 3 0 1)
    hsub t t
  else if l.hasSse then
    let t := z2Lane l (· * ·) a (shuffle b 2 3 0 1)
    z2Lane l (· - ·) t (shuffle t 3 3 1 1)
  else ⟨(a.x * b.y) - (a.y * b.x), zero, zero, zero⟩

/-- `CCVectorize2Lerp` (721-724). -/
def z2Lerp (l : Level) (a b : V4 F) (t : F) : V4 F := z2Lane l (· + ·) a (z2Scalar l (· * ·) (z2Lane l (· - ·) b a) t)

/-- `CCVectorize2Project` (726-729). -/
def z2Project (l : Level) (a b : V4 F) : V4 F := z2Lane l (· * ·) b (z2Lane l (· / ·) (z2Dot l a b) (z2Dot l b b))

/-- `CCVectorize2Reject` (731-734). -/
def z2Reject (l : Level) (a b : V4 F) : V4 F := z2Lane l (· - ·) a (z2Project l a b)

/-- `CCVectorize2Perp` (891-902). -/
def z2Perp (l : Level) (a : V4 F) : V4 F :=
  if l.hasSse then shuffle ⟨a.x, -a.y, a.z, -a.w⟩ 2 3 0 1 else ⟨-a.y, a.x, zero, zero⟩

/-- `CCVectorize2PerpR` (904-915). -/
def z2PerpR (l : Level) (a : V4 F) : V4 F :=
  if l.hasSse then shuffle ⟨-a.x, a.y, -a.z, a.w⟩ 2 3 0 1 else ⟨a.y, -a.x, zero, zero⟩

/-- `CCVectorize2Normalize` (917-923): the assertion looks at the lengths of both halves. -/
def z2Normalize (l : Level) (a : V4 F) : Option (V4 F) :=
  let len := z2Length l a
  if !eq (get2 len).x zero && !eq (high2 len).x zero then some (z2Lane l (· / ·) a len) else none

/-- `CCVectorize2Neg` (925-934). -/
def z2Neg (l : Level) (a : V4 F) : V4 F := if l.hasSse then ⟨-a.x, -a.y, -a.z, -a.w⟩ else ⟨-a.x, -a.y, zero, zero⟩

/-- `CCVectorize2Abs` (936-945). -/
def z2Abs (l : Level) (a : V4 F) : V4 F := if l.hasSse then ⟨abs a.x, abs a.y, abs a.z, abs a.w⟩ else ⟨abs a.x, abs a.y, zero, zero⟩

/-- `CCVectorize2CompareEqualRelative` (771-776). -/
def z2EqualRelative (l : Level) (a b d : V4 F) : V4 F :=
  z2Lane l leF (z2Abs l (z2Lane l (· - ·) a b)) (z2Lane l (· * ·) (z2Lane l maxF (z2Abs l a) (z2Abs l b)) d)

/-- `CCVectorize2CompareEqualAbsolute` (778-781). -/
def z2EqualAbsolute (l : Level) (a b d : V4 F) : V4 F := z2Lane l leF (z2Abs l (z2Lane l (· - ·) a b)) d

/-! ## Two vectors of two in one -/

/-- `CCVectorize2PackedDot` (987-1004). -/
def p2Dot (l : Level) (a b : V4 F) : V4 F :=
  if l.hasSse41 then orLanes 0xc (dp a b 0x33) (dp a b 0xcc)
  else if l.hasSse3 then
    let t := lanes (· * ·) a b
    let t := hadd t t
    unpacklo t t
  else if l.hasSse then
    let xyxy := lanes (· * ·) a b
    lanes (· + ·) xyxy (shuffle xyxy 2 3 0 1)
  else
    let r0 := (a.x * b.x) + (a.y * b.y)
    let r1 := (a.z * b.z) + (a.w * b.w)
    ⟨r0, r0, r1, r1⟩

/-- `CCVectorize2ScalarPackedDot` (1006-1015). -/
def p2ScalarDot (l : Level) (a b : V4 F) : V4 F :=
  if l.hasSse41 then orLanes 0xc (dp a b 0x31) (dp a b 0xc4)
  else if l.hasSse then p2Dot l a b
  else ⟨(a.x * b.x) + (a.y * b.y), zero, (a.z * b.z) + (a.w * b.w), zero⟩

/-- `CCVectorize2PackedLength` (1223-1232). -/
def p2Length (l : Level) (a : V4 F) : V4 F :=
  let d := p2Dot l a a
  if l.hasSse then sqrtPs d else ⟨sqrt d.x, sqrt d.x, sqrt d.z, sqrt d.z⟩

/-- `CCVectorize2PackedAngle` (1039-1042). -/
def p2Angle (l : Level) (a b : V4 F) : V4 F := lanes (· / ·) (p2Dot l a b) (lanes (· * ·) (p2Length l a) (p2Length l b))

/-- `CCVectorize2PackedCross` (1049-1064). -/
def p2Cross (l : Level) (a b : V4 F) : V4 F :=
  if l.hasSse3 then
    let t := lanes (· * ·) a (shuffle b 2 3 0 1)
    let t := hsub t t
    unpacklo t t
  else if l.hasSse then
    let t := lanes (· * ·) a (shuffle b 2 3 0 1)
    let r := lanes (· - ·) t (shuffle t 3 3 1 1)
    shuffle r 2 2 0 0
  else
    let r0 := (a.x * b.y) - (a.y * b.x)
    let r1 := (a.z * b.w) - (a.w * b.z)
    ⟨r0, r0, r1, r1⟩

/-- `CCVectorize2PackedProject` (1080-1083). -/
def p2Project (l : Level) (a b : V4 F) : V4 F := lanes (· * ·) b (lanes (· / ·) (p2Dot l a b) (p2Dot l b b))

/-- `CCVectorize2PackedPerp` (1244-1255). -/
def p2Perp (l : Level) (a : V4 F) : V4 F :=
  if l.hasSse then shuffle ⟨a.x, -a.y, a.z, -a.w⟩ 2 3 0 1 else ⟨-a.y, a.x, -a.w, a.z⟩

/-- `CCVectorize2PackedPerpR` (1257-1268). -/
def p2PerpR (l : Level) (a : V4 F) : V4 F :=
  if l.hasSse then shuffle ⟨-a.x, a.y, -a.z, a.w⟩ 2 3 0 1 else ⟨a.y, -a.x, a.w, -a.z⟩

/-- `CCVectorize2PackedNormalize` (1270-1276). -/
def p2Normalize (l : Level) (a : V4 F) : Option (V4 F) :=
  let len := p2Length l a
  if !eq (get2 len).x zero && !eq (high2 len).x zero then some (lanes (· / ·) a len) else none

/-! ## Vectors of two -/

/-- `CCVector2Add` (206-217). -/
def v2Add (l : Level) (a b : V2 F) : V2 F :=
  if l.hasSse3 then
    let v : V4 F := ⟨a.x, b.x, a.y, b.y⟩
    get2 (hadd v v)
  else if l.hasSse then get2 (z2Lane l (· + ·) (withZero a) (withZero b))
  else ⟨a.x + b.x, a.y + b.y⟩

/-- `CCVector2Sub` (219-230). -/
def v2Sub (l : Level) (a b : V2 F) : V2 F :=
  if l.hasSse3 then
    let v : V4 F := ⟨a.x, b.x, a.y, b.y⟩
    get2 (hsub v v)
  else if l.hasSse then get2 (z2Lane l (· - ·) (withZero a) (withZero b))
  else ⟨a.x - b.x, a.y - b.y⟩

/-- `CCVector2Mul`, `CCVector2Div` (232-248). -/
def v2Lane (l : Level) (f : F → F → F) (a b : V2 F) : V2 F :=
  if l.hasSse then get2 (z2Lane l f (withZero a) (withZero b)) else ⟨f a.x b.x, f a.y b.y⟩

/-- `CCVector2MulScalar` (434-437) and the others. -/
def v2Scalar (f : F → F → F) (a : V2 F) (b : F) : V2 F := ⟨f a.x b, f a.y b⟩

/-- `CCVector2Dot` (250-257). -/
def v2Dot (l : Level) (a b : V2 F) : F :=
  if l.hasSse then (z2ScalarDot l (withZero a) (withZero b)).x else (a.x * b.x) + (a.y * b.y)

/-- `CCVector2Length` (447-454). -/
def v2Length (l : Level) (a : V2 F) : F := if l.hasSse then (z2ScalarLength l (withZero a)).x else sqrt (v2Dot l a a)

/-- `CCVector2Distance` (259-266). -/
def v2Distance (l : Level) (a b : V2 F) : F :=
  if l.hasSse then (z2ScalarDistance l (withZero a) (withZero b)).x else v2Length l (v2Sub l a b)

/-- `CCVector2DistanceSquare` (268-276). -/
def v2DistanceSquare (l : Level) (a b : V2 F) : F :=
  if l.hasSse then (z2ScalarDistanceSquare l (withZero a) (withZero b)).x
  else
    let d := v2Sub l a b
    v2Dot l d d

/-- `CCVector2Angle` (278-285). -/
def v2Angle (l : Level) (a b : V2 F) : F :=
  if l.hasSse then (z2ScalarAngle l (withZero a) (withZero b)).x else v2Dot l a b / (v2Length l a * v2Length l b)

/-- `CCVector2Cross` (288-295). -/
def v2Cross (l : Level) (a b : V2 F) : F :=
  if l.hasSse then (z2ScalarCross l (withZero a) (withZero b)).x else (a.x * b.y) - (a.y * b.x)

/-- `CCVector2Lerp` (297-305). -/
def v2Lerp (l : Level) (a b : V2 F) (t : F) : V2 F :=
  if l.hasSse then
    get2 (z2Lane l (· + ·) (withZero a) (z2Scalar l (· * ·) (z2Lane l (· - ·) (withZero b) (withZero a)) t))
  else v2Add l a (v2Scalar (· * ·) (v2Sub l b a) t)

/-- `CCVector2Project` (307-310). -/
def v2Project (l : Level) (a b : V2 F) : V2 F := v2Scalar (· * ·) b (v2Dot l a b / v2Dot l b b)

/-- `CCVector2Reject` (312-315). -/
def v2Reject (l : Level) (a b : V2 F) : V2 F := v2Sub l a (v2Project l a b)

/-- `CCVector2Normalize` (456-462). -/
def v2Normalize (l : Level) (a : V2 F) : Option (V2 F) :=
  let len := v2Length l a
  if !eq len zero then some (v2Scalar (· / ·) a len) else none

/-- `CCVector2Perp` (474-477). -/
def v2Perp (a : V2 F) : V2 F := ⟨-a.y, a.x⟩

/-- `CCVector2PerpR` (479-482). -/
def v2PerpR (a : V2 F) : V2 F := ⟨a.y, -a.x⟩

/-- `CCVector2Parallel` (332-335). -/
def v2Parallel (l : Level) (a b : V2 F) : Bool := lt (abs (v2Cross l a b)) tiny

/-- `CCVector2Ortho` (337-340). -/
def v2Ortho (l : Level) (a b : V2 F) : Bool := lt (abs (v2Dot l a b)) tiny

/-! ## Vectors of three (Vector3D.h) -/

/-- `CCVectorizeVector3D` (394-397). -/
def vectorize3 (a : V3 F) : V4 F := ⟨a.x, a.y, a.z, zero⟩

/-- `CCVectorizeGetVector3D` (404-407). -/
def get3 (a : V4 F) : V3 F := ⟨a.x, a.y, a.z⟩

/-- `CCVectorize3Dot` (453-467). -/
def z3Dot (l : Level) (a b : V4 F) : V4 F :=
  if l.hasSse41 then dp a b 0x77
  else if l.hasSse then
    let xyz := lanes (· * ·) a b
    let zxy := shuffle xyz 0 1 0 2
    let yzx := shuffle xyz 0 0 2 1
    lanes (· + ·) yzx (lanes (· + ·) xyz zxy)
  else
    let r := (a.x * b.x) + (a.y * b.y) + (a.z * b.z)
    set1 r

/-- `CCVectorize3Length` (652-661). -/
def z3Length (l : Level) (a : V4 F) : V4 F :=
  let d := z3Dot l a a
  if l.hasSse then sqrtPs d else set1 (sqrt d.x)

/-- `CCVectorize3Angle` (480-483). -/
def z3Angle (l : Level) (a b : V4 F) : V4 F := lanes (· / ·) (z3Dot l a b) (lanes (· * ·) (z3Length l a) (z3Length l b))

/-- `CCVectorize3Cross` (485-501), `CCVectorize4Cross` (Vector4D.h 491-507). -/
def z3Cross (l : Level) (a b : V4 F) : V4 F :=
  if l.hasSse then
    let ayzx := shuffle a 3 0 2 1
    let byzx := shuffle b 3 0 2 1
    let r := lanes (· - ·) (lanes (· * ·) a byzx) (lanes (· * ·) ayzx b)
    shuffle r 3 0 2 1
  else ⟨(a.y * b.z) - (a.z * b.y), (a.z * b.x) - (a.x * b.z), (a.x * b.y) - (a.y * b.x), zero⟩

/-- `CCVectorize3Project` (508-511). -/
def z3Project (l : Level) (a b : V4 F) : V4 F := lanes (· * ·) b (lanes (· / ·) (z3Dot l a b) (z3Dot l b b))

/-- `CCVectorize3Normalize` (663-669). -/
def z3Normalize (l : Level) (a : V4 F) : Option (V4 F) :=
  let len := z3Length l a
  if !eq (get3 len).x zero then some (lanes (· / ·) a len) else none

/-- `CCVector3Add`, ... (147-165), `Min`, `Max` (212-220). -/
def v3Lane (f : F → F → F) (a b : V3 F) : V3 F := ⟨f a.x b.x, f a.y b.y, f a.z b.z⟩

/-- `CCVector3AddScalar`, ... (320-338). -/
def v3Scalar (f : F → F → F) (a : V3 F) (b : F) : V3 F := ⟨f a.x b, f a.y b, f a.z b⟩

/-- `CCVector3Dot` (167-170). -/
def v3Dot (a b : V3 F) : F := (a.x * b.x) + (a.y * b.y) + (a.z * b.z)

/-- `CCVector3Length` (343-346). -/
def v3Length (a : V3 F) : F := sqrt (v3Dot a a)

/-- `CCVector3Distance` (172-175). -/
def v3Distance (a b : V3 F) : F := v3Length (v3Lane (· - ·) a b)

/-- `CCVector3DistanceSquare` (177-181). -/
def v3DistanceSquare (a b : V3 F) : F :=
  let d := v3Lane (· - ·) a b
  v3Dot d d

/-- `CCVector3Angle` (183-186). -/
def v3Angle (a b : V3 F) : F := v3Dot a b / (v3Length a * v3Length b)

/-- `CCVector3Cross` (188-195). -/
def v3Cross (a b : V3 F) : V3 F := ⟨(a.y * b.z) - (a.z * b.y), (a.z * b.x) - (a.x * b.z), (a.x * b.y) - (a.y * b.x)⟩

/-- `CCVector3Lerp` (197-200). -/
def v3Lerp (a b : V3 F) (t : F) : V3 F := v3Lane (· + ·) a (v3Scalar (· * ·) (v3Lane (· - ·) b a) t)

/-- `CCVector3Project` (202-205). -/
def v3Project (a b : V3 F) : V3 F := v3Scalar (· * ·) b (v3Dot a b / v3Dot b b)

/-- `CCVector3Reject` (207-210). -/
def v3Reject (a b : V3 F) : V3 F := v3Lane (· - ·) a (v3Project a b)

/-- `CCVector3Normalize` (348-354). -/
def v3Normalize (a : V3 F) : Option (V3 F) :=
  let len := v3Length a
  if !eq len zero then some (v3Scalar (· / ·) a len) else none

/-- `CCVector3Perp` (369-372). -/
def v3Perp (a b c : V3 F) : V3 F := v3Cross (v3Lane (· - ·) b a) (v3Lane (· - ·) c a)

/-- `CCVector3Normal` (379-382). -/
def v3Normal (a b c : V3 F) : Option (V3 F) := v3Normalize (v3Perp a b c)

/-- `CCVector3Parallel` (227-231). -/
def v3Parallel (a b : V3 F) : Bool :=
  let v := v3Cross a b
  lt (abs v.x) tiny && lt (abs v.y) tiny && lt (abs v.z) tiny

/-- `CCVector3Ortho` (233-236). -/
def v3Ortho (a b : V3 F) : Bool := lt (abs (v3Dot a b)) tiny

/-! ## Vectors of four (Vector4D.h) -/

/-- `CCVectorize4Dot` (458-473). -/
def z4Dot (l : Level) (a b : V4 F) : V4 F :=
  if l.hasSse41 then dp a b 0xff
  else if l.hasSse then
    let xyzw := lanes (· * ·) a b
    let wxyz := shuffle xyzw 2 1 0 3
    let zwxy := shuffle xyzw 1 0 3 2
    let yzwx := shuffle xyzw 0 3 2 1
    lanes (· + ·) (lanes (· + ·) yzwx zwxy) (lanes (· + ·) xyzw wxyz)
  else set1 ((a.x * b.x) + (a.y * b.y) + (a.z * b.z) + (a.w * b.w))

/-- `CCVectorize4Length` (658-667). -/
def z4Length (l : Level) (a : V4 F) : V4 F :=
  let d := z4Dot l a a
  if l.hasSse then sqrtPs d else set1 (sqrt d.x)

/-- `CCVectorize4Project` (514-517). -/
def z4Project (l : Level) (a b : V4 F) : V4 F := lanes (· * ·) b (lanes (· / ·) (z4Dot l a b) (z4Dot l b b))

/-- `CCVector4Dot` (167-170). -/
def v4Dot (a b : V4 F) : F := (a.x * b.x) + (a.y * b.y) + (a.z * b.z) + (a.w * b.w)

/-- `CCVector4Length` (344-347). -/
def v4Length (a : V4 F) : F := sqrt (v4Dot a a)

/-- `CCVector4Distance` (172-175). -/
def v4Distance (a b : V4 F) : F := v4Length (lanes (· - ·) a b)

/-- `CCVector4DistanceSquare` (177-181). -/
def v4DistanceSquare (a b : V4 F) : F :=
  let d := lanes (· - ·) a b
  v4Dot d d

/-- `CCVector4Angle` (183-186). -/
def v4Angle (a b : V4 F) : F := v4Dot a b / (v4Length a * v4Length b)

/-- `CCVector4AddScalar`, ... (321-339). -/
def v4Scalar (f : F → F → F) (a : V4 F) (b : F) : V4 F := ⟨f a.x b, f a.y b, f a.z b, f a.w b⟩

/-- `CCVector4Cross` (188-196). -/
def v4Cross (a b : V4 F) : V4 F := ⟨(a.y * b.z) - (a.z * b.y), (a.z * b.x) - (a.x * b.z), (a.x * b.y) - (a.y * b.x), zero⟩

/-- `CCVector4Project` (203-206). -/
def v4Project (a b : V4 F) : V4 F := v4Scalar (· * ·) b (v4Dot a b / v4Dot b b)

/-- `CCVector4Reject` (208-211). -/
def v4Reject (a b : V4 F) : V4 F := lanes (· - ·) a (v4Project a b)

/-- `CCVector4Lerp` (198-201). -/
def v4Lerp (a b : V4 F) (t : F) : V4 F := lanes (· + ·) a (v4Scalar (· * ·) (lanes (· - ·) b a) t)

/-- `CCVector4Normalize` (349-355). -/
def v4Normalize (a : V4 F) : Option (V4 F) :=
  let len := v4Length a
  if !eq len zero then some (v4Scalar (· / ·) a len) else none

/-- `CCVector4Parallel` (228-232). -/
def v4Parallel (a b : V4 F) : Bool :=
  let v := v4Cross a b
  lt (abs v.x) tiny && lt (abs v.y) tiny && lt (abs v.z) tiny

/-- `CCVector4Ortho` (234-237). -/
def v4Ortho (a b : V4 F) : Bool := lt (abs (v4Dot a b)) tiny

end Verif.Vec
