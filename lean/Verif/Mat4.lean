import Verif.Vec

/-!
# Model of the matrices (`CommonC/Matrix4.h`)

As with the vectors the arithmetic of `float` is a parameter.  A matrix is held by its columns.  Simplified: a failing assertion (in
`CCVector3Normalize`) is `none`.
-/
namespace Verif.Mat4

open Verif.Vec Verif.Vec.Arith

/-- The functions of `math.h` that are used, and `2.0f`. -/
class Trig (F : Type) extends Arith F where
  two : F
  sin : F → F
  cos : F → F
  tan : F → F

open Trig

/-- `CCMatrix4` (Types.h 134-144): the columns `x`, `y`, `z` and `w`. -/
@[ext] structure Mat (F : Type) where
  x : V4 F
  y : V4 F
  z : V4 F
  w : V4 F

variable {F : Type} [Trig F]

/-- `CCMatrix4Make` (Matrix4.h 40-45): the arguments are the rows. -/
def make (x1 y1 z1 w1 x2 y2 z2 w2 x3 y3 z3 w3 x4 y4 z4 w4 : F) : Mat F :=
  ⟨⟨x1, x2, x3, x4⟩, ⟨y1, y2, y3, y4⟩, ⟨z1, z2, z3, z4⟩, ⟨w1, w2, w3, w4⟩⟩

/-- `CCMatrix4Identity` (51-54). -/
def identity : Mat F :=
  make one zero zero zero
       zero one zero zero
       zero zero one zero
       zero zero zero one

/-- `CCMatrix4MakeTranslation` (96-102). -/
def makeTranslation (a : V3 F) : Mat F :=
  make one zero zero a.x
       zero one zero a.y
       zero zero one a.z
       zero zero zero one

/-- `CCMatrix4MakeRotation` (104-116). -/
def makeRotation (radians : F) (a : V3 F) : Option (Mat F) :=
  let c := cos radians
  let cp := one - c
  let s := sin radians
  match v3Normalize a with
  | none => none
  | some v =>
    let vs := v3Scalar (· * ·) v s
    some (make ((v.x * v.x * cp) + c) ((v.x * v.y * cp) - vs.z) ((v.x * v.z * cp) + vs.y) zero
               ((v.y * v.x * cp) + vs.z) ((v.y * v.y * cp) + c) ((v.y * v.z * cp) - vs.x) zero
               ((v.z * v.x * cp) - vs.y) ((v.z * v.y * cp) + vs.x) ((v.z * v.z * cp) + c) zero
               zero zero zero one)

/-- `CCMatrix4MakeRotationX` (118-127). -/
def makeRotationX (radians : F) : Mat F :=
  let c := cos radians
  let s := sin radians
  make one zero zero zero
       zero c (-s) zero
       zero s c zero
       zero zero zero one

/-- `CCMatrix4MakeRotationY` (129-138). -/
def makeRotationY (radians : F) : Mat F :=
  let c := cos radians
  let s := sin radians
  make c zero s zero
       zero one zero zero
       (-s) zero c zero
       zero zero zero one

/-- `CCMatrix4MakeRotationZ` (140-149). -/
def makeRotationZ (radians : F) : Mat F :=
  let c := cos radians
  let s := sin radians
  make c (-s) zero zero
       s c zero zero
       zero zero one zero
       zero zero zero one

/-- `CCMatrix4MakeScale` (151-157). -/
def makeScale (a : V3 F) : Mat F :=
  make a.x zero zero zero
       zero a.y zero zero
       zero zero a.z zero
       zero zero zero one

/-- `CCMatrix4MakeOrtho` (159-165). -/
def makeOrtho (left right bottom top zNear zFar : F) : Mat F :=
  make (two / (right - left)) zero zero (-((right + left) / (right - left)))
       zero (two / (top - bottom)) zero (-((top + bottom) / (top - bottom)))
       zero zero ((-two) / (zFar - zNear)) (-((zFar + zNear) / (zFar - zNear)))
       zero zero zero one

/-- `CCMatrix4MakeFrustum` (167-173). -/
def makeFrustum (left right bottom top zNear zFar : F) : Mat F :=
  make ((two * zNear) / (right - left)) zero ((right + left) / (right - left)) zero
       zero ((two * zNear) / (top - bottom)) ((top + bottom) / (top - bottom)) zero
       zero zero (-((zFar + zNear) / (zFar - zNear))) (-((two * zFar * zNear) / (zFar - zNear)))
       zero zero (-one) zero

/-- `CCMatrix4MakePerspective` (175-183). -/
def makePerspective (fovy aspect zNear zFar : F) : Mat F :=
  let f := one / tan (fovy / two)
  make (f / aspect) zero zero zero
       zero f zero zero
       zero zero ((zFar + zNear) / (zNear - zFar)) ((two * zFar * zNear) / (zNear - zFar))
       zero zero (-one) zero

/-- `CCMatrix4Mul` (185-191): `a.x.v[i] * b.c.v[0] + a.y.v[i] * b.c.v[1] + a.z.v[i] * b.c.v[2] + a.w.v[i] * b.c.v[3]` in row `i` and column `c`. -/
def mul (a b : Mat F) : Mat F :=
  let e (p q r s : F) (c : V4 F) : F := (p * c.x) + (q * c.y) + (r * c.z) + (s * c.w)
  make (e a.x.x a.y.x a.z.x a.w.x b.x) (e a.x.x a.y.x a.z.x a.w.x b.y) (e a.x.x a.y.x a.z.x a.w.x b.z) (e a.x.x a.y.x a.z.x a.w.x b.w)
       (e a.x.y a.y.y a.z.y a.w.y b.x) (e a.x.y a.y.y a.z.y a.w.y b.y) (e a.x.y a.y.y a.z.y a.w.y b.z) (e a.x.y a.y.y a.z.y a.w.y b.w)
       (e a.x.z a.y.z a.z.z a.w.z b.x) (e a.x.z a.y.z a.z.z a.w.z b.y) (e a.x.z a.y.z a.z.z a.w.z b.z) (e a.x.z a.y.z a.z.z a.w.z b.w)
       (e a.x.w a.y.w a.z.w a.w.w b.x) (e a.x.w a.y.w a.z.w a.w.w b.y) (e a.x.w a.y.w a.z.w a.w.w b.z) (e a.x.w a.y.w a.z.w a.w.w b.w)

/-- `CCMatrix4MulVector4D` (211-222). -/
def mulVector4 (m : Mat F) (v : V4 F) : V4 F :=
  let x := v4Scalar (· * ·) m.x v.x
  let y := v4Scalar (· * ·) m.y v.y
  let z := v4Scalar (· * ·) m.z v.z
  let w := v4Scalar (· * ·) m.w v.w
  ⟨x.x + y.x + z.x + w.x, x.y + y.y + z.y + w.y, x.z + y.z + z.z + w.z, x.w + y.w + z.w + w.w⟩

/-- `CCMatrix4MulPositionVector3D` (193-197). -/
def mulPosition (m : Mat F) (v : V3 F) : V3 F :=
  let r := mulVector4 m ⟨v.x, v.y, v.z, one⟩
  ⟨r.x, r.y, r.z⟩

/-- `CCMatrix4MulDirectionVector3D` (199-203). -/
def mulDirection (m : Mat F) (v : V3 F) : V3 F :=
  let r := mulVector4 m ⟨v.x, v.y, v.z, zero⟩
  ⟨r.x, r.y, r.z⟩

/-- `CCMatrix4MulProjectVector3D` (205-209). -/
def mulProject (m : Mat F) (v : V3 F) : V3 F :=
  let r := mulVector4 m ⟨v.x, v.y, v.z, one⟩
  v3Scalar (· * ·) ⟨r.x, r.y, r.z⟩ (one / r.w)

/-- `CCMatrix4Translate` (224-227). -/
def translate (m : Mat F) (a : V3 F) : Mat F := mul m (makeTranslation a)

/-- `CCMatrix4Rotate` (229-232). -/
def rotate (m : Mat F) (radians : F) (a : V3 F) : Option (Mat F) :=
  match makeRotation radians a with
  | none => none
  | some r => some (mul m r)

/-- `CCMatrix4RotateX` (234-237). -/
def rotateX (m : Mat F) (radians : F) : Mat F := mul m (makeRotationX radians)

/-- `CCMatrix4RotateY` (239-242). -/
def rotateY (m : Mat F) (radians : F) : Mat F := mul m (makeRotationY radians)

/-- `CCMatrix4RotateZ` (244-247). -/
def rotateZ (m : Mat F) (radians : F) : Mat F := mul m (makeRotationZ radians)

/-- `CCMatrix4Scale` (249-252). -/
def scale (m : Mat F) (a : V3 F) : Mat F := mul m (makeScale a)

/-- `CCMatrix4Ortho` (254-257). -/
def ortho (m : Mat F) (left right bottom top zNear zFar : F) : Mat F := mul m (makeOrtho left right bottom top zNear zFar)

/-- `CCMatrix4Frustum` (259-262). -/
def frustum (m : Mat F) (left right bottom top zNear zFar : F) : Mat F := mul m (makeFrustum left right bottom top zNear zFar)

/-- `CCMatrix4Perspective` (264-267). -/
def perspective (m : Mat F) (fovy aspect zNear zFar : F) : Mat F := mul m (makePerspective fovy aspect zNear zFar)

end Verif.Mat4
