/-
Small fixed-size algebra: the Eigen operations on `Vector2`, `Vector3`, `Matrix33`, `Quaternion` the code uses, and
`include/utility/math_lib.hpp`.

Generic in the scalar type `K`; only operations are used, no laws.
-/
import Verif.Basic
import Verif.Scalar

set_option linter.unusedSectionVars false

namespace Vio

/-- `Vector2` (include/utility/typedef.hpp:37). -/
@[ext] structure Vec2 (K : Type _) where
  x : K
  y : K

/-- `Vector3` (include/utility/typedef.hpp:38). -/
@[ext] structure Vec3 (K : Type _) where
  x : K
  y : K
  z : K

/-- `Matrix33` (include/utility/typedef.hpp:34), row major. -/
@[ext] structure Mat3 (K : Type _) where
  r0 : Vec3 K
  r1 : Vec3 K
  r2 : Vec3 K

/-- `Quaternion` (include/utility/typedef.hpp:31). -/
@[ext] structure Quat (K : Type _) where
  w : K
  x : K
  y : K
  z : K

deriving instance DecidableEq for Vec2
deriving instance DecidableEq for Vec3
deriving instance DecidableEq for Quat

variable {K : Type _} [Add K] [Sub K] [Mul K] [Neg K] [Div K] [Zero K] [One K] [ScalarFn K]

namespace Vec2
instance : Add (Vec2 K) := ⟨fun a b => ⟨a.x + b.x, a.y + b.y⟩⟩
instance : Sub (Vec2 K) := ⟨fun a b => ⟨a.x - b.x, a.y - b.y⟩⟩
@[simp] theorem add_x (a b : Vec2 K) : (a + b).x = a.x + b.x := rfl
@[simp] theorem add_y (a b : Vec2 K) : (a + b).y = a.y + b.y := rfl
@[simp] theorem sub_x (a b : Vec2 K) : (a - b).x = a.x - b.x := rfl
@[simp] theorem sub_y (a b : Vec2 K) : (a - b).y = a.y - b.y := rfl
/-- Eigen `squaredNorm` -/
def sqNorm (a : Vec2 K) : K := a.x * a.x + a.y * a.y
/-- Eigen `norm` -/
def norm (a : Vec2 K) : K := ScalarFn.sqrt a.sqNorm
end Vec2

namespace Vec3
instance : Add (Vec3 K) := ⟨fun a b => ⟨a.x + b.x, a.y + b.y, a.z + b.z⟩⟩
instance : Sub (Vec3 K) := ⟨fun a b => ⟨a.x - b.x, a.y - b.y, a.z - b.z⟩⟩
instance : Neg (Vec3 K) := ⟨fun a => ⟨-a.x, -a.y, -a.z⟩⟩
instance : Zero (Vec3 K) := ⟨⟨0, 0, 0⟩⟩
@[simp] theorem add_x (a b : Vec3 K) : (a + b).x = a.x + b.x := rfl
@[simp] theorem add_y (a b : Vec3 K) : (a + b).y = a.y + b.y := rfl
@[simp] theorem add_z (a b : Vec3 K) : (a + b).z = a.z + b.z := rfl
@[simp] theorem sub_x (a b : Vec3 K) : (a - b).x = a.x - b.x := rfl
@[simp] theorem sub_y (a b : Vec3 K) : (a - b).y = a.y - b.y := rfl
@[simp] theorem sub_z (a b : Vec3 K) : (a - b).z = a.z - b.z := rfl
@[simp] theorem neg_x (a : Vec3 K) : (-a).x = -a.x := rfl
@[simp] theorem neg_y (a : Vec3 K) : (-a).y = -a.y := rfl
@[simp] theorem neg_z (a : Vec3 K) : (-a).z = -a.z := rfl
@[simp] theorem zero_x : (0 : Vec3 K).x = 0 := rfl
@[simp] theorem zero_y : (0 : Vec3 K).y = 0 := rfl
@[simp] theorem zero_z : (0 : Vec3 K).z = 0 := rfl
/-- scalar multiple -/
def smul (k : K) (a : Vec3 K) : Vec3 K := ⟨k * a.x, k * a.y, k * a.z⟩
/-- `a / k` -/
def sdiv (a : Vec3 K) (k : K) : Vec3 K := ⟨a.x / k, a.y / k, a.z / k⟩
/-- dot product -/
def dot (a b : Vec3 K) : K := a.x * b.x + a.y * b.y + a.z * b.z
/-- cross product -/
def cross (a b : Vec3 K) : Vec3 K :=
  ⟨a.y * b.z - a.z * b.y, a.z * b.x - a.x * b.z, a.x * b.y - a.y * b.x⟩
/-- Eigen `squaredNorm` -/
def sqNorm (a : Vec3 K) : K := a.x * a.x + a.y * a.y + a.z * a.z
/-- Eigen `norm` -/
def norm (a : Vec3 K) : K := ScalarFn.sqrt a.sqNorm
/-- component access `v(i)`; only used with `i < 3` -/
def get (a : Vec3 K) (i : Nat) : K := if i = 0 then a.x else if i = 1 then a.y else a.z
@[simp] theorem smul_x (k : K) (a : Vec3 K) : (smul k a).x = k * a.x := rfl
@[simp] theorem smul_y (k : K) (a : Vec3 K) : (smul k a).y = k * a.y := rfl
@[simp] theorem smul_z (k : K) (a : Vec3 K) : (smul k a).z = k * a.z := rfl
@[simp] theorem sdiv_x (k : K) (a : Vec3 K) : (sdiv a k).x = a.x / k := rfl
@[simp] theorem sdiv_y (k : K) (a : Vec3 K) : (sdiv a k).y = a.y / k := rfl
@[simp] theorem sdiv_z (k : K) (a : Vec3 K) : (sdiv a k).z = a.z / k := rfl
@[simp] theorem cross_x (a b : Vec3 K) : (cross a b).x = a.y * b.z - a.z * b.y := rfl
@[simp] theorem cross_y (a b : Vec3 K) : (cross a b).y = a.z * b.x - a.x * b.z := rfl
@[simp] theorem cross_z (a b : Vec3 K) : (cross a b).z = a.x * b.y - a.y * b.x := rfl
end Vec3

namespace Mat3
instance : Add (Mat3 K) := ⟨fun a b => ⟨a.r0 + b.r0, a.r1 + b.r1, a.r2 + b.r2⟩⟩
instance : Sub (Mat3 K) := ⟨fun a b => ⟨a.r0 - b.r0, a.r1 - b.r1, a.r2 - b.r2⟩⟩
instance : Neg (Mat3 K) := ⟨fun a => ⟨-a.r0, -a.r1, -a.r2⟩⟩
instance : Zero (Mat3 K) := ⟨⟨0, 0, 0⟩⟩
@[simp] theorem add_r0 (a b : Mat3 K) : (a + b).r0 = a.r0 + b.r0 := rfl
@[simp] theorem add_r1 (a b : Mat3 K) : (a + b).r1 = a.r1 + b.r1 := rfl
@[simp] theorem add_r2 (a b : Mat3 K) : (a + b).r2 = a.r2 + b.r2 := rfl
@[simp] theorem sub_r0 (a b : Mat3 K) : (a - b).r0 = a.r0 - b.r0 := rfl
@[simp] theorem sub_r1 (a b : Mat3 K) : (a - b).r1 = a.r1 - b.r1 := rfl
@[simp] theorem sub_r2 (a b : Mat3 K) : (a - b).r2 = a.r2 - b.r2 := rfl
@[simp] theorem neg_r0 (a : Mat3 K) : (-a).r0 = -a.r0 := rfl
@[simp] theorem neg_r1 (a : Mat3 K) : (-a).r1 = -a.r1 := rfl
@[simp] theorem neg_r2 (a : Mat3 K) : (-a).r2 = -a.r2 := rfl
/-- `Matrix33::Identity()` -/
def one : Mat3 K := ⟨⟨1, 0, 0⟩, ⟨0, 1, 0⟩, ⟨0, 0, 1⟩⟩
/-- scalar multiple -/
def smul (k : K) (a : Mat3 K) : Mat3 K := ⟨.smul k a.r0, .smul k a.r1, .smul k a.r2⟩
/-- matrix times vector -/
def mulVec (a : Mat3 K) (v : Vec3 K) : Vec3 K := ⟨a.r0.dot v, a.r1.dot v, a.r2.dot v⟩
/-- transpose -/
def transpose (a : Mat3 K) : Mat3 K :=
  ⟨⟨a.r0.x, a.r1.x, a.r2.x⟩, ⟨a.r0.y, a.r1.y, a.r2.y⟩, ⟨a.r0.z, a.r1.z, a.r2.z⟩⟩
/-- matrix product -/
def mul (a b : Mat3 K) : Mat3 K :=
  let bt := b.transpose
  ⟨bt.mulVec a.r0, bt.mulVec a.r1, bt.mulVec a.r2⟩
/-- row `i`; only used with `i < 3` -/
def row (a : Mat3 K) (i : Nat) : Vec3 K := if i = 0 then a.r0 else if i = 1 then a.r1 else a.r2
/-- entry access; only used with indices below 3 -/
def get (a : Mat3 K) (i j : Nat) : K := (a.row i).get j
/-- trace -/
def trace (a : Mat3 K) : K := a.r0.x + a.r1.y + a.r2.z
end Mat3

namespace Quat
/-- `Quaternion::Identity()` -/
def one : Quat K := ⟨1, 0, 0, 0⟩
/-- vector part -/
def vec (q : Quat K) : Vec3 K := ⟨q.x, q.y, q.z⟩
/-- Hamilton product, as Eigen computes it -/
def mul (a b : Quat K) : Quat K :=
  ⟨a.w * b.w - a.x * b.x - a.y * b.y - a.z * b.z,
   a.w * b.x + a.x * b.w + a.y * b.z - a.z * b.y,
   a.w * b.y + a.y * b.w + a.z * b.x - a.x * b.z,
   a.w * b.z + a.z * b.w + a.x * b.y - a.y * b.x⟩
/-- squared norm -/
def sqNorm (q : Quat K) : K := q.w * q.w + q.x * q.x + q.y * q.y + q.z * q.z
/-- Eigen `QuaternionBase::inverse`: conjugate divided by the squared norm, zero if that is not positive -/
def inverse (q : Quat K) : Quat K :=
  let n2 := q.sqNorm
  if ScalarFn.lt 0 n2 then ⟨q.w / n2, -q.x / n2, -q.y / n2, -q.z / n2⟩ else ⟨0, 0, 0, 0⟩
/-- Eigen `normalize` / `normalized`: divides by the norm if the squared norm is positive -/
def normalized (q : Quat K) : Quat K :=
  let z := q.sqNorm
  if ScalarFn.lt 0 z then
    let s := ScalarFn.sqrt z
    ⟨q.w / s, q.x / s, q.y / s, q.z / s⟩
  else q
/-- Eigen `_transformVector` (quaternion times vector) -/
def rotate (q : Quat K) (v : Vec3 K) : Vec3 K :=
  let uv := q.vec.cross v
  let uv2 := uv + uv
  v + .smul q.w uv2 + q.vec.cross uv2
/-- Eigen `toRotationMatrix` -/
def toMat (q : Quat K) : Mat3 K :=
  let tx := lit 2 * q.x
  let ty := lit 2 * q.y
  let tz := lit 2 * q.z
  let twx := tx * q.w
  let twy := ty * q.w
  let twz := tz * q.w
  let txx := tx * q.x
  let txy := ty * q.x
  let txz := tz * q.x
  let tyy := ty * q.y
  let tyz := tz * q.y
  let tzz := tz * q.z
  ⟨⟨1 - (tyy + tzz), txy - twz, txz + twy⟩,
   ⟨txy + twz, 1 - (txx + tzz), tyz - twx⟩,
   ⟨txz - twy, tyz + twx, 1 - (txx + tyy)⟩⟩
end Quat

namespace Utility

/-- `Utility::SkewSymmetricMatrix` (include/utility/math_lib.hpp:10-24). -/
def skew (v : Vec3 K) : Mat3 K :=
  ⟨⟨0, -v.z, v.y⟩, ⟨v.z, 0, -v.x⟩, ⟨-v.y, v.x, 0⟩⟩

/-- `Utility::DeltaQ` (include/utility/math_lib.hpp:34-44): `(1, theta/2)`, not normalised. -/
def deltaQ (theta : Vec3 K) : Quat K :=
  let h := theta.sdiv (lit 2)
  ⟨1, h.x, h.y, h.z⟩

/-- `Utility::Qleft` (include/utility/math_lib.hpp:48-57): the four rows of the matrix. -/
def qleft (q : Quat K) : Fin 4 → Fin 4 → K :=
  let s := skew q.vec
  ![![q.w, -q.x, -q.y, -q.z],
    ![q.x, q.w, s.r0.y, s.r0.z],
    ![q.y, s.r1.x, q.w, s.r1.z],
    ![q.z, s.r2.x, s.r2.y, q.w]]

/-- `Utility::Qright` (include/utility/math_lib.hpp:71-80). -/
def qright (q : Quat K) : Fin 4 → Fin 4 → K :=
  let s := skew q.vec
  ![![q.w, -q.x, -q.y, -q.z],
    ![q.x, q.w, -s.r0.y, -s.r0.z],
    ![q.y, -s.r1.x, q.w, -s.r1.z],
    ![q.z, -s.r2.x, -s.r2.y, q.w]]

/-- `Utility::ComputeRotationMagnitude(Matrix33 &)` (include/utility/math_lib.hpp:94-99). -/
def rotMagMat (r : Mat3 K) : K :=
  ScalarFn.fabs (ScalarFn.acos ((r.trace - lit 1) / lit 2))

/-- `Utility::ComputeRotationMagnitude(Quaternion &)` (include/utility/math_lib.hpp:100-103). -/
def rotMagQuat (q : Quat K) : K := rotMagMat q.toMat

/-- `Utility::ComputeRotationMagnitude(Vector3 &)` (include/utility/math_lib.hpp:104-111). -/
def rotMagVec (r : Vec3 K) : K :=
  rotMagQuat ⟨lit 1, lit (1/2) * r.x, lit (1/2) * r.y, lit (1/2) * r.z⟩

/-- `Utility::ComputeTranslationMagnitude` (include/utility/math_lib.hpp:115-117). -/
def transMag (t : Vec3 K) : K := t.norm

/-- `Utility::QuaternionToEuler` (include/utility/math_lib.hpp:121-128): pitch, roll, yaw in degrees. -/
def quatToEuler (q : Quat K) : Vec3 K :=
  let r := q.inverse.toMat
  ⟨ScalarFn.atan2 r.r1.z r.r2.z * lit (57295779579/1000000000),
   ScalarFn.asin (-r.r0.z) * lit (57295779579/1000000000),
   ScalarFn.atan2 r.r0.y r.r0.x * lit (57295779579/1000000000)⟩

/-- `Utility::TransformMatrix` (include/utility/math_lib.hpp:141-147), entry access. -/
def transformMatrix (q : Quat K) (t : Vec3 K) : Fin 4 → Fin 4 → K :=
  let r := q.toMat
  ![![r.r0.x, r.r0.y, r.r0.z, t.x],
    ![r.r1.x, r.r1.y, r.r1.z, t.y],
    ![r.r2.x, r.r2.y, r.r2.z, t.z],
    ![0, 0, 0, 1]]

end Utility
end Vio
