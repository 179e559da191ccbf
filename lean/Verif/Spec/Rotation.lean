/-
Specification of rotation matrices: orthonormal rows and determinant one.
-/
import Verif.Model.Math
import Verif.Scalar

namespace Vio.Spec

/-- `m` is a rotation matrix. -/
structure IsRot (m : Mat3 ℝ) : Prop where
  n0 : m.r0.x * m.r0.x + m.r0.y * m.r0.y + m.r0.z * m.r0.z = 1
  n1 : m.r1.x * m.r1.x + m.r1.y * m.r1.y + m.r1.z * m.r1.z = 1
  n2 : m.r2.x * m.r2.x + m.r2.y * m.r2.y + m.r2.z * m.r2.z = 1
  o01 : m.r0.x * m.r1.x + m.r0.y * m.r1.y + m.r0.z * m.r1.z = 0
  o02 : m.r0.x * m.r2.x + m.r0.y * m.r2.y + m.r0.z * m.r2.z = 0
  o12 : m.r1.x * m.r2.x + m.r1.y * m.r2.y + m.r1.z * m.r2.z = 0
  det : m.r0.x * (m.r1.y * m.r2.z - m.r1.z * m.r2.y) - m.r0.y * (m.r1.x * m.r2.z - m.r1.z * m.r2.x) + m.r0.z * (m.r1.x * m.r2.y - m.r1.y * m.r2.x) = 1

end Vio.Spec
