/-
Specification vocabulary for the iterative triangulation.
-/
import Verif.Model.Ext
import Mathlib.Data.Real.Basic
import Mathlib.Algebra.BigOperators.Group.List.Basic

namespace Vio.Spec

/-- The scalar product of the plane. -/
def dot2 (a b : Vec2 ℝ) : ℝ := a.x * b.x + a.y * b.y

/-- A matrix with positive quadratic form. -/
def PosDef3 (a : Mat3 ℝ) : Prop := (∀ c d : Vec3 ℝ, c.dot (a.mulVec d) = d.dot (a.mulVec c)) ∧ ∀ d : Vec3 ℝ, d ≠ 0 → 0 < d.dot (a.mulVec d)

/-- A linear solver that solves the systems with a symmetric positive definite matrix. -/
def Solves3 (solve : Mat3 ℝ → Vec3 ℝ → Vec3 ℝ) : Prop := ∀ a b, PosDef3 a → a.mulVec (solve a b) = b

/-- One observation: the pose of the camera as a map from the world to the camera, and what it saw. -/
structure Sight where
  q : Quat ℝ
  p : Vec3 ℝ
  n : Vec2 ℝ

/-- The error of a prediction for the inverse-depth parameters `(a, b, c)`, which stand for the point `(a, b, 1) / c`: projection of `R (a, b, 1) + c t` minus the observation. -/
noncomputable def Sight.error (s : Sight) (x : Vec3 ℝ) : Vec2 ℝ :=
  let h := s.q.rotate ⟨x.x, x.y, 1⟩ + .smul x.z s.p
  ⟨h.x / h.z - s.n.x, h.y / h.z - s.n.y⟩

/-- The point is not in the focal plane. -/
def Sight.Visible (s : Sight) (x : Vec3 ℝ) : Prop := (s.q.rotate ⟨x.x, x.y, 1⟩ + .smul x.z s.p).z ≠ 0

/-- The weighted sum of squared errors. -/
noncomputable def weighted (ws : List (ℝ × Sight)) (x : Vec3 ℝ) : ℝ := (ws.map fun s => s.1 * (s.2.error x).sqNorm).sum

end Vio.Spec
