/-
Specification vocabulary for triangulation and pose estimation.
-/
import Verif.Model.Ext
import Mathlib.LinearAlgebra.Matrix.Rank

namespace Vio.Spec

/-- Depth of a world point in a camera with pose `q`, `p`. -/
noncomputable def depth (q : Quat ℝ) (p x : Vec3 ℝ) : ℝ := (q.inverse.rotate (x - p)).z

/-- `n` is the exact normalised observation of `x`. -/
def ExactObs (q : Quat ℝ) (p x : Vec3 ℝ) (n : Vec2 ℝ) : Prop :=
  let c := q.inverse.rotate (x - p)
  c.z ≠ 0 ∧ n.x = c.x / c.z ∧ n.y = c.y / c.z

/-- Squared length of `A * x` for a matrix with four columns. -/
def imageSq (a : DMat ℝ) (x : Nat → ℝ) : ℝ := ∑ i ∈ Finset.range a.rows, (∑ j ∈ Finset.range 4, a.e i j * x j) ^ 2

/-- Specification of the last right singular vector: a unit vector that minimises `|A x|` among the unit vectors. -/
structure IsLastSingular (a : DMat ℝ) (x : Nat → ℝ) : Prop where
  unit : ∑ j ∈ Finset.range 4, x j ^ 2 = 1
  least : ∀ y : Nat → ℝ, ∑ j ∈ Finset.range 4, y j ^ 2 = 1 → imageSq a x ≤ imageSq a y

/-- The solution set of `A x = 0` is the line through `(p, 1)`. -/
def KernelIsPoint (a : DMat ℝ) (p : Vec3 ℝ) : Prop :=
  ∀ y : Nat → ℝ, (∀ i < a.rows, ∑ j ∈ Finset.range 4, a.e i j * y j = 0) → y 0 = y 3 * p.x ∧ y 1 = y 3 * p.y ∧ y 2 = y 3 * p.z

end Vio.Spec
