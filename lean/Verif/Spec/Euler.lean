/-
Rotations about the axes.
-/
import Verif.Model.Math
import Mathlib.Analysis.SpecialFunctions.Trigonometric.Basic

namespace Vio.Spec

/-- Rotation about the first axis. -/
noncomputable def rotX (t : ℝ) : Mat3 ℝ := ⟨⟨1, 0, 0⟩, ⟨0, Real.cos t, -Real.sin t⟩, ⟨0, Real.sin t, Real.cos t⟩⟩

/-- Rotation about the second axis. -/
noncomputable def rotY (t : ℝ) : Mat3 ℝ := ⟨⟨Real.cos t, 0, Real.sin t⟩, ⟨0, 1, 0⟩, ⟨-Real.sin t, 0, Real.cos t⟩⟩

/-- Rotation about the third axis. -/
noncomputable def rotZ (t : ℝ) : Mat3 ℝ := ⟨⟨Real.cos t, -Real.sin t, 0⟩, ⟨Real.sin t, Real.cos t, 0⟩, ⟨0, 0, 1⟩⟩

/-- Turn about the first axis, then about the second, then about the third, all fixed in the world. -/
noncomputable def eulerMat (a b c : ℝ) : Mat3 ℝ := ((rotZ c).mul (rotY b)).mul (rotX a)

end Vio.Spec
