/-
Full IMU states, errors between them, and the motion of a full state over one sample.  The error of a state is what the filter adds to the estimate: see `C49`.
-/
import Verif.Spec.Reckon

namespace Vio.ErrSpec

/-- Motion and biases. -/
structure Full where
  m : Motion ℝ
  ba : Vec3 ℝ
  bg : Vec3 ℝ

/-- The state at a given error from `x`: vectors are added, the attitude is multiplied from the right by the normalised `(1, theta/2)`. -/
noncomputable def inject (x : Full) (d : ErrState ℝ) : Full :=
  ⟨⟨x.m.p + d.p, x.m.v + d.v, (x.m.q.mul (Utility.deltaQ d.theta)).normalized⟩, x.ba + d.ba, x.bg + d.bg⟩

/-- The vector `t` for which a rotation is the normalised `(1, t/2)`. -/
noncomputable def angle (q : Quat ℝ) : Vec3 ℝ := ⟨2 * (q.x / q.w), 2 * (q.y / q.w), 2 * (q.z / q.w)⟩

/-- The error of `y` from `x`. -/
noncomputable def error (x y : Full) : ErrState ℝ :=
  ⟨y.m.p - x.m.p, y.m.v - x.m.v, angle (x.m.q.inverse.mul y.m.q), y.ba - x.ba, y.bg - x.bg⟩

/-- A multiple of an error. -/
noncomputable def scale (e : ℝ) (d : ErrState ℝ) : ErrState ℝ := ⟨.smul e d.p, .smul e d.v, .smul e d.theta, .smul e d.ba, .smul e d.bg⟩

/-- Dead reckoning over one sample with constant biases. -/
noncomputable def advance (g : Vec3 ℝ) (s0 s1 : Reckon.Sample ℝ ℝ) (x : Full) : Full := ⟨Reckon.step g x.ba x.bg x.m s0 s1, x.ba, x.bg⟩

end Vio.ErrSpec
