/-
Dead reckoning, written from the equations of strapdown integration and not from the propagator: trapezoidal rule for the rotation rate, the acceleration in the world frame and the
velocity, with constant biases and a constant gravity.
-/
import Verif.Model.Propagator

set_option linter.unusedSectionVars false

namespace Vio.Reckon

variable {K T : Type} [Add K] [Sub K] [Mul K] [Neg K] [Div K] [Zero K] [One K] [ScalarFn K]
  [TimeOps T] [TimeCast T K]

/-- An IMU sample: specific force, rotation rate, time. -/
abbrev Sample (K T : Type) := Vec3 K × Vec3 K × T

/-- The time between two samples. -/
def gap (s0 s1 : Sample K T) : K := TimeCast.toK (TimeOps.sub s1.2.2 s0.2.2)

/-- The half of a vector. -/
def half (v : Vec3 K) : Vec3 K := ⟨lit (1/2) * v.x, lit (1/2) * v.y, lit (1/2) * v.z⟩

/-- A vector times a duration. -/
def during (v : Vec3 K) (d : K) : Vec3 K := ⟨v.x * d, v.y * d, v.z * d⟩

/-- One step of dead reckoning between two samples, the biases being removed from both. -/
def step (g ba bg : Vec3 K) (m : Motion K) (s0 s1 : Sample K T) : Motion K :=
  let d : K := gap s0 s1
  let q := (m.q.mul (Utility.deltaQ (during (half (s0.2.1 + s1.2.1) - bg) d))).normalized
  let v := m.v + during (half (m.q.rotate (s0.1 - ba) + q.rotate (s1.1 - ba)) - g) d
  { p := m.p + during (half (m.v + v)) d, v := v, q := q }

/-- Dead reckoning from a motion at the time of a sample along the samples that follow. -/
def along (g ba bg : Vec3 K) : Motion K → Sample K T → List (Sample K T) → Motion K
  | m, _, [] => m
  | m, s0, s1 :: rest => along g ba bg (step g ba bg m s0 s1) s1 rest

end Vio.Reckon
