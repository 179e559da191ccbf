/-
Moves of the whole world: directions of the error state that no camera can see.
-/
import Verif.Model.Frames
import Verif.Spec.Update

namespace Vio.Spec

variable {T : Type}

/-- Three consecutive entries of a vector. -/
def triple (x : Nat → ℝ) (i : Nat) : Vec3 ℝ := ⟨x i, x (i + 1), x (i + 2)⟩

/-- Where the position of the `k`-th of `n` frames sits in the error state of the update: the newest frame is the IMU state itself, every other one has six entries behind the fifteen of
the IMU state and the six of each camera. -/
def posAt (nc n k : Nat) : Nat := if k + 1 = n then 0 else 15 + 6 * nc + 6 * k

/-- The same for the rotation. -/
def rotAt (nc n k : Nat) : Nat := if k + 1 = n then 6 else 15 + 6 * nc + 6 * k + 3

/-- How a point of the world moves to first order when the world is shifted by `t`, turned by `ω` about the origin and stretched by `σ`. -/
def moved (t ω : Vec3 ℝ) (σ : ℝ) (p : Vec3 ℝ) : Vec3 ℝ := t + ω.cross p + .smul σ p

/-- The error state `x` moves the whole world: frames move like points and turn with the world (rotation errors are measured in the frame), cameras keep their rotation on the body, and
their mounting position only stretches.  Velocity and biases are free. -/
structure MovesWorld (m : FrameMgr ℝ T) (t ω : Vec3 ℝ) (σ : ℝ) (x : Nat → ℝ) : Prop where
  pos : ∀ k f, m.frames[k]? = some f → triple x (posAt m.extrinsics.length m.frames.length k) = moved t ω σ f.p
  rot : ∀ k f, m.frames[k]? = some f → triple x (rotAt m.extrinsics.length m.frames.length k) = f.q.inverse.rotate ω
  mount : ∀ c e, m.extrinsics[c]? = some e → triple x (15 + 6 * c) = .smul σ e.p
  mountRot : ∀ c e, m.extrinsics[c]? = some e → triple x (15 + 6 * c + 3) = 0

/-- The world after a finite move: turned by `r`, stretched by `s`, shifted by `t`. -/
def placed (r : Quat ℝ) (s : ℝ) (t p : Vec3 ℝ) : Vec3 ℝ := .smul s (r.rotate p) + t

end Vio.Spec
