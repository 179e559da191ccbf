/-
A noise-free world: observations that are exactly the projections of fixed points.
-/
import Verif.Model.Frames
import Verif.Spec.Update
import Verif.Spec.Reckon
import Verif.Spec.Window

namespace Vio.Spec

variable {T : Type}

/-- All observations of a feature by frames of the window are exactly the projections of the point `X`, and `X` is not in the focal plane of a camera that observes it.  The `j`-th
observation of a feature belongs to the frame whose id is `j` after the first one. -/
def SeesExactly (m : FrameMgr ℝ T) (ft : Feature ℝ) (X : Vec3 ℝ) : Prop :=
  ∀ j o, ft.observes[j]? = some o → ∀ f ∈ m.frames, f.id = add32 j ft.first → ∀ c n, (c, n) ∈ o.norms → ∀ e, m.extrinsics[c]? = some e →
    camDepth f.q f.p e.q e.p X ≠ 0 ∧ n = predict f.q f.p e.q e.p X

/-- A world without noise: the points behind the feature ids, and the motion of the body. -/
structure World (T : Type) where
  point : Nat → Vec3 ℝ
  motion : T → Motion ℝ

/-- A features message shows exactly what cameras mounted as `ex` on a body in state `st` see of the points: every observation is the projection of the point behind its id, which is not in
the focal plane. -/
def ShowsExactly (ex : List (Extrinsic ℝ)) (point : Nat → Vec3 ℝ) (st : Motion ℝ) (m : FeatMsg ℝ T) : Prop :=
  ∀ id o, WinSpec.report m id = some o → ∀ c n, (c, n) ∈ o.norms → ∀ e, ex[c]? = some e →
    camDepth st.q st.p e.q e.p (point id) ≠ 0 ∧ n = predict st.q st.p e.q e.p (point id)

/-- The time among `times` with which the filter aligns an image of time `ts`: the first one that is not more than `thr` before it. -/
def AlignedAt [TimeOps T] (times : List T) (ts thr t : T) : Prop :=
  ∃ old rest, times = old ++ t :: rest ∧ (∀ x ∈ old, TimeOps.lt thr (TimeOps.sub ts x) = true) ∧ TimeOps.lt thr (TimeOps.sub ts t) = false

/-- The motion of the world obeys the equations of dead reckoning between two samples. -/
def MovesBy [TimeOps T] [TimeCast T ℝ] (W : World T) (g ba bg : Vec3 ℝ) (s0 s1 : Reckon.Sample ℝ T) : Prop :=
  W.motion s1.2.2 = Reckon.step g ba bg (W.motion s0.2.2) s0 s1

end Vio.Spec
