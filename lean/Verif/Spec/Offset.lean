/-
Vocabulary for C133: uncertainty about where the world is, as a term of the joint covariance of the filter.
-/
import Mathlib.Data.Real.Basic
import Verif.Model.Backend

namespace Vio.Spec

/-- The axis of the world that the component `i` of the error state is a position along, if it is one: the position of the IMU and those of the frames of the window, which have six components
each behind the fifteen of the IMU state and the six of each of `nc` cameras. -/
def axisOf (nc i : Nat) : Option Nat :=
  if i < 3 then some i else if 15 + 6 * nc ≤ i ∧ (i - (15 + 6 * nc)) % 6 < 3 then some ((i - (15 + 6 * nc)) % 6) else none

/-- The covariance of the error state when the only error is a shift of the whole world with covariance `S`: all positions move together, nothing else moves. -/
def shiftCov (nc : Nat) (S : Nat → Nat → ℝ) (i j : Nat) : ℝ :=
  match axisOf nc i, axisOf nc j with
  | some a, some b => S a b
  | _, _ => 0

/-- The second matrix has the size of the first and is larger by `D` in every entry. -/
structure OffBy (D : Nat → Nat → ℝ) (a a' : DMat ℝ) : Prop where
  rows : a'.rows = a.rows
  cols : a'.cols = a.cols
  at' : ∀ i j, i < a.rows → j < a.cols → a'.e i j = a.e i j + D i j

variable {T : Type}

/-- Items that differ in their covariances only, by the parts of `D` that belong to them. -/
structure ItemOff (D : Nat → Nat → ℝ) (i i' : PropItem ℝ T) : Prop where
  st : i'.st = i.st
  accel : i'.accel = i.accel
  gyro : i'.gyro = i.gyro
  ts : i'.ts = i.ts
  cov : OffBy D i.imuCov i'.imuCov
  ex : OffBy (fun x y => D x (15 + y)) i.imuEx i'.imuEx

/-- Queues that differ in their covariances only.  The covariance of cameras and frames is read together with an item, so it is left open when there is none. -/
structure QueueOff (D : Nat → Nat → ℝ) (s s' : PropQueue ℝ T) : Prop where
  items : List.Forall₂ (ItemOff D) s.items s'.items
  exCam : s.items ≠ [] → OffBy (fun x y => D (15 + x) (15 + y)) s.exCamCov s'.exCamCov
  rest : { s' with items := s.items, exCamCov := s.exCamCov } = s

/-- Processes that differ in the covariances of the filter only.  The scratch covariance and the list of features of the update are left open: the update writes them before it reads them. -/
structure ProcOff (D : Nat → Nat → ℝ) (p p' : BProc ℝ T) : Prop where
  q : QueueOff D p.b.u.q p'.b.u.q
  rest : { p' with b := { p'.b with u := { p'.b.u with q := p.b.u.q, cov := p.b.u.cov, features := p.b.u.features } } } = p

end Vio.Spec
