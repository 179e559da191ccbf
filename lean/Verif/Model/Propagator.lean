/-
Model of `src/propagate/sequence_propagator.cpp`, `include/propagate/sequence_propagator.hpp`, `include/propagate/imu_state.hpp`.

`IMUFullState::gravity_w` (static) is an argument.  The queue's `FrameManager *propagator` is only used for `extrinsics.size()`, which is the argument `nExt`
(the null case is handled by the callers in the backend model).  The "check cov" loop (lines 137-144) only logs and is omitted.
-/
import Verif.Model.Matrix

set_option linter.unusedSectionVars false

namespace Vio

/-- `IMU_STATE_SIZE` (imu_state.hpp:8). -/
abbrev imuStateSize : Nat := 15
/-- `IMU_NOISE_SIZE` (imu_state.hpp:9). -/
abbrev imuNoiseSize : Nat := 12
/-- `INDEX_P` (imu_state.hpp:11). -/
abbrev indexP : Nat := 0
/-- `INDEX_V` (imu_state.hpp:12). -/
abbrev indexV : Nat := 3
/-- `INDEX_R` (imu_state.hpp:13). -/
abbrev indexR : Nat := 6
/-- `INDEX_BA` (imu_state.hpp:14). -/
abbrev indexBA : Nat := 9
/-- `INDEX_BG` (imu_state.hpp:15). -/
abbrev indexBG : Nat := 12
/-- `INDEX_NA` (imu_state.hpp:17). -/
abbrev indexNA : Nat := 0
/-- `INDEX_NG` (imu_state.hpp:18). -/
abbrev indexNG : Nat := 3
/-- `INDEX_NWA` (imu_state.hpp:19). -/
abbrev indexNWA : Nat := 6
/-- `INDEX_NWG` (imu_state.hpp:20). -/
abbrev indexNWG : Nat := 9

/-- `IMUMotionState` (imu_state.hpp:67-86). -/
structure Motion (K : Type) where
  p : Vec3 K
  v : Vec3 K
  q : Quat K

/-- The error-state part of `IMUFullState` (imu_state.hpp:23-63). -/
@[ext] structure ErrState (K : Type) where
  p : Vec3 K
  v : Vec3 K
  theta : Vec3 K
  ba : Vec3 K
  bg : Vec3 K

/-- `IMUPropagateQueueItem` (sequence_propagator.hpp:10-27). -/
structure PropItem (K T : Type) where
  st : Motion K
  imuCov : DMat K
  imuEx : DMat K
  accel : Vec3 K
  gyro : Vec3 K
  ts : T

/-- `PropagateQueue` (sequence_propagator.hpp:31-47). -/
structure PropQueue (K T : Type) where
  items : List (PropItem K T)
  exCamCov : DMat K
  biasA : Vec3 K
  biasG : Vec3 K
  initState : Motion K
  F : DMat K
  G : DMat K
  Q : DMat K

variable {K T : Type} [Add K] [Sub K] [Mul K] [Neg K] [Div K] [Zero K] [One K] [ScalarFn K]
  [TimeOps T] [TimeCast T K]

namespace PropQueue

/-- Default member initialisers (sequence_propagator.hpp:34-47). `initState` is uninitialised in the code, hence arbitrary. -/
def init (st : Motion K) : PropQueue K T :=
  { items := [], exCamCov := .zero 0 0, biasA := 0, biasG := 0, initState := st
    F := .ident imuStateSize, G := .zero imuStateSize imuNoiseSize, Q := .zero imuNoiseSize imuNoiseSize }

/-- `InitializeProcessNoiseMatrix` (sequence_propagator.cpp:193-202): a diagonal matrix. -/
def noiseMatrix (na ng nwa nwg : K) : DMat K :=
  ⟨imuNoiseSize, imuNoiseSize, fun i j =>
    if i = j then
      if i < indexNG then 1 * na else if i < indexNWA then 1 * ng else if i < indexNWG then 1 * nwa else 1 * nwg
    else 0⟩

/-- Time step (sequence_propagator.cpp:90, 115). -/
def dt (t0 t1 : T) : K := TimeCast.toK (TimeOps.sub t1 t0)

/-- Gyroscope mid value (sequence_propagator.cpp:92). -/
def midGyro (bg g0 g1 : Vec3 K) : Vec3 K := Vec3.smul (lit (1/2)) (g0 + g1) - bg

/-- Accelerometer mid value (sequence_propagator.cpp:97). -/
def midAccel (ba a0 a1 : Vec3 K) : Vec3 K := Vec3.smul (lit (1/2)) (a0 + a1) - ba

/-- `v * k` -/
def vscale (v : Vec3 K) (k : K) : Vec3 K := ⟨v.x * k, v.y * k, v.z * k⟩

/-- `PropagateMotionNominalState` (sequence_propagator.cpp:83-104). -/
def nominal (s : PropQueue K T) (g : Vec3 K) (i0 : PropItem K T) (a1 w1 : Vec3 K) (t1 : T) : Motion K :=
  let d : K := dt i0.ts t1
  let dq := Utility.deltaQ (vscale (midGyro s.biasG i0.gyro w1) d)
  let q1 := (i0.st.q.mul dq).normalized
  let midAccelWorld := Vec3.smul (lit (1/2)) (i0.st.q.rotate (i0.accel - s.biasA) + q1.rotate (a1 - s.biasA))
  let v1 := i0.st.v + vscale (midAccelWorld - g) d
  let p1 := i0.st.p + vscale (Vec3.smul (lit (1/2)) (i0.st.v + v1)) d
  ⟨p1, v1, q1⟩

/-- The writes into `F` (sequence_propagator.cpp:115-124). -/
def fillF (F : DMat K) (d : K) (q0 : Quat K) (ma mg : Vec3 K) : DMat K :=
  let R := q0.toMat
  let I3dt : Mat3 K := Mat3.smul d .one
  ((((F.setBlock3 indexP indexV I3dt).setBlock3 indexV indexR ((Mat3.smul (-d) R).mul (Utility.skew ma))).setBlock3
    indexV indexBA (Mat3.smul (-d) R)).setBlock3 indexR indexR (.one - Mat3.smul d (Utility.skew mg))).setBlock3 indexR indexBG (-I3dt)

/-- The writes into `G` (sequence_propagator.cpp:127-131). -/
def fillG (G : DMat K) (d : K) (q0 : Quat K) : DMat K :=
  let R := q0.toMat
  let I3dt : Mat3 K := Mat3.smul d .one
  ((((G.setBlock3 indexP indexNA (Mat3.smul (lit (1/2) * d * d) R)).setBlock3 indexV indexNA (Mat3.smul d R)).setBlock3 indexR indexNG I3dt).setBlock3
    indexBA indexNWA I3dt).setBlock3 indexBG indexNWG I3dt

/-- `F` after a step with the given samples (sequence_propagator.cpp:92, 97, 115-124). -/
def stepF (s : PropQueue K T) (i0 : PropItem K T) (a1 w1 : Vec3 K) (t1 : T) : DMat K :=
  fillF s.F (dt i0.ts t1) i0.st.q (midAccel s.biasA i0.accel a1) (midGyro s.biasG i0.gyro w1)

/-- `G` after a step. -/
def stepG (s : PropQueue K T) (i0 : PropItem K T) (t1 : T) : DMat K := fillG s.G (dt i0.ts t1) i0.st.q

/-- One integration step (sequence_propagator.cpp:83-159) from `i0` to a sample: the item produced. `F`, `G` are those of `stepF`, `stepG`. -/
def stepItem (s : PropQueue K T) (g : Vec3 K) (i0 : PropItem K T) (a1 w1 : Vec3 K) (t1 : T) : PropItem K T :=
  let F := s.stepF i0 a1 w1 t1
  let G := s.stepG i0 t1
  { st := s.nominal g i0 a1 w1 t1
    imuCov := ((F.mulF i0.imuCov).mulF F.transpose).addF ((G.mulF s.Q).mulF G.transpose)
    imuEx := F.mulF i0.imuEx
    accel := a1, gyro := w1, ts := t1 }

/-- `PropagateQueue::Propagate` (sequence_propagator.cpp:9-59); always returns true. -/
def propagate (s : PropQueue K T) (nExt : Nat) (g : Vec3 K) (a w : Vec3 K) (t : T) : PropQueue K T :=
  let camExSize := nExt * 6 + 6
  match s.items.getLast? with
  | none =>
    { s with
      items := [{ st := s.initState, imuCov := .zero imuStateSize imuStateSize, imuEx := .zero imuStateSize camExSize, accel := a, gyro := w, ts := t }]
      exCamCov := .zero camExSize camExSize
      F := .ident imuStateSize
      G := .zero imuStateSize imuNoiseSize }
  | some i0 =>
    { s with
      items := s.items ++ [s.stepItem g i0 a w t]
      F := s.stepF i0 a w t
      G := s.stepG i0 t }

/-- The loop of `Repropagate` (sequence_propagator.cpp:64-77): `done` are the items before and at the iterator, `i0` the current one. -/
def repropLoop (g : Vec3 K) : PropQueue K T → PropItem K T → List (PropItem K T) → PropQueue K T × List (PropItem K T)
  | s, _, [] => (s, [])
  | s, i0, i1 :: rest =>
    let j := s.stepItem g i0 i1.accel i1.gyro i1.ts
    let r := repropLoop g { s with F := s.stepF i0 i1.accel i1.gyro i1.ts, G := s.stepG i0 i1.ts } j rest
    (r.1, j :: r.2)

/-- `PropagateQueue::Repropagate` (sequence_propagator.cpp:63-79). -/
def repropagate (s : PropQueue K T) (g : Vec3 K) : PropQueue K T :=
  match s.items with
  | [] => s
  | i0 :: rest =>
    let r := repropLoop g s i0 rest
    { r.1 with items := i0 :: r.2 }

/-- The loop of `ResetOrigin` (sequence_propagator.cpp:210-215). -/
def resetLoop (ts thr : T) : List (PropItem K T) → List (PropItem K T)
  | [] => []
  | i :: rest => if TimeOps.lt thr (TimeOps.sub ts i.ts) then resetLoop ts thr rest else i :: rest

/-- `PropagateQueue::ResetOrigin` (sequence_propagator.cpp:206-219). -/
def resetOrigin (s : PropQueue K T) (ts thr : T) : PropQueue K T × Bool :=
  if s.items.isEmpty then (s, false)
  else
    let l := resetLoop ts thr s.items
    ({ s with items := l }, !l.isEmpty)

/-- `segment<3>(i) = v` on a fixed-size vector. -/
def setSeg3 (d : Nat → K) (i : Nat) (v : Vec3 K) : Nat → K := fun j => if i ≤ j ∧ j < i + 3 then v.get (j - i) else d j

/-- `ErrorStateConvert` to a vector (sequence_propagator.cpp:170-178); `junk` is the uninitialised local vector. -/
def errToVec (junk : Nat → K) (x : ErrState K) : Nat → K :=
  setSeg3 (setSeg3 (setSeg3 (setSeg3 (setSeg3 junk indexP x.p) indexV x.v) indexR x.theta) indexBA x.ba) indexBG x.bg

/-- `segment<3>(i)` of a fixed-size vector. -/
def seg3 (d : Nat → K) (i : Nat) : Vec3 K := ⟨d i, d (i + 1), d (i + 2)⟩

/-- `ErrorStateConvert` from a vector (sequence_propagator.cpp:181-189). -/
def vecToErr (d : Nat → K) : ErrState K :=
  ⟨seg3 d indexP, seg3 d indexV, seg3 d indexR, seg3 d indexBA, seg3 d indexBG⟩

end PropQueue
end Vio
