/-
Model of `src/propagate/attitude_estimate.cpp` and `include/propagate/attitude_estimate.hpp`.

`IMUFullState::gravity_w`, a process-wide static (src/propagate/imu_state.cpp:7), is passed as an argument.
-/
import Verif.Model.Loader

set_option linter.unusedSectionVars false

namespace Vio

/-- `AttitudeEstimateItem` (attitude_estimate.hpp:8-21). -/
structure AttItem (K T : Type) where
  q : Quat K
  accel : Vec3 K
  gyro : Vec3 K
  ts : T

/-- `AttitudeEstimate` (attitude_estimate.hpp:25-35). -/
structure Att (K T : Type) where
  items : List (AttItem K T)
  biasA : Vec3 K
  biasG : Vec3 K
  kp : K
  ki : K
  errInt : Vec3 K

variable {K T : Type} [Add K] [Sub K] [Mul K] [Neg K] [Div K] [Zero K] [One K] [ScalarFn K]
  [TimeOps T] [TimeCast T K]

namespace Att

/-- Default member initialisers (attitude_estimate.hpp:28-35). -/
def init : Att K T :=
  { items := [], biasA := 0, biasG := 0, kp := lit (1/1000), ki := lit (1/10000), errInt := 0 }

/-- The attitude computed from the first sample (attitude_estimate.cpp:21-27, 33). -/
def initQuat (gImu gWord : Vec3 K) : Quat K :=
  let gCross := gImu.cross gWord
  let norm := gCross.norm
  let u := gCross.sdiv norm
  let theta := ScalarFn.atan2 norm (gImu.dot gWord)
  let dqv : Vec3 K := ⟨u.x * theta, u.y * theta, u.z * theta⟩
  (Utility.deltaQ dqv).normalized.normalized

/-- The gravity error that corrects the gyroscope (attitude_estimate.cpp:49-51). -/
def gravErr (g : Vec3 K) (q : Quat K) (accel : Vec3 K) : Vec3 K :=
  (accel.sdiv accel.norm).cross ((q.inverse.rotate g).sdiv g.norm)

/-- Attitude update from one item to the next (attitude_estimate.cpp:49-59): new attitude and new error integral. -/
def stepQuat (s : Att K T) (g : Vec3 K) (item0 : AttItem K T) (accel gyro1 : Vec3 K) (ts : T) : Quat K × Vec3 K :=
  let err := gravErr g item0.q accel
  let gyrMid := Vec3.smul (lit (1/2)) (item0.gyro + gyro1)
  let errInt := s.errInt + ⟨err.x * s.ki, err.y * s.ki, err.z * s.ki⟩
  let gyrCorrect := gyrMid + ⟨err.x * s.kp, err.y * s.kp, err.z * s.kp⟩ + errInt
  let dt : K := TimeCast.toK (TimeOps.sub ts item0.ts)
  let m := -gyrCorrect
  let dq := Utility.deltaQ ⟨m.x * dt, m.y * dt, m.z * dt⟩
  ((item0.q.mul dq).normalized, errInt)

/-- `AttitudeEstimate::Propagate` (attitude_estimate.cpp:10-62). -/
def propagate (s : Att K T) (g : Vec3 K) (accel gyro : Vec3 K) (ts : T) : Att K T × Bool :=
  match s.items.getLast? with
  | none =>
    let gImu := accel - s.biasA
    if TimeOps.lt (TimeOps.tlit (4/100) : T) (TimeCast.ofK (ScalarFn.fabs (g.norm - gImu.norm))) then (s, false)
    else
      ({ s with items := [⟨initQuat gImu g, accel - s.biasA, gyro - s.biasG, ts⟩] }, true)
  | some item0 =>
    if TimeOps.lt ts item0.ts then (s, false)
    else
      let r := s.stepQuat g item0 accel (gyro - s.biasG) ts
      ({ s with
          items := s.items ++ [⟨r.1, accel - s.biasA, gyro - s.biasG, ts⟩]
          errInt := r.2 }, true)

/-- The search from the back in `GetAttitude` (attitude_estimate.cpp:91-107), over the reversed queue; `prev` is the element before `it`, null at `rbegin`, where
`std::prev` would leave the queue. The outer result is undefined behaviour, the inner `none` means failure. -/
def search (ts thr : T) : Option (AttItem K T) → List (AttItem K T) → Res (Option (Quat K))
  | _, [] => .ok none
  | prev, it :: rest =>
    if TimeOps.le it.ts ts then do
      let p ← match prev with
        | some p => Res.ok p
        | none => .ub .outOfRange
      let prevDiff := TimeOps.sub p.ts ts
      let diff := TimeOps.sub ts it.ts
      if TimeOps.lt prevDiff diff && TimeOps.lt prevDiff thr then .ok (some p.q)
      else if TimeOps.lt diff thr then .ok (some it.q)
      else .ok none
    else search ts thr (some it) rest

/-- `AttitudeEstimate::GetAttitude` (attitude_estimate.cpp:66-108); `none` is the return value false (output untouched). -/
def getAttitude (s : Att K T) (ts thr : T) : Res (Option (Quat K)) :=
  match s.items.head?, s.items.getLast? with
  | some a, some b =>
    if TimeOps.le b.ts ts then
      .ok (if TimeOps.lt (TimeOps.sub ts b.ts) thr then some b.q else none)
    else if s.items.length > 1 && TimeOps.le ts a.ts then
      .ok (if TimeOps.lt (TimeOps.sub a.ts ts) thr then some a.q else none)
    else search ts thr none s.items.reverse
  | _, _ => .ok none

/-- `AttitudeEstimate::SetBias` (attitude_estimate.cpp:112-116). -/
def setBias (s : Att K T) (ba bg : Vec3 K) : Att K T := { s with biasA := ba, biasG := bg }

/-- The loop of `CleanOldItems` (attitude_estimate.cpp:124-126): `front()` of an empty queue is undefined. -/
def cleanLoop (ts : T) (thr : K) : List (AttItem K T) → Res (List (AttItem K T))
  | [] => .ub .emptyContainer
  | it :: rest =>
    if ScalarFn.lt thr (TimeCast.toK (TimeOps.sub ts it.ts)) then cleanLoop ts thr rest
    else .ok (it :: rest)

/-- `AttitudeEstimate::CleanOldItems` (attitude_estimate.cpp:120-130). -/
def cleanOldItems (s : Att K T) (ts : T) (thr : K) : Res (Att K T) :=
  if s.items.isEmpty then .ok s
  else do
    let items ← cleanLoop ts thr s.items
    .ok { s with items := items }

end Att
end Vio
