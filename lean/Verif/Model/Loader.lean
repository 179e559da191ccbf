/-
Model of `src/data_manager/data_loader.cpp`, `include/data_manager/data_loader.hpp` and the message types of
`include/data_manager/data_typedef.hpp`, `src/data_manager/data_typedef.cpp`.

Simplifications: messages are passed by value (the API hands over `shared_ptr`s; the model assumes that the pointers are not null and that
each push hands over an object that is not pushed again).  The `flag` vector of a features message is never read and is not modelled.
-/
import Verif.Model.Math

set_option linter.unusedSectionVars false

namespace Vio

/-- `IMUMessage` (include/data_manager/data_typedef.hpp:54-72). -/
structure ImuMsg (K T : Type _) where
  gyro : Vec3 K
  accel : Vec3 K
  ts : T

/-- `FeatureObserve` (include/data_manager/data_typedef.hpp:10-24): camera id to normalised coordinate.
An `unordered_map`, as association list in iteration order (keys are distinct in a real map). -/
structure Obs (K : Type _) where
  norms : List (Nat × Vec2 K)

/-- `FeaturesMessage` (include/data_manager/data_typedef.hpp:27-50). -/
structure FeatMsg (K T : Type _) where
  ids : List Nat
  observes : List (Obs K)
  ts : T

/-- `FeatureObserve::GetNorm` (src/data_manager/data_typedef.cpp:14-22). -/
def Obs.getNorm {K : Type _} (o : Obs K) (cameraID : Nat) : Option (Vec2 K) :=
  o.norms.lookup cameraID

/-- Constructor of `FeaturesMessage` (src/data_manager/data_typedef.cpp:26-44): on a size mismatch everything is cleared and the
time set to 0. -/
def FeatMsg.make {K T : Type _} [TimeOps T] (ids : List Nat) (observes : List (Obs K)) (ts : T) : FeatMsg K T :=
  if ids.length ≠ observes.length then ⟨[], [], TimeOps.tlit 0⟩ else ⟨ids, observes, ts⟩

/-- `CombinedMessage` (include/data_manager/data_typedef.hpp:75-91). -/
structure Combined (K T : Type _) where
  featMeas : Option (FeatMsg K T)
  imuMeas : List (ImuMsg K T)

/-- `CombinedMessage::Clear` (src/data_manager/data_typedef.cpp:87-90). -/
def Combined.cleared {K T : Type _} : Combined K T := ⟨none, []⟩

/-- Function-local statics of `PushFeaturesMessage` (data_loader.cpp:27) and `PushIMUMessage` (data_loader.cpp:43):
one per process, `none` until first executed. -/
structure LoaderStatics (T : Type _) where
  lastFeat : Option T := none
  lastImu : Option T := none

/-- `DataLoader` (include/data_manager/data_loader.hpp:9-34). -/
structure Loader (K T : Type _) where
  featMeas : List (FeatMsg K T)
  imuMeas : List (ImuMsg K T)
  offset : T
  imuPeriod : T

variable {K T : Type _} [Add K] [Sub K] [Mul K] [Neg K] [Div K] [Zero K] [One K] [ScalarFn K]
  [TimeOps T] [TimeCast T K]

namespace Loader

/-- `DataLoader::Clear` (src/data_manager/data_loader.cpp:8-12). -/
def clear (l : Loader K T) : Loader K T :=
  { l with featMeas := [], imuMeas := [], offset := TimeOps.tlit (-1) }

/-- `DataLoader::DataLoader` (include/data_manager/data_loader.hpp:18-20): calls `Clear`, period 0.005. -/
def init : Loader K T :=
  { featMeas := [], imuMeas := [], offset := TimeOps.tlit (-1), imuPeriod := TimeOps.tlit (5/1000) }

/-- Result of a push: new process statics, new loader, return value, and the message object as rewritten by the call. -/
structure PushOut (K T M : Type _) where
  statics : LoaderStatics T
  loader : Loader K T
  ret : Bool
  msg : M

/-- `DataLoader::PushFeaturesMessage` (src/data_manager/data_loader.cpp:16-33). -/
def pushFeatures (s : LoaderStatics T) (l : Loader K T) (m : FeatMsg K T) : PushOut K T (FeatMsg K T) :=
  if m.ids.length ≠ m.observes.length then
    ⟨s, l, false, m⟩
  else
    let offset := if TimeOps.isNaN l.offset then m.ts else l.offset
    let ts := TimeOps.sub m.ts offset
    let m' := { m with ts := ts }
    let last := s.lastFeat.getD (TimeOps.sub ts (TimeOps.tlit 1))
    let q := if TimeOps.lt last ts then l.featMeas ++ [m'] else l.featMeas
    ⟨{ s with lastFeat := some ts }, { l with featMeas := q, offset := offset }, true, m'⟩

/-- `DataLoader::PushIMUMessage` (src/data_manager/data_loader.cpp:37-49). -/
def pushImu (s : LoaderStatics T) (l : Loader K T) (m : ImuMsg K T) : PushOut K T (ImuMsg K T) :=
  let offset := if TimeOps.isNaN l.offset then m.ts else l.offset
  let ts := TimeOps.sub m.ts offset
  let m' := { m with ts := ts }
  let last := s.lastImu.getD (TimeOps.sub ts (TimeOps.tlit 1))
  let q := if TimeOps.lt last ts then l.imuMeas ++ [m'] else l.imuMeas
  ⟨{ s with lastImu := some ts }, { l with imuMeas := q, offset := offset }, true, m'⟩

/-- Result of a pop.  `freedRead` records that the call read through a reference to a queue element it had already removed. -/
structure PopOut (K T : Type _) where
  loader : Loader K T
  out : Combined K T
  ret : Bool
  freedRead : Bool

/-- `DataLoader::PopOneMessage` (src/data_manager/data_loader.cpp:53-88).
The reference `feat` (line 62) is bound to the front slot of the features deque; line 67 reads `feat->timeStamp` after `pop_front`
(line 65).  The model uses the value the slot held and raises `freedRead`. -/
def popOne (l : Loader K T) : PopOut K T :=
  match l.imuMeas, l.featMeas with
  | imu :: imus, feat :: feats =>
    if TimeOps.le feat.ts imu.ts then
      if TimeOps.lt (TimeOps.fabs (TimeOps.sub feat.ts imu.ts)) l.imuPeriod then
        ⟨{ l with featMeas := feats, imuMeas := imus }, ⟨some feat, [imu]⟩, true, true⟩
      else
        ⟨{ l with featMeas := feats }, ⟨some feat, []⟩, true, true⟩
    else
      ⟨{ l with imuMeas := imus }, ⟨none, [imu]⟩, true, false⟩
  | imu :: imus, [] => ⟨{ l with imuMeas := imus }, ⟨none, [imu]⟩, true, false⟩
  | [], feat :: feats => ⟨{ l with featMeas := feats }, ⟨some feat, []⟩, true, false⟩
  | [], [] => ⟨l, .cleared, false, false⟩

/-- The loop of `PopPackedMessage` (src/data_manager/data_loader.cpp:112-115): moves the leading IMU messages not newer than `t`.
`front()` of an exhausted queue is undefined behaviour. -/
def takeUpTo (t : T) : List (ImuMsg K T) → Res (List (ImuMsg K T) × List (ImuMsg K T))
  | [] => .ub .emptyContainer
  | m :: ms =>
    if TimeOps.le m.ts t then do
      let (a, b) ← takeUpTo t ms
      pure (m :: a, b)
    else pure ([], m :: ms)

/-- Linear interpolation of an IMU message (src/data_manager/data_loader.cpp:119-125).  The rate is an `fp64`; Eigen converts it to
`Scalar` when it multiplies the vector. -/
def interpolate (t : T) (left right : ImuMsg K T) : ImuMsg K T :=
  let rate := TimeOps.div (TimeOps.sub t left.ts) (TimeOps.sub right.ts left.ts)
  let r : K := TimeCast.toK rate
  let r' : K := TimeCast.toK (TimeOps.sub (TimeOps.tlit 1) rate)
  { gyro := .smul r' left.gyro + .smul r right.gyro
    accel := .smul r' left.accel + .smul r right.accel
    ts := t }

/-- `DataLoader::PopPackedMessage` (src/data_manager/data_loader.cpp:92-135).  `outNull`: the caller passed a null pointer. -/
def popPacked (outNull : Bool) (l : Loader K T) : Res (Loader K T × Combined K T × Bool) :=
  if outNull then .ub .nullDeref else
  if l.imuMeas.isEmpty || l.featMeas.isEmpty then .ok (l, .cleared, false) else do
    let lastImu ← back l.imuMeas
    let feat ← front l.featMeas
    if TimeOps.le lastImu.ts feat.ts then .ok (l, .cleared, false) else
      let firstImu ← front l.imuMeas
      if TimeOps.le feat.ts firstImu.ts then
        .ok ({ l with featMeas := l.featMeas.tail }, .cleared, false)
      else
        let (taken, rest) ← takeUpTo feat.ts l.imuMeas
        let left ← back taken
        if TimeOps.lt (TimeOps.tlit (1/1000000)) (TimeOps.fabs (TimeOps.sub left.ts feat.ts)) then
          let right ← front rest
          let mid := interpolate feat.ts left right
          .ok ({ l with featMeas := l.featMeas.tail, imuMeas := mid :: rest }, ⟨some feat, taken ++ [mid]⟩, true)
        else
          .ok ({ l with featMeas := l.featMeas.tail, imuMeas := left :: rest }, ⟨some feat, taken⟩, true)

end Loader

/-! ### A process with any number of loaders -/

/-- Calls a client can make; the first argument selects the loader instance. -/
inductive LOp (K T : Type _) where
  | clear (i : Nat)
  | setPeriod (i : Nat) (p : T)
  | pushFeatures (i : Nat) (m : FeatMsg K T)
  | pushImu (i : Nat) (m : ImuMsg K T)
  | popOne (i : Nat)
  | popPacked (i : Nat) (outNull : Bool)

/-- What a call makes visible to the client. -/
inductive LOut (K T : Type _) where
  | none
  | pushedFeatures (ret : Bool) (m : FeatMsg K T)
  | pushedImu (ret : Bool) (m : ImuMsg K T)
  | popped (ret : Bool) (out : Combined K T)

/-- A process: the statics and all loader instances. -/
structure LProc (K T : Type _) where
  statics : LoaderStatics T
  loaders : Nat → Loader K T

namespace LProc

/-- A freshly started process. -/
def init : LProc K T := ⟨{}, fun _ => Loader.init⟩

/-- Replace one loader. -/
def set (p : LProc K T) (i : Nat) (l : Loader K T) : Nat → Loader K T :=
  fun j => if j = i then l else p.loaders j

/-- One API call. -/
def step (p : LProc K T) : LOp K T → Res (LProc K T × LOut K T)
  | .clear i => .ok ({ p with loaders := p.set i (p.loaders i).clear }, .none)
  | .setPeriod i d => .ok ({ p with loaders := p.set i { p.loaders i with imuPeriod := d } }, .none)
  | .pushFeatures i m =>
    let r := (p.loaders i).pushFeatures p.statics m
    .ok (⟨r.statics, p.set i r.loader⟩, .pushedFeatures r.ret r.msg)
  | .pushImu i m =>
    let r := (p.loaders i).pushImu p.statics m
    .ok (⟨r.statics, p.set i r.loader⟩, .pushedImu r.ret r.msg)
  | .popOne i =>
    let r := (p.loaders i).popOne
    .ok ({ p with loaders := p.set i r.loader }, .popped r.ret r.out)
  | .popPacked i n => do
    let (l, out, ret) ← (p.loaders i).popPacked n
    .ok ({ p with loaders := p.set i l }, .popped ret out)

/-- A history of calls, with everything it made visible. -/
def run (p : LProc K T) : List (LOp K T) → Res (LProc K T × List (LOut K T))
  | [] => .ok (p, [])
  | op :: ops => do
    let (p', o) ← p.step op
    let (p'', os) ← p'.run ops
    .ok (p'', o :: os)

end LProc
end Vio
