/-
Model of the functions that print: `Information` of the messages (`src/data_manager/data_typedef.cpp`), of features, frames and their managers (`feature_manager.cpp`, `frame_manager.cpp`)
and of the configurator (`src/config/config.cpp`), and of the tests of the covariance that print an error.  What is printed is a list of records, one per group of `LogInfo` lines; the conversion of numbers to text is left out.
-/
import Verif.Model.Frames
import Verif.Model.Config
import Verif.Model.Update

set_option linter.unusedSectionVars false

namespace Vio

/-- What the printing functions show. -/
inductive Line (K T : Type) where
  /-- data_typedef.cpp:49 -/
  | features (ts : T)
  /-- data_typedef.cpp:51 -/
  | seen (id : Nat)
  /-- data_typedef.cpp:53 -/
  | camera (cam : Nat) (norm : Vec2 K)
  /-- data_typedef.cpp:68-70 -/
  | imu (ts : T) (gyro accel : Vec3 K)
  /-- feature_manager.cpp:37-38 -/
  | feature (id first final num : Nat)
  /-- feature_manager.cpp:41-42 -/
  | observe (frame cam : Nat) (norm : Vec2 K)
  /-- frame_manager.cpp:54-59 -/
  | frame (id : Nat) (ts : T) (num : Nat) (q : Quat K) (p v : Vec3 K)
  /-- feature_manager.cpp:149 -/
  | noFeatures
  /-- frame_manager.cpp:212 -/
  | noFrames
  /-- feature_manager.cpp:154, frame_manager.cpp:217 -/
  | blank
  /-- config.cpp:79-94 and 103: all values but the extrinsics. -/
  | params (c : Config K)
  /-- config.cpp:99-100 -/
  | extrinsic (i : Nat) (p : Vec3 K) (q : Quat K)

variable {K T : Type} [Add K] [Sub K] [Mul K] [Neg K] [Div K] [Zero K] [One K] [ScalarFn K] [TimeOps T] [TimeCast T K]

/-- The loop of `FeaturesMessage::Information` (data_typedef.cpp:50-55) from index `i` on. -/
def FeatMsg.infoFrom (m : FeatMsg K T) : Nat → List Nat → Res (List (Line K T))
  | _, [] => .ok []
  | i, id :: rest => do
    let o ← idx m.observes i
    let ls ← m.infoFrom (i + 1) rest
    .ok (.seen id :: o.norms.map (fun e => .camera e.1 e.2) ++ ls)

/-- `FeaturesMessage::Information` (data_typedef.cpp:48-56). -/
def FeatMsg.info (m : FeatMsg K T) : Res (List (Line K T)) := do
  let ls ← m.infoFrom 0 m.ids
  .ok (.features m.ts :: ls)

/-- `IMUMessage::Information` (data_typedef.cpp:67-71). -/
def ImuMsg.info (m : ImuMsg K T) : List (Line K T) := [.imu m.ts m.gyro m.accel]

/-- `CombinedMessage::Information` (data_typedef.cpp:94-101). -/
def Combined.info (m : Combined K T) : Res (List (Line K T)) := do
  let ls ← match m.featMeas with
    | some f => f.info
    | none => .ok []
  .ok (ls ++ m.imuMeas.flatMap ImuMsg.info)

/-- The loop of `Feature::Information` (feature_manager.cpp:39-44) from index `i` on; the frame number is a `uint32_t`. -/
def Feature.infoFrom (first : Nat) : Nat → List (Obs K) → List (Line K T)
  | _, [] => []
  | i, o :: rest => o.norms.map (fun e => .observe (add32 first i) e.1 e.2) ++ Feature.infoFrom first (i + 1) rest

/-- `Feature::Information` (feature_manager.cpp:36-45). -/
def Feature.info (f : Feature K) : List (Line K T) := .feature f.id f.first f.finalFrameID f.observeNum :: Feature.infoFrom f.first 0 f.observes

/-- `FeatureManager::Information` (feature_manager.cpp:147-156). -/
def FMgr.info (s : FMgr K) : List (Line K T) := if s.map.isEmpty then [.noFeatures] else s.map.flatMap (fun e => (s.heap e.2).info) ++ [.blank]

/-- `Frame::Information` (frame_manager.cpp:53-60). -/
def Frame.info (f : Frame K T) : List (Line K T) := [.frame f.id f.ts f.features.length f.q f.p f.v]

/-- `FrameManager::Information` (frame_manager.cpp:210-219). -/
def FrameMgr.info (m : FrameMgr K T) : List (Line K T) := if m.frames.isEmpty then [.noFrames] else m.frames.flatMap Frame.info ++ [.blank]

/-- The loop of `Configurator::Information` (config.cpp:96-101) from camera `i` on. -/
def Config.infoFrom (c : Config K) : Nat → List (Vec3 K) → Res (List (Line K T))
  | _, [] => .ok []
  | i, p :: rest => do
    let q ← idx c.qbc i
    let ls ← c.infoFrom (i + 1) rest
    .ok (.extrinsic i p q :: ls)

/-- `Configurator::Information` (config.cpp:76-106). -/
def Config.info (c : Config K) : Res (List (Line K T)) := do
  let ls ← c.infoFrom 0 c.pbc
  .ok (.params c :: ls)

/-- The loops "check cov" (sequence_propagator.cpp:137-144, multi_view_vision_update.cpp:317-325): whether they print an error. -/
def covAlarm (m : DMat K) : Bool := (List.range m.rows).any fun i => ScalarFn.lt (m.e i i) 0

/-- The matrix `newCov` that the second of them checks, as computed inside `UpdateState` (multi_view_vision_update.cpp:301-313). -/
def Update.newCov (gain hxr P : DMat K) : Res (DMat K) := do
  let H ← hxr.block 0 0 hxr.rows (hxr.cols - 1)
  let IKH ← gain.neg.mul H
  (IKH.addDiag 1).mul P

end Vio
