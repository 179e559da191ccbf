/-
Model of `src/backend/backend.cpp`, `src/backend/backend_config.cpp`, `src/backend/backend_initialize.cpp`, `include/backend/backend.hpp`.

One backend per process.  The process-wide statics are the loader's (Model/Loader), `IMUFullState::gravity_w` and the configurator.  Logging is omitted, except that the log output of
`Initialize` reads the front of the propagation queue.  `UpdateFeatureFrameManager` and `MarginalizeFeatureFrameManager` are `Win.insert` and `Win.marginalize` (Model/Frames).
-/
import Verif.Model.Attitude
import Verif.Model.Config
import Verif.Model.Pnp
import Verif.Model.Update

set_option linter.unusedSectionVars false

namespace Vio

/-- `Status` (include/utility/typedef.hpp:60-63). -/
inductive Status where
  | needInit
  | initialized
  deriving DecidableEq, Repr

/-- `Backend` (backend.hpp:17-36).  `u` holds the propagation queue, both managers and the updater's members.  `mounted`: the pointers of the propagation queue and the updater are set. -/
structure Backend (K T : Type) where
  loader : Loader K T
  u : Upd K T
  att : Att K T
  noise : K
  maxUsed : Nat
  mounted : Bool
  pnp : PnpParam K
  status : Status

/-- `IMUFullState` as filled by the publish functions (include/propagate/imu_state.hpp:23-63), with the time. -/
structure Published (K T : Type) where
  st : Motion K
  biasA : Vec3 K
  biasG : Vec3 K
  ts : T

variable {K T : Type} [Add K] [Sub K] [Mul K] [Neg K] [Div K] [Zero K] [One K] [ScalarFn K]
  [TimeOps T] [TimeCast T K]

namespace Backend

/-- A fresh backend (default member initialisers of all components; include/data_manager/vision_data/frame_manager.hpp:66-71 for the window).  `st` is the uninitialised `initState`. -/
def init (st : Motion K) : Backend K T :=
  { loader := Loader.init
    u := ⟨.init st, ⟨FMgr.init, ⟨[], 0, [], 5, 25, lit (2/10), lit (3/10)⟩⟩, .noMarg, .zero 0 0, [], 0⟩
    att := Att.init
    noise := lit 0
    maxUsed := 20
    mounted := false
    pnp := .default
    status := .needInit }

/-- The extrinsics loop of `ConfigParams` (backend_config.cpp:24-29): `default_q_bc[i]` is indexed by the size of `default_p_bc`. -/
def extrinsics (qbc : List (Quat K)) : Nat → List (Vec3 K) → Res (List (Extrinsic K))
  | _, [] => .ok []
  | i, p :: ps => do
    let q ← idx qbc i
    let rest ← extrinsics qbc (i + 1) ps
    .ok (⟨q, p⟩ :: rest)

/-- The part of `ConfigParams` after the files are read (backend_config.cpp:14-45): backend and `gravity_w`. -/
def applyConfig (c : Config K) (b : Backend K T) : Res (Backend K T × Vec3 K) := do
  let ex ← extrinsics c.qbc 0 c.pbc
  .ok ({ b with
    loader := { b.loader with imuPeriod := TimeCast.ofK c.period }
    u := { b.u with
      q := { b.u.q with Q := PropQueue.noiseMatrix c.sigmaA c.sigmaG c.sigmaWA c.sigmaWG, biasA := c.biasA, biasG := c.biasG }
      w := { b.u.w with frm := { b.u.w.frm with
        extrinsics := ex, maxWindowSize := c.maxFrameNum, minParallax := c.minParallax, minTracked := c.minTracked, maxTranslation := c.maxTranslation } } }
    noise := c.sigmaVision
    maxUsed := c.maxFeatures
    mounted := true }, ⟨lit 0, lit 0, c.gravity⟩)

/-- `ConfigParams` (backend_config.cpp:8-46): return value, backend, `gravity_w`, configurator; `none` when the bound on the number of camera files is exhausted. -/
def configParams (lib : ConfLib K) (fs : String → Option (List Char)) (path : String) (fuel : Nat) (s : Conf.St K) (g : Vec3 K) (b : Backend K T) :
    Res (Option (Bool × Backend K T × Vec3 K × Conf.St K)) := do
  let r ← Conf.readConfig lib fs path fuel s
  match r with
  | none => .ok none
  | some (false, s) => .ok (some (false, b, g, s))
  | some (true, s) => do
    let (b, g) ← applyConfig s.cfg b
    .ok (some (true, b, g, s))

/-- `TrianglizeMultiView` (backend_initialize.cpp:50-88) over the features of frame `f` (pointer not null). -/
def triMultiView (ext : Ext K) (f : Frame K T) : Win K T → List (Nat × Nat) → Res (Win K T)
  | w, [] => .ok w
  | w, e :: rest => do
    let ft := w.feat.heap e.2
    let o ← idx ft.observes (sub32 f.id ft.first)
    let vs ← Update.obsViews w.frm f o.norms
    let (good, pw) ← Triang.analytic ext (vs.map (·.q)) (vs.map (·.p)) (vs.map (·.n)) ft.pw
    triMultiView ext f { w with feat := w.feat.put e.2 { ft with pw := pw, status := if good then .solved else .unsolved } } rest

/-- The points for the pose estimation (backend_initialize.cpp:101-108). -/
def framePoints (s : FMgr K) (f : Frame K T) : List (Vec3 K × Vec2 K) :=
  f.features.filterMap (fun e =>
    if (s.heap e.2).status = .solved then ((s.heap e.2).getNorm f.id 0).map (fun n => ((s.heap e.2).pw, n)) else none)

/-- `EstimateFramePose` (backend_initialize.cpp:92-126): return value and frame (pointer not null). -/
def estimateFramePose (ext : Ext K) (prm : PnpParam K) (w : Win K T) (f : Frame K T) : Res (Bool × Frame K T) :=
  let pts := framePoints w.feat f
  if pts.length < 10 then .ok (false, f)
  else do
    let e ← idx w.frm.extrinsics 0
    let r := Pnp.estimate ext prm true (pts.map (·.1)) (pts.map (·.2)) ⟨f.q.mul e.q, f.q.rotate e.p + f.p⟩
    if r.1 then
      let q := r.2.q.mul e.q.inverse
      .ok (true, { f with q := q, p := -(q.rotate e.p) + r.2.p })
    else .ok (false, f)

/-- Replace the first two frames of the window. -/
def setFrames (w : Win K T) (fi fj : Frame K T) (rest : List (Frame K T)) : Win K T := { w with frm := { w.frm with frames := fi :: fj :: rest } }

/-- The loop of `InitializePropagator` (backend_initialize.cpp:138-140).  `Propagate` uses the queue's pointer to the frame manager (sequence_propagator.cpp:13). -/
def replay (mounted : Bool) (nExt : Nat) (g : Vec3 K) : PropQueue K T → List (AttItem K T) → Res (PropQueue K T)
  | s, [] => .ok s
  | s, it :: rest => if mounted then replay mounted nExt g (s.propagate nExt g it.accel it.gyro it.ts) rest else .ub .nullDeref

/-- `InitializePropagator` (backend_initialize.cpp:130-142); always returns true. -/
def initPropagator (g : Vec3 K) (b : Backend K T) (st : Motion K) (start : T) : Res (Backend K T) := do
  let s := { b.u.q with initState := st }
  let att ← b.att.cleanOldItems start (TimeCast.toK b.loader.imuPeriod)
  let s ← replay b.mounted b.u.w.frm.extrinsics.length g s att.items
  .ok { b with att := att, u := { b.u with q := s } }

/-- Replace the window. -/
def setWin (b : Backend K T) (w : Win K T) : Backend K T := { b with u := { b.u with w := w } }

/-- `Initialize` (backend_initialize.cpp:8-45): return value and backend, which is also changed when it fails. -/
def initialise (env : Env K) (g : Vec3 K) (b : Backend K T) : Res (Bool × Backend K T) :=
  match b.u.w.frm.frames with
  | fi :: fj :: rest =>
    let diff := TimeOps.sub fj.ts fi.ts
    if TimeOps.lt (TimeOps.fabs diff) (TimeCast.ofK (zeroTol : K)) then .ok (false, b)
    else do
      let a ← b.att.getAttitude fi.ts (TimeOps.mul b.loader.imuPeriod (TimeOps.tlit (55/100)))
      match a with
      | none => .ok (false, b)
      | some q => do
        let fi := { fi with q := q, p := 0 }
        let w ← triMultiView env.ext fi (setFrames b.u.w fi fj rest) fi.features
        let fj := { fj with q := fi.q, p := fi.p }
        let (good, fj) ← estimateFramePose env.ext b.pnp w fj
        if !good then .ok (false, b.setWin (setFrames w fi fj rest))
        else do
          let fj := { fj with v := (fj.p - fi.p).sdiv (TimeCast.toK diff) }
          let fi := { fi with v := fj.v }
          let b ← initPropagator g (b.setWin (setFrames w fi fj rest)) ⟨fi.p, fi.v, fi.q⟩ fi.ts
          let _ ← front b.u.q.items
          .ok (true, b)
  | _ => .ok (false, b)

/-- The loop that leaves one frame (backend.cpp:60-62, 78-80); the number bounds the passes (the number of frames is enough, see `shrink_length`). -/
def shrink : Nat → Win K T → Res (Win K T)
  | 0, w => .ok w
  | n + 1, w =>
    if w.frm.frames.length > 1 then do
      let w ← w.marginalize .margOldest
      shrink n w
    else .ok w

/-- Shrink the window of a backend. -/
def shrunk (b : Backend K T) : Res (Backend K T) := do
  let w ← shrink b.u.w.frm.frames.length b.u.w
  .ok (b.setWin w)

/-- The IMU part of `RunOnce` (backend.cpp:31-45): `res` and backend. -/
def onImu (g : Vec3 K) (b : Backend K T) : List (ImuMsg K T) → Res (Bool × Backend K T)
  | [] => .ok (true, b)
  | m :: _ =>
    let (att, res) := b.att.propagate g m.accel m.gyro m.ts
    let b := { b with att := att }
    match b.status with
    | .needInit => .ok (res, b)
    | .initialized =>
      if b.mounted then .ok (true, { b with u := { b.u with q := b.u.q.propagate b.u.w.frm.extrinsics.length g m.accel m.gyro m.ts } })
      else .ub .nullDeref

/-- The attempt to initialise (backend.cpp:52-67). -/
def tryInit (env : Env K) (g : Vec3 K) (b : Backend K T) : Res (Backend K T) :=
  match b.status with
  | .needInit => do
    let (good, b) ← initialise env g b
    if good then .ok { b with status := .initialized } else b.shrunk
  | .initialized => .ok b

/-- The vision update (backend.cpp:69-89). -/
def tryUpdate (env : Env K) (g : Vec3 K) (b : Backend K T) (ts : T) : Res (Backend K T) :=
  match b.status with
  | .needInit => .ok b
  | .initialized =>
    if b.mounted then do
      let (good, u) ← Update.update env b.noise b.maxUsed g b.u ts b.loader.imuPeriod
      if good then do
        let w ← u.w.marginalize u.policy
        .ok { b with u := { u with w := w }, att := b.att.setBias u.q.biasA u.q.biasG }
      else shrunk { b with u := u, status := .needInit }
    else .ub .nullDeref

/-- Removal of old attitudes (backend.cpp:91-95). -/
def cleanAtt (b : Backend K T) : Res (Backend K T) :=
  if b.u.w.frm.frames.length > 1 then do
    let f ← back b.u.w.frm.frames
    let att ← b.att.cleanOldItems f.ts (TimeCast.toK b.loader.imuPeriod)
    .ok { b with att := att }
  else .ok b

/-- The vision part of `RunOnce` (backend.cpp:47-96). -/
def onFeat (env : Env K) (g : Vec3 K) (b : Backend K T) (m : FeatMsg K T) : Res (Backend K T) := do
  let b := b.setWin (b.u.w.insert m)
  let b ← b.tryInit env g
  let b ← b.tryUpdate env g m.ts
  b.cleanAtt

/-- `RunOnce` (backend.cpp:22-99): return value and backend. -/
def runOnce (env : Env K) (g : Vec3 K) (b : Backend K T) : Res (Bool × Backend K T) := do
  let r := b.loader.popOne
  let b := { b with loader := r.loader }
  if r.ret then do
    let (res, b) ← b.onImu g r.out.imuMeas
    match r.out.featMeas with
    | none => .ok (res, b)
    | some m => do
      let b ← b.onFeat env g m
      .ok (true, b)
  else .ok (false, b)

/-- `RunOnceTest` (backend.cpp:103-113). -/
def runOnceTest (b : Backend K T) : Bool × Backend K T := (b.loader.popOne.ret, { b with loader := b.loader.popOne.loader })

/-- A published item. -/
def publish (b : Backend K T) (i : PropItem K T) : Published K T := ⟨i.st, b.u.q.biasA, b.u.q.biasG, i.ts⟩

/-- `PublishPropagateState` (backend.cpp:117-128); `none` is the return value false, with the outputs untouched. -/
def publishPropagate (b : Backend K T) : Res (Option (Published K T)) :=
  if b.u.q.items.isEmpty then .ok none
  else do
    let i ← back b.u.q.items
    .ok (some (b.publish i))

/-- `PublishUpdateState` (backend.cpp:132-143). -/
def publishUpdate (b : Backend K T) : Res (Option (Published K T)) :=
  if b.u.q.items.isEmpty then .ok none
  else do
    let i ← front b.u.q.items
    .ok (some (b.publish i))

/-- `Reset` (backend.cpp:147-149). -/
def reset (b : Backend K T) : Backend K T := { b with status := .needInit }

end Backend

/-- Calls of a configured backend.  Each `run` comes with the solver results, random numbers and junk memory it meets. -/
inductive BOp (K T : Type) where
  | imu (m : ImuMsg K T)
  | feat (m : FeatMsg K T)
  | run (env : Env K)
  | runTest
  | publishPropagate
  | publishUpdate
  | reset

/-- What a call hands back. -/
inductive BOut (K T : Type) where
  | ret (b : Bool)
  | state (s : Option (Published K T))
  | none

/-- A process with one backend: loader statics, `gravity_w`, backend. -/
structure BProc (K T : Type) where
  statics : LoaderStatics T
  g : Vec3 K
  b : Backend K T

namespace BProc

/-- One call (backend.cpp:8-149).  `GetIMUMessage` and `GetFeaturesMessage` return true whatever the loader says (backend.cpp:8-18). -/
def step (p : BProc K T) : BOp K T → Res (BProc K T × BOut K T)
  | .imu m =>
    let r := p.b.loader.pushImu p.statics m
    .ok (⟨r.statics, p.g, { p.b with loader := r.loader }⟩, .ret true)
  | .feat m =>
    let r := p.b.loader.pushFeatures p.statics m
    .ok (⟨r.statics, p.g, { p.b with loader := r.loader }⟩, .ret true)
  | .run env => do
    let (res, b) ← p.b.runOnce env p.g
    .ok ({ p with b := b }, .ret res)
  | .runTest => .ok ({ p with b := p.b.runOnceTest.2 }, .ret p.b.runOnceTest.1)
  | .publishPropagate => do
    let s ← p.b.publishPropagate
    .ok (p, .state s)
  | .publishUpdate => do
    let s ← p.b.publishUpdate
    .ok (p, .state s)
  | .reset => .ok ({ p with b := p.b.reset }, .none)

/-- A history of calls. -/
def run (p : BProc K T) : List (BOp K T) → Res (BProc K T × List (BOut K T))
  | [] => .ok (p, [])
  | op :: ops => do
    let (p, o) ← p.step op
    let (p, os) ← p.run ops
    .ok (p, o :: os)

end BProc
end Vio
