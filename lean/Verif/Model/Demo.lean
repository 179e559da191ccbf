/-
Model of the demo program `/repo/apps/test_eskf_vio_backend.cpp` (line numbers below refer to it): it configures a backend, pushes all messages read from text files, calls `RunOnce` once per
IMU line and saves the published states.

Text and file systems are those of Model/Config.  A local variable of a basic type or an Eigen vector or quaternion has no value until it is read; `none` stands for that.  Printing is left out.
Rows are handed to the output file as values; how they are printed is not modelled.
-/
import Verif.Model.Backend

set_option linter.unusedSectionVars false

namespace Vio

/-- Library behaviour the program depends on. -/
structure DemoLib (K T : Type) where
  conf : ConfLib K
  /-- `std::num_get` for `double`, see `ConfLib.numGet` -/
  timeGet : List Char → T × Bool × List Char

namespace Demo

/-- `stream >> x` for a variable that may have no value. -/
def readVar {α : Type} (get : List Char → α × Bool × List Char) (s : SStream) (old : Option α) : Option α × SStream :=
  if !s.good then (old, s)
  else
    let d := s.rest.dropWhile isSpace
    if d.isEmpty then (old, ⟨[], false⟩)
    else
      let r := get d
      (some r.1, ⟨r.2.2, r.2.1 && !r.2.2.isEmpty⟩)

/-- `stream >> x >> y >> ...`. -/
def readVars {α : Type} (get : List Char → α × Bool × List Char) : SStream → List (Option α) → List (Option α)
  | _, [] => []
  | s, x :: xs => (readVar get s x).1 :: readVars get (readVar get s x).2 xs

/-- The value of a variable. -/
def value {α : Type} : Option α → Res α
  | some a => .ok a
  | none => .ub .uninitialised

variable {K T : Type} [Add K] [Sub K] [Mul K] [Neg K] [Div K] [Zero K] [One K] [ScalarFn K]
  [TimeOps T] [TimeCast T K]

/-- The variables of a line: the time and the scalars behind it, in the order in which they are read. -/
structure Vars (K T : Type) where
  ts : Option T
  v : List (Option K)

/-- Reading a line into the variables (lines 33-35, 92-93). -/
def Vars.read (lib : DemoLib K T) (x : Vars K T) (line : List Char) : Vars K T :=
  let r := readVar lib.timeGet ⟨line, true⟩ x.ts
  ⟨r.1, readVars lib.conf.numGet r.2 x.v⟩

/-- Scalar number `i`. -/
def scalar (v : List (Option K)) (i : Nat) : Res K := value (v[i]?).join

/-- Three scalars from number `i` on. -/
def vec3 (v : List (Option K)) (i : Nat) : Res (Vec3 K) := do
  let x ← scalar v i
  let y ← scalar v (i + 1)
  let z ← scalar v (i + 2)
  .ok ⟨x, y, z⟩

/-- Four scalars from number `i` on. -/
def quat (v : List (Option K)) (i : Nat) : Res (Quat K) := do
  let w ← scalar v i
  let u ← vec3 v (i + 1)
  .ok ⟨w, u.x, u.y, u.z⟩

/-- The message of an IMU line (line 37): the scalars are attitude, position, rate and force (lines 34-35). -/
def imuMsg (x : Vars K T) : Res (ImuMsg K T) := do
  let gyro ← vec3 x.v 7
  let accel ← vec3 x.v 10
  let ts ← value x.ts
  .ok ⟨gyro, accel, ts⟩

/-- The loop of `LoadIMUData` (lines 32-43): backend and `cnt`.  The time compared with the limit is the one `GetIMUMessage` has stored in the message. -/
def loadImu (lib : DemoLib K T) (limit : T) : BProc K T → Vars K T → Nat → List (List Char) → Res (BProc K T × Nat)
  | p, _, cnt, [] => .ok (p, cnt)
  | p, x, cnt, l :: ls =>
    if l.isEmpty then .ok (p, cnt)
    else do
      let x := x.read lib l
      let m ← imuMsg x
      let ts := (p.b.loader.pushImu p.statics m).msg.ts
      let (p, _) ← p.step (.imu m)
      if TimeOps.lt limit ts then .ok (p, add32 cnt 1) else loadImu lib limit p x (add32 cnt 1) ls

/-- The loop over the points (lines 62-67); the variables are `pos`. -/
def loadPoints (lib : DemoLib K T) : List (Option K) → List (List Char) → Res (List (Vec3 K))
  | _, [] => .ok []
  | v, l :: ls =>
    if l.isEmpty then .ok []
    else do
      let v := readVars lib.conf.numGet ⟨l, true⟩ v
      let p ← vec3 v 0
      let ps ← loadPoints lib v ls
      .ok (p :: ps)

/-- `q_bc0` and `q_bc1` (lines 85-86). -/
def qbc : Quat K := ⟨lit (1/2), lit (1/2), lit (-1/2), lit (-1/2)⟩

/-- `p_bc0` (line 83). -/
def pbc0 : Vec3 K := ⟨lit (5/100), lit (4/100), lit (3/100)⟩

/-- `p_bc1` (line 84). -/
def pbc1 : Vec3 K := ⟨lit (5/100), lit (-14/100), lit (3/100)⟩

/-- Projection of a point (lines 107-108, 111-112). -/
def project (q : Quat K) (p x : Vec3 K) : Vec2 K :=
  let c := q.inverse.rotate (x - p)
  ⟨c.x / c.z, c.y / c.z⟩

/-- The body pose that belongs to a pose of camera 0 (lines 97-98). -/
def bodyPose (q : Quat K) (p : Vec3 K) : Quat K × Vec3 K :=
  let qb := q.mul qbc.inverse
  (qb, -(qb.rotate pbc0) + p)

/-- The message of a camera line (lines 97-131): the scalars are attitude and position of camera 0 (line 93). -/
def featMsg (points : List (Vec3 K)) (x : Vars K T) : Res (FeatMsg K T) := do
  let q0 ← quat x.v 0
  let p0 ← vec3 x.v 4
  let ts ← value x.ts
  let b := bodyPose q0 p0
  let q1 := b.1.mul qbc
  let p1 := b.1.rotate pbc1 + b.2
  .ok (.make (List.range points.length) (points.map (fun y => ⟨[(0, project q0 p0 y), (1, project q1 p1 y)]⟩)) ts)

/-- The loop over the camera poses (lines 89-137). -/
def loadCam (lib : DemoLib K T) (limit : T) (points : List (Vec3 K)) : BProc K T → Vars K T → List (List Char) → Res (BProc K T)
  | p, _, [] => .ok p
  | p, x, l :: ls =>
    if l.isEmpty then .ok p
    else do
      let x := x.read lib l
      let m ← featMsg points x
      let ts := (p.b.loader.pushFeatures p.statics m).msg.ts
      let (p, _) ← p.step (.feat m)
      if TimeOps.lt limit ts then .ok p else loadCam lib limit points p x ls

/-- `LoadIMUData` (lines 18-46). -/
def loadIMUData (lib : DemoLib K T) (limit : T) (fs : String → Option (List Char)) (sim : String) (p : BProc K T) : Res (BProc K T × Nat) :=
  match fs (sim ++ "imu_pose_noise.txt") with
  | none => .ok (p, 0)
  | some cs => loadImu lib limit p ⟨none, List.replicate 13 none⟩ 0 (getLines cs)

/-- `LoadFeaturesData` (lines 49-139). -/
def loadFeaturesData (lib : DemoLib K T) (limit : T) (fs : String → Option (List Char)) (sim : String) (p : BProc K T) : Res (BProc K T) :=
  match fs (sim ++ "all_points.txt") with
  | none => .ok p
  | some cs => do
    let points ← loadPoints lib (List.replicate 3 none) (getLines cs)
    match fs (sim ++ "cam_pose.txt") with
    | none => .ok p
    | some cs => loadCam lib limit points p ⟨none, List.replicate 7 none⟩ (getLines cs)

/-- The vectors of results (lines 186-191). -/
structure Saved (K T : Type) where
  ts : List T
  q : List (Quat K)
  p : List (Vec3 K)
  v : List (Vec3 K)
  ba : List (Vec3 K)
  bg : List (Vec3 K)

/-- No results. -/
def Saved.empty : Saved K T := ⟨[], [], [], [], [], []⟩

/-- Lines 214-219. -/
def Saved.add (s : Saved K T) (x : Published K T) : Saved K T :=
  ⟨s.ts ++ [x.ts], s.q ++ [x.st.q], s.p ++ [x.st.p], s.v ++ [x.st.v], s.ba ++ [x.biasA], s.bg ++ [x.biasG]⟩

/-- `lastTimeStamp > timeStamp` (line 209); `none` is the initial NaN. -/
def wentBack (last : Option T) (ts : T) : Bool := last.any (fun t => TimeOps.lt ts t)

/-- The main loop (lines 195-223): `n` passes left, pass number `i`. -/
def mainLoop (envs : Nat → Env K) : Nat → Nat → BProc K T → Option T → Saved K T → Res (BProc K T × Saved K T)
  | 0, _, p, _, s => .ok (p, s)
  | n + 1, i, p, last, s => do
    let (p, _) ← p.step (.run (envs i))
    let r ← p.b.publishPropagate
    match r with
    | none => mainLoop envs n (i + 1) p last s
    | some x =>
      if ScalarFn.isNaN x.st.p.x then .ok (p, s)
      else if wentBack last x.ts then .ok (p, s)
      else mainLoop envs n (i + 1) p (some x.ts) (s.add x)

/-- A row of the output file. -/
abbrev Row (K T : Type) := T × Quat K × Vec3 K × Vec3 K × Vec3 K × Vec3 K

/-- The loop of `SavePose` (lines 154-162) from index `i` on. -/
def rows (s : Saved K T) : Nat → Nat → Res (List (Row K T))
  | 0, _ => .ok []
  | n + 1, i => do
    let t ← idx s.ts i
    let q ← idx s.q i
    let p ← idx s.p i
    let v ← idx s.v i
    let ba ← idx s.ba i
    let bg ← idx s.bg i
    let rest ← rows s n (i + 1)
    .ok ((t, q, p, v, ba, bg) :: rest)

/-- `SavePose` (lines 141-164): `none` when the file cannot be opened. -/
def savePose (canOpen : Bool) (s : Saved K T) : Res (Option (List (Row K T))) :=
  if canOpen then do
    let r ← rows s s.ts.length 0
    .ok (some r)
  else .ok none

/-- The paths (lines 12-13, 169-172). -/
def paths (argv : List String) : String × String :=
  match argv with
  | [_, sim, conf] => (sim, conf)
  | _ => ("/home/horizon_msi_wsl2/code_space/VIO_Stereo_MSCKF/simulate/longtime_scenes/", "/home/horizon_msi_wsl2/code_space/VIO_Stereo_MSCKF/eskf_vio_backend/config/")

/-- The process before `main`: `gravity_w` is 9.8 (src/propagate/imu_state.cpp:7); `st` is the uninitialised `initState`. -/
def start (st : Motion K) : BProc K T := ⟨{}, ⟨lit 0, lit 0, lit (98/10)⟩, Backend.init st⟩

/-- What `main` does after the configuration (lines 182-226), with the limit of line 15. -/
def work (lib : DemoLib K T) (fs : String → Option (List Char)) (sim : String) (envs : Nat → Env K) (canOpen : Bool) (p : BProc K T) : Res (BProc K T × Option (List (Row K T))) := do
  let (p, cnt) ← loadIMUData lib (TimeOps.tlit 100) fs sim p
  let p ← loadFeaturesData lib (TimeOps.tlit 100) fs sim p
  let (p, s) ← mainLoop envs cnt 0 p none .empty
  let r ← savePose canOpen s
  .ok (p, r)

/-- `main` (lines 167-227); the result of `ConfigParams` is ignored (line 181).  `none` when the bound on the number of camera files is exhausted. -/
def main (lib : DemoLib K T) (fs : String → Option (List Char)) (argv : List String) (fuel : Nat) (envs : Nat → Env K) (canOpen : Bool) (st : Motion K) :
    Res (Option (BProc K T × Option (List (Row K T)))) := do
  let p : BProc K T := start st
  let c ← Backend.configParams lib.conf fs (paths argv).2 fuel .init p.g p.b
  match c with
  | none => .ok none
  | some (_, b, g, _) => do
    let r ← work lib fs (paths argv).1 envs canOpen { p with b := b, g := g }
    .ok (some r)

end Demo
end Vio
