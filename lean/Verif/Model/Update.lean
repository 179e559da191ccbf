/-
Model of `src/update/multi_view_vision_update.cpp`, `include/update/multi_view_vision_update.hpp` and of `Utility::Inverse`
(`include/utility/math_lib.hpp:128-138`).

Every step returns `Res (Bool × state)`: the C++ return value and the state it leaves, also when it returns false.  The pointers of the updater are assumed to be set
(the backend model handles the unconfigured case).  Logging and the "check cov" loop (lines 317-325) have no effect and are omitted.  The members `Hx_r`, `delta_x`,
`K`, `meas_covariance`, `expand_J` are written before they are read in every call, so they are values passed between the steps.
-/
import Verif.Model.Frames
import Verif.Model.Propagator
import Verif.Model.Triang

set_option linter.unusedSectionVars false

namespace Vio

/-- The environment of a call: decompositions, `std::rand()` stream, conversion of its result to `fp32` (an integer again, by an unspecified rounding), contents of
uninitialised memory. -/
structure Env (K : Type) where
  ext : Ext K
  rnd : Nat → Nat
  key : Nat → Nat
  junk : Nat → Nat → K

/-- What `MultiViewVisionUpdate::Update` works on (multi_view_vision_update.hpp:12-47): propagation queue, window, policy, covariance, selected features (references),
position in the `std::rand()` stream. -/
structure Upd (K T : Type) where
  q : PropQueue K T
  w : Win K T
  policy : MargPolicy
  cov : DMat K
  features : List Nat
  pos : Nat

variable {K T : Type} [Add K] [Sub K] [Mul K] [Neg K] [Div K] [Zero K] [One K] [ScalarFn K]
  [TimeOps T] [TimeCast T K]

/-- `ZERO` (include/utility/typedef.hpp:66). -/
def zeroTol : K := lit (1/10000000000)

/-- `Utility::Inverse` (math_lib.hpp:131-138). -/
def invEig (ext : Ext K) (a : DMat K) : DMat K :=
  let d : Nat → K := fun k => if ScalarFn.lt zeroTol (ext.eigVal a k) then lit 1 / ext.eigVal a k else lit 0
  ⟨a.rows, a.rows, fun i j => sumTo a.rows (fun k => ext.eigVec a i k * d k * ext.eigVec a j k)⟩

namespace Update

/-- `DecideMargPolicy` (multi_view_vision_update.cpp:57-76).  The second newest frame of a window of less than two frames does not exist. -/
def decidePolicy (w : Win K T) : Res MargPolicy :=
  if w.frm.needMarginalize then
    match w.frm.frames.reverse with
    | _ :: subnew :: _ => do
      let key ← w.frm.isKeyFrame w.feat (some subnew)
      .ok (if key then .margOldest else .margSubnew)
    | _ => .ub .outOfRange
  else .ok .noMarg

/-- `ConstructCovariance` (multi_view_vision_update.cpp:80-94): return value and covariance. -/
def constructCov (s : PropQueue K T) (m : FrameMgr K T) : Res (Bool × DMat K) := do
  let item ← front s.items
  let camEx := mul32 (sub32 (m.extrinsics.length + m.frames.length) 1) 6
  let size := imuStateSize + camEx
  let c : DMat K := .zero size size
  if item.imuEx.cols ≠ camEx then .ok (false, c)
  else do
    let c ← c.setBlock 0 0 imuStateSize imuStateSize item.imuCov
    let c ← c.setBlock 0 imuStateSize imuStateSize camEx item.imuEx
    let c ← c.setBlock imuStateSize 0 camEx imuStateSize item.imuEx.transpose
    let c ← c.setBlock imuStateSize imuStateSize camEx camEx s.exCamCov
    .ok (true, c)

/-- Overwrite the newest frame's pose and velocity. -/
def setBack (frames : List (Frame K T)) (st : Motion K) : List (Frame K T) :=
  match frames.getLast? with
  | none => frames
  | some b => frames.dropLast ++ [{ b with p := st.p, v := st.v, q := st.q }]

/-- `UpdateNewestFramePose` (multi_view_vision_update.cpp:98-108). -/
def updateNewest (s : PropQueue K T) (m : FrameMgr K T) : Res (Bool × FrameMgr K T) :=
  if m.frames.isEmpty then .ok (false, m)
  else do
    let item ← front s.items
    .ok (true, { m with frames := setBack m.frames item.st })

/-- The views of one observation (multi_view_vision_update.cpp:127-141). -/
def obsViews (m : FrameMgr K T) (f : Frame K T) : List (Nat × Vec2 K) → Res (List (Triang.View K))
  | [] => .ok []
  | (c, n) :: rest => do
    let e ← idx m.extrinsics c
    let vs ← obsViews m f rest
    .ok (⟨f.q.mul e.q, f.q.rotate e.p + f.p, n⟩ :: vs)

/-- All views of a feature (multi_view_vision_update.cpp:122-142); `i` is the loop index.  The frame pointer is not checked. -/
def featViews (m : FrameMgr K T) (first : Nat) : Nat → List (Obs K) → Res (List (Triang.View K))
  | _, [] => .ok []
  | i, o :: os => do
    let f ← deref (m.getFrame (add32 i first))
    let vs ← obsViews m f o.norms
    let rest ← featViews m first (i + 1) os
    .ok (vs ++ rest)

/-- `TrianglizeMultiFrame` (multi_view_vision_update.cpp:112-151), feature pointer not null. -/
def triangulate (ext : Ext K) (w : Win K T) (r : Nat) : Res (Bool × Win K T) := do
  let f := w.feat.heap r
  let vs ← featViews w.frm f.first 0 f.observes
  let (good, pw) ← Triang.analytic ext (vs.map (·.q)) (vs.map (·.p)) (vs.map (·.n)) f.pw
  .ok (good, { w with feat := w.feat.put r { f with pw := pw, status := if good then .solved else .unsolved } })

/-- `std::map::insert`: ascending keys, an existing key is kept. -/
def mapInsert (k v : Nat) : List (Nat × Nat) → List (Nat × Nat)
  | [] => [(k, v)]
  | e :: rest => if k < e.1 then (k, v) :: e :: rest else if k = e.1 then e :: rest else e :: mapInsert k v rest

/-- The loop over the newest frame's features (multi_view_vision_update.cpp:159-165): window, `goodFeatures`, position in the random stream. -/
def selectLoop (env : Env K) : Win K T → List (Nat × Nat) → Nat → List (Nat × Nat) → Res (Win K T × List (Nat × Nat) × Nat)
  | w, good, pos, [] => .ok (w, good, pos)
  | w, good, pos, e :: rest => do
    let (solved, w') ← triangulate env.ext w e.2
    if solved then selectLoop env w' (mapInsert (env.key (env.rnd pos)) e.2 good) (pos + 1) rest
    else selectLoop env w' good pos rest

/-- `SelectGoodFeatures` (multi_view_vision_update.cpp:156-183): window, selected features, position in the random stream. -/
def selectGood (env : Env K) (maxUsed : Nat) (w : Win K T) (pos : Nat) : Res (Win K T × List Nat × Nat) := do
  let f ← back w.frm.frames
  let (w', good, pos') ← selectLoop env w [] pos f.features
  .ok (w', (good.reverse.map (·.2)).take maxUsed, pos')

/-- A 2 x 3 block as a dynamic matrix. -/
def ofMat23 (a : Mat23 K) : DMat K := ⟨2, 3, fun i j => if i = 0 then a.r0.get j else a.r1.get j⟩

/-- `block<2, 3>(row, col) = b` -/
def setB23 (a : DMat K) (row col : Nat) (b : Mat23 K) : Res (DMat K) := a.setBlock row col 2 3 (ofMat23 b)

/-- Derivative of the projection (multi_view_vision_update.cpp:251-253). -/
def projJac (p : Vec3 K) : Mat23 K :=
  ⟨⟨lit 1 / p.z, 0, -p.x / (p.z * p.z)⟩, ⟨0, lit 1 / p.z, -p.y / (p.z * p.z)⟩⟩

/-- `p_b` (multi_view_vision_update.cpp:244). -/
def bodyPoint (f : Frame K T) (pw : Vec3 K) : Vec3 K := f.q.inverse.toMat.mulVec (pw - f.p)

/-- `p_c` (multi_view_vision_update.cpp:245). -/
def camPoint (f : Frame K T) (e : Extrinsic K) (pw : Vec3 K) : Vec3 K := e.q.inverse.toMat.mulVec (bodyPoint f pw - e.p)

/-- `residual` (multi_view_vision_update.cpp:248). -/
def residual (f : Frame K T) (e : Extrinsic K) (pw : Vec3 K) (n : Vec2 K) : Vec2 K :=
  let c := camPoint f e pw
  n - ⟨c.x / c.z, c.y / c.z⟩

/-- `jacobian_r_p_w` (multi_view_vision_update.cpp:255). -/
def jacPw (f : Frame K T) (e : Extrinsic K) (pw : Vec3 K) : Mat23 K :=
  ((projJac (camPoint f e pw)).mulMat e.q.inverse.toMat).mulMat f.q.inverse.toMat

/-- `jacobian_r_p_wb` (multi_view_vision_update.cpp:261, 267). -/
def jacPwb (f : Frame K T) (e : Extrinsic K) (pw : Vec3 K) : Mat23 K :=
  (projJac (camPoint f e pw)).mulMat ((-e.q.inverse.toMat).mul f.q.inverse.toMat)

/-- `jacobian_r_R_wb` (multi_view_vision_update.cpp:263, 269). -/
def jacRwb (f : Frame K T) (e : Extrinsic K) (pw : Vec3 K) : Mat23 K :=
  ((projJac (camPoint f e pw)).mulMat e.q.inverse.toMat).mulMat (Utility.skew (bodyPoint f pw))

/-- `jacobian_r_p_bc` (multi_view_vision_update.cpp:274). -/
def jacPbc (f : Frame K T) (e : Extrinsic K) (pw : Vec3 K) : Mat23 K :=
  (projJac (camPoint f e pw)).mulMat (-e.q.inverse.toMat)

/-- `jacobian_r_R_bc` (multi_view_vision_update.cpp:276). -/
def jacRbc (f : Frame K T) (e : Extrinsic K) (pw : Vec3 K) : Mat23 K :=
  (projJac (camPoint f e pw)).mulMat (Utility.skew (camPoint f e pw))

/-- The six columns of a frame, within `Hf_Hx_r` (multi_view_vision_update.cpp:259-271): position and rotation columns.  `frameIdx` is computed in `uint32_t`. -/
def poseCols (nExt frameID frontId backId : Nat) : Nat × Nat :=
  if frameID = backId then (3 + indexP, 3 + indexR)
  else
    let col := 3 + imuStateSize + nExt * 6 + sub32 frameID frontId * 6
    (col, col + 3)

/-- One observation (multi_view_vision_update.cpp:235-278) written at row `row` of `Hf_Hx_r`. -/
def measNorm (m : FrameMgr K T) (f : Frame K T) (frameID frontId backId : Nat) (pw : Vec3 K) (row : Nat) (a : DMat K) (c : Nat) (n : Vec2 K) : Res (DMat K) := do
  let e ← idx m.extrinsics c
  if ScalarFn.lt zeroTol (ScalarFn.fabs (camPoint f e pw).z) then do
    let r := residual f e pw n
    let a ← a.setBlock row (a.cols - 1) 2 1 ⟨2, 1, fun i _ => if i = 0 then r.x else r.y⟩
    let a ← setB23 a row 0 (jacPw f e pw)
    let pc := poseCols m.extrinsics.length frameID frontId backId
    let a ← setB23 a row pc.1 (jacPwb f e pw)
    let a ← setB23 a row pc.2 (jacRwb f e pw)
    let a ← setB23 a row (3 + imuStateSize + c * 6) (jacPbc f e pw)
    setB23 a row (3 + imuStateSize + c * 6 + 3) (jacRbc f e pw)
  else .ok a

/-- All observations of one frame (multi_view_vision_update.cpp:234-280): matrix and next row. -/
def measNorms (m : FrameMgr K T) (f : Frame K T) (frameID frontId backId : Nat) (pw : Vec3 K) : Nat → DMat K → List (Nat × Vec2 K) → Res (DMat K × Nat)
  | row, a, [] => .ok (a, row)
  | row, a, (c, n) :: rest => do
    let a ← measNorm m f frameID frontId backId pw row a c n
    measNorms m f frameID frontId backId pw (row + 2) a rest

/-- The loop over the observing frames (multi_view_vision_update.cpp:229-281); `none` when a frame does not exist and the function returns false. -/
def measLoop (m : FrameMgr K T) (ft : Feature K) : Nat → Nat → DMat K → List (Obs K) → Res (Option (DMat K))
  | _, _, a, [] => .ok (some a)
  | i, row, a, o :: os =>
    let frameID := add32 i ft.first
    match m.getFrame frameID with
    | none => .ok none
    | some f => do
      let a0 ← front m.frames
      let b0 ← back m.frames
      let (a, row) ← measNorms m f frameID a0.id b0.id ft.pw row a o.norms
      measLoop m ft (i + 1) row a os

/-- `householderQ().transpose() * M` for the decomposition of `A`. -/
def applyQt (ext : Ext K) (A M : DMat K) : DMat K :=
  ⟨M.rows, M.cols, fun i j => sumTo M.rows (fun k => ext.qrQ A k i * M.e k j)⟩

/-- The left null space projection (multi_view_vision_update.cpp:283-290).  Fewer than three rows make the block size negative. -/
def project (ext : Ext K) (a : DMat K) : Res (DMat K) := do
  let hf ← a.block 0 0 a.rows 3
  let b := applyQt ext hf a
  if b.rows < 3 then .ub .outOfRange else b.block 3 3 (b.rows - 3) (b.cols - 3)

/-- `Hx_cols` (multi_view_vision_update.cpp:191-192), for a window that is not empty. -/
def hxCols (m : FrameMgr K T) : Nat := imuStateSize + m.extrinsics.length * 6 + (m.frames.length * 6 - 6)

/-- `ConstructMeasurementFunction(feature, Hx_r)` (multi_view_vision_update.cpp:222-294); `none` when it returns false. -/
def measFeature (ext : Ext K) (m : FrameMgr K T) (ft : Feature K) : Res (Option (DMat K)) := do
  let a ← measLoop m ft 0 0 (.zero (mul32 ft.observeNum 2) (hxCols m + 4)) ft.observes
  match a with
  | none => .ok none
  | some a => do
    let b ← project ext a
    .ok (some b)

/-- Rows a feature contributes (multi_view_vision_update.cpp:195, 204), in `uint32_t`. -/
def subRows (ft : Feature K) : Nat := sub32 (mul32 ft.observeNum 2) 3

/-- The loop that stacks the features (multi_view_vision_update.cpp:202-207); `none` when the function returns false. -/
def stackLoop (ext : Ext K) (w : Win K T) : Nat → DMat K → List Nat → Res (Option (DMat K))
  | _, a, [] => .ok (some a)
  | rowsCount, a, r :: rs => do
    let ft := w.feat.heap r
    let sub ← measFeature ext w.frm ft
    match sub with
    | none => .ok none
    | some b => do
      let a ← a.setBlock rowsCount 0 (subRows ft) (hxCols w.frm + 1) b
      stackLoop ext w (add32 rowsCount (subRows ft)) a rs

/-- Total rows (multi_view_vision_update.cpp:193-196). -/
def hxRows (w : Win K T) (fs : List Nat) : Nat := fs.foldl (fun n r => add32 n (subRows (w.feat.heap r))) 0

/-- The QR compression (multi_view_vision_update.cpp:209-216). -/
def compress (env : Env K) (a : DMat K) : Res (DMat K) :=
  if a.rows > a.cols then do
    let h ← a.block 0 0 a.rows (a.cols - 1)
    .ok ((applyQt env.ext h a).conservativeResize env.junk (a.cols - 1) a.cols)
  else .ok a

/-- `ConstructMeasurementFunction()` (multi_view_vision_update.cpp:187-218); `none` when it returns false. -/
def measure (env : Env K) (w : Win K T) (fs : List Nat) : Res (Option (DMat K)) := do
  let a ← stackLoop env.ext w 0 (.zero (hxRows w fs) (hxCols w.frm + 1)) fs
  match a with
  | none => .ok none
  | some a => do
    let b ← compress env a
    .ok (some b)

/-- Result of the Kalman step: gain, correction and covariance. -/
structure Kalman (K : Type) where
  gain : DMat K
  dx : DMat K
  cov : DMat K

/-- The Kalman step of `UpdateState` (multi_view_vision_update.cpp:301-326). -/
def kalman (ext : Ext K) (noise : K) (P hxr : DMat K) : Res (Kalman K) := do
  let H ← hxr.block 0 0 hxr.rows (hxr.cols - 1)
  let r ← hxr.block 0 (hxr.cols - 1) hxr.rows 1
  let PHt ← P.mul H.transpose
  let R := noise * noise
  let S ← H.mul PHt
  let S := S.addDiag R
  let gain ← PHt.mul (invEig ext S)
  let dx ← gain.mul r
  let IKH ← gain.neg.mul H
  let IKH := IKH.addDiag 1
  let newCov ← IKH.mul P
  let sum ← newCov.add newCov.transpose
  .ok ⟨gain, dx, .smul (lit (1/2)) sum⟩

/-- `q = q * DeltaQ(theta); q.normalize()` -/
def corrQuat (q : Quat K) (theta : Vec3 K) : Quat K := (q.mul (Utility.deltaQ theta)).normalized

/-- Correction of the extrinsics (multi_view_vision_update.cpp:339-344); `i` is the loop index. -/
def corrExt (dx : DMat K) : Nat → List (Extrinsic K) → Res (List (Extrinsic K))
  | _, [] => .ok []
  | i, e :: es => do
    let dp ← dx.segment3 (imuStateSize + i * 6)
    let dr ← dx.segment3 (imuStateSize + i * 6 + 3)
    let rest ← corrExt dx (i + 1) es
    .ok (⟨corrQuat e.q dr, e.p + dp⟩ :: rest)

/-- Correction of the frames (multi_view_vision_update.cpp:346-359). -/
def corrFrames (dx : DMat K) (backId offset : Nat) (st : Motion K) : Nat → List (Frame K T) → Res (List (Frame K T))
  | _, [] => .ok []
  | i, f :: fs =>
    if f.id = backId then .ok ({ f with p := st.p, v := st.v, q := st.q } :: fs)
    else do
      let dp ← dx.segment3 (offset + i * 6)
      let dr ← dx.segment3 (offset + i * 6 + 3)
      let rest ← corrFrames dx backId offset st (i + 1) fs
      .ok ({ f with p := f.p + dp, q := corrQuat f.q dr } :: rest)

/-- The state correction of `UpdateState` (multi_view_vision_update.cpp:328-359). -/
def correct (dx : DMat K) (s : PropQueue K T) (m : FrameMgr K T) : Res (PropQueue K T × FrameMgr K T) :=
  match s.items with
  | [] => .ub .emptyContainer
  | i0 :: rest => do
    let dp ← dx.segment3 indexP
    let dv ← dx.segment3 indexV
    let dr ← dx.segment3 indexR
    let dba ← dx.segment3 indexBA
    let dbg ← dx.segment3 indexBG
    let st : Motion K := ⟨i0.st.p + dp, i0.st.v + dv, corrQuat i0.st.q dr⟩
    let ex ← corrExt dx 0 m.extrinsics
    let b ← back m.frames
    let fs ← corrFrames dx b.id (imuStateSize + m.extrinsics.length * 6) st 0 m.frames
    .ok ({ s with items := { i0 with st := st } :: rest, biasA := s.biasA + dba, biasG := s.biasG + dbg }, { m with extrinsics := ex, frames := fs })

/-- `expand_J` (multi_view_vision_update.cpp:388-390). -/
def expandJ : DMat K :=
  ((DMat.zero 6 imuStateSize).setBlock3 0 indexP .one).setBlock3 3 indexR .one

/-- `ExpandCameraCovariance` (multi_view_vision_update.cpp:366-400). -/
def expand (junk : Nat → Nat → K) (m : FrameMgr K T) (c : DMat K) : Res (DMat K) := do
  let camEx := (m.extrinsics.length + m.frames.length) * 6
  let size := imuStateSize + camEx
  let c := c.conservativeResize junk size size
  let c ← c.setBlock 0 (size - 6) size 6 (.zero size 6)
  let c ← c.setBlock (size - 6) 0 6 size (.zero 6 size)
  let imuCov ← c.block 0 0 imuStateSize imuStateSize
  let imuEx ← c.block 0 imuStateSize imuStateSize (camEx - 6)
  let c ← c.setBlock (size - 6) 0 6 imuStateSize ((expandJ : DMat K).mulF imuCov)
  let c ← c.setBlock (size - 6) imuStateSize 6 (camEx - 6) ((expandJ : DMat K).mulF imuEx)
  let b ← c.block (size - 6) 0 6 (size - 6)
  let c ← c.setBlock 0 (size - 6) (size - 6) 6 b.transpose
  c.setBlock (size - 6) (size - 6) 6 6 (((expandJ : DMat K).mulF imuCov).mulF (expandJ : DMat K).transpose)

/-- `ReduceCameraCovariance` (multi_view_vision_update.cpp:415-446). -/
def reduce (junk : Nat → Nat → K) (policy : MargPolicy) (m : FrameMgr K T) (c : DMat K) : Res (DMat K) :=
  let exSize := m.extrinsics.length * 6
  let camSize := m.frames.length * 6
  let imuExSize := imuStateSize + exSize
  let fullSize := imuStateSize + (exSize + camSize)
  match policy with
  | .noMarg => .ok c
  | .margNewest => .ok (c.conservativeResize junk (fullSize - 6) (fullSize - 6))
  | .margSubnew => do
    let b ← c.block 0 (fullSize - 6) (fullSize - 12) 6
    let c ← c.setBlock 0 (fullSize - 12) (fullSize - 12) 6 b
    let b ← c.block (fullSize - 6) 0 6 (fullSize - 12)
    let c ← c.setBlock (fullSize - 12) 0 6 (fullSize - 12) b
    let b ← c.block (fullSize - 6) (fullSize - 6) 6 6
    let c ← c.setBlock (fullSize - 12) (fullSize - 12) 6 6 b
    .ok (c.conservativeResize junk (fullSize - 6) (fullSize - 6))
  | .margOldest => do
    let temp ← c.block 0 (imuExSize + 6) imuExSize (camSize - 6)
    let c ← c.setBlock 0 imuExSize imuExSize (camSize - 6) temp
    let c ← c.setBlock imuExSize 0 (camSize - 6) imuExSize temp.transpose
    let temp ← c.block (c.rows - (camSize - 6)) (c.cols - (camSize - 6)) (camSize - 6) (camSize - 6)
    let c ← c.setBlock imuExSize imuExSize (camSize - 6) (camSize - 6) temp
    .ok (c.conservativeResize junk (fullSize - 6) (fullSize - 6))

/-- `UpdateCovariance` (multi_view_vision_update.cpp:404-411), for a covariance of at least 15 columns. -/
def storeCov (s : PropQueue K T) (c : DMat K) : Res (PropQueue K T) :=
  match s.items with
  | [] => .ub .emptyContainer
  | i0 :: rest => do
    let camEx := c.cols - imuStateSize
    let imuCov ← c.block 0 0 imuStateSize imuStateSize
    let imuEx ← c.block 0 imuStateSize imuStateSize camEx
    let ex ← c.block imuStateSize imuStateSize camEx camEx
    .ok { s with items := { i0 with imuCov := imuCov, imuEx := imuEx } :: rest, exCamCov := ex }

/-- The common tail of `Update` (multi_view_vision_update.cpp:26-32, 38-44): expand, reduce, store, repropagate. -/
def finish (env : Env K) (g : Vec3 K) (u : Upd K T) : Res (Bool × Upd K T) := do
  let c ← expand env.junk u.w.frm u.cov
  let c ← reduce env.junk u.policy u.w.frm c
  let s ← storeCov u.q c
  .ok (true, { u with q := s.repropagate g, cov := c })

/-- `UpdateState` (multi_view_vision_update.cpp:298-362). -/
def updateState (env : Env K) (noise : K) (u : Upd K T) (hxr : DMat K) : Res (Upd K T) := do
  let k ← kalman env.ext noise u.cov hxr
  let (s, m) ← correct k.dx u.q u.w.frm
  .ok { u with q := s, w := { u.w with frm := m }, cov := k.cov }

/-- `MultiViewVisionUpdate::Update` (multi_view_vision_update.cpp:14-45).  `g` is the static `gravity_w`. -/
def update (env : Env K) (noise : K) (maxUsed : Nat) (g : Vec3 K) (u : Upd K T) (ts thr : T) : Res (Bool × Upd K T) :=
  let (s, found) := u.q.resetOrigin ts thr
  let u := { u with q := s }
  if !found then .ok (false, u)
  else do
    let policy ← decidePolicy u.w
    let u := { u with policy := policy }
    let (good, c) ← constructCov u.q u.w.frm
    let u := { u with cov := c }
    if !good then .ok (false, u)
    else do
      let (good, m) ← updateNewest u.q u.w.frm
      let u := { u with w := { u.w with frm := m } }
      if !good then .ok (false, u)
      else do
        let (w, fs, pos) ← selectGood env maxUsed u.w u.pos
        let u := { u with w := w, features := fs, pos := pos }
        if fs.isEmpty then finish env g u
        else do
          let h ← measure env u.w fs
          match h with
          | none => .ok (false, u)
          | some hxr => do
            let u ← updateState env noise u hxr
            finish env g u

end Update
end Vio
