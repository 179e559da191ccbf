/-
Model of `src/geometry/perspective_n_point.cpp`, `include/geometry/perspective_n_point.hpp`.

`EstimatePoseP3P` is a stub in the code (lines 73-83).  `std::rand()` is a stream `rnd` read from a position on.  A loop that need not end has a fuel argument; running out of
fuel is the outcome `none`.
-/
import Verif.Model.Triang

set_option linter.unusedSectionVars false

namespace Vio

/-- Public parameters of `PnPSolver` (perspective_n_point.hpp:12-20). -/
structure PnpParam (K : Type) where
  maxIter : Nat
  maxNormDx : K
  inlierThres : K
  ransacIter : Nat
  inlierRate : K

/-- A camera pose `q_wc`, `p_wc`. -/
@[ext] structure Pose (K : Type) where
  q : Quat K
  p : Vec3 K
  deriving DecidableEq

variable {K : Type} [Add K] [Sub K] [Mul K] [Neg K] [Div K] [Zero K] [One K] [ScalarFn K]

/-- Default parameters (perspective_n_point.hpp:12-20). -/
def PnpParam.default : PnpParam K :=
  { maxIter := 10, maxNormDx := lit (1/1000000), inlierThres := lit (1/1000), ransacIter := 20, inlierRate := lit (9/10) }

namespace Vec6
/-- Eigen `norm` -/
def norm (d : Vec6 K) : K :=
  ScalarFn.sqrt (d.p.x * d.p.x + d.p.y * d.p.y + d.p.z * d.p.z + d.r.x * d.r.x + d.r.y * d.r.y + d.r.z * d.r.z)
end Vec6

namespace Pnp

/-- Point in the camera frame (perspective_n_point.cpp:32, 125, 157, 190). -/
def toCam (s : Pose K) (x : Vec3 K) : Vec3 K := s.q.inverse.rotate (x - s.p)

/-- Residual (perspective_n_point.cpp:39-40, 126, 158, 197-198). -/
def res (s : Pose K) (x : Vec3 K) (n : Vec2 K) : Vec2 K :=
  let pc := toCam s x
  (⟨pc.x / pc.z, pc.y / pc.z⟩ : Vec2 K) - n

/-- `jacobian_2d_3d` (perspective_n_point.cpp:36-43). -/
def jac23 (pc : Vec3 K) : Mat23 K :=
  let invDep := lit 1 / pc.z
  let invDep2 := invDep * invDep
  ⟨⟨invDep, 0, -pc.x * invDep2⟩, ⟨0, invDep, -pc.y * invDep2⟩⟩

/-- Position part of the Jacobian (perspective_n_point.cpp:44). -/
def jacP (s : Pose K) (x : Vec3 K) : Mat23 K := (jac23 (toCam s x)).mulMat (-s.q.inverse.toMat)

/-- Attitude part of the Jacobian (perspective_n_point.cpp:45). -/
def jacR (s : Pose K) (x : Vec3 K) : Mat23 K := (jac23 (toCam s x)).mulMat (Utility.skew (toCam s x))

/-- `Huber` (perspective_n_point.hpp:56-63). -/
def huber (p x : K) : K :=
  if ScalarFn.lt p x then (lit 2 * ScalarFn.sqrt x * p - p * p) / x else lit 1

/-- `Cauchy` (perspective_n_point.hpp:66-74). -/
def cauchy (p x : K) : K :=
  let p2 := p * p
  if ScalarFn.lt p x then p2 * ScalarFn.log (lit 1 / p2 + lit 1) / x else lit 1

/-- One point's contribution to the normal equation (perspective_n_point.cpp:32-48); with `kernel` also the weight (190-209). -/
def addPoint (kernel : Bool) (s : Pose K) (hb : Mat6 K × Vec6 K) (x : Vec3 K) (n : Vec2 K) : Mat6 K × Vec6 K :=
  if ScalarFn.lt (ScalarFn.fabs (toCam s x).z) (lit (1/1000000)) then hb
  else
    let j1 := jacP s x
    let j2 := jacR s x
    let r := res s x n
    if kernel then
      let k := cauchy (lit 1) r.norm
      let mk (m : Mat3 K) : Mat3 K := ⟨⟨m.r0.x * k, m.r0.y * k, m.r0.z * k⟩, ⟨m.r1.x * k, m.r1.y * k, m.r1.z * k⟩, ⟨m.r2.x * k, m.r2.y * k, m.r2.z * k⟩⟩
      let vk (v : Vec3 K) : Vec3 K := ⟨v.x * k, v.y * k, v.z * k⟩
      (⟨hb.1.pp + mk (j1.tmul j1), hb.1.pr + mk (j1.tmul j2), hb.1.rp + mk (j2.tmul j1), hb.1.rr + mk (j2.tmul j2)⟩,
       ⟨hb.2.p + vk (j1.neg.tmulVec r), hb.2.r + vk (j2.neg.tmulVec r)⟩)
    else
      (⟨hb.1.pp + j1.tmul j1, hb.1.pr + j1.tmul j2, hb.1.rp + j2.tmul j1, hb.1.rr + j2.tmul j2⟩,
       ⟨hb.2.p + j1.neg.tmulVec r, hb.2.r + j2.neg.tmulVec r⟩)

/-- The normal equation (perspective_n_point.cpp:26-49, 184-210). -/
def normalEq (kernel : Bool) (pts : List (Vec3 K × Vec2 K)) (s : Pose K) : Mat6 K × Vec6 K :=
  pts.foldl (fun hb x => addPoint kernel s hb x.1 x.2) (⟨0, 0, 0, 0⟩, ⟨0, 0⟩)

/-- The pose update (perspective_n_point.cpp:59-60, 220-221). -/
def apply (s : Pose K) (dx : Vec6 K) : Pose K := ⟨(s.q.mul (Utility.deltaQ dx.r)).normalized, s.p + dx.p⟩

/-- The iteration (perspective_n_point.cpp:25-68, 183-229); the number is `iter`. -/
def loop (ext : Ext K) (prm : PnpParam K) (kernel : Bool) (pts : List (Vec3 K × Vec2 K)) : Nat → Pose K → Bool × Pose K
  | 0, s => (true, s)
  | n + 1, s =>
    let hb := normalEq kernel pts s
    let dx := ext.ldlt6 hb.1 hb.2
    if ScalarFn.isNaN dx.norm then (false, s)
    else
      let s' := apply s dx
      if ScalarFn.lt dx.norm prm.maxNormDx then (true, s') else loop ext prm kernel pts n s'

/-- `EstimatePose` (perspective_n_point.cpp:10-69) and, with `kernel`, `EstimatePoseKernel` (168-230): the return value and the pose. -/
def estimate (ext : Ext K) (prm : PnpParam K) (kernel : Bool) (x3 : List (Vec3 K)) (x2 : List (Vec2 K)) (s : Pose K) : Bool × Pose K :=
  if x3.length ≠ x2.length ∨ x3 = [] then (false, s) else loop ext prm kernel (x3.zip x2) prm.maxIter s

/-- Insertion into `std::set<uint32_t>` (a strictly increasing list). -/
def setInsert (i : Nat) : List Nat → List Nat
  | [] => [i]
  | j :: l => if i < j then i :: j :: l else if i = j then j :: l else j :: setInsert i l

/-- Drawing three different indices (perspective_n_point.cpp:111-113): the set and the new position in the random stream. -/
def draw (rnd : Nat → Nat) (n : Nat) : Nat → Nat → List Nat → Option (List Nat × Nat)
  | 0, _, _ => none
  | fuel + 1, pos, set =>
    if set.length < 3 then draw rnd n fuel (pos + 1) (setInsert (rnd pos % n) set) else some (set, pos)

/-- The chosen points (perspective_n_point.cpp:114-117). -/
def pick {α : Type} (l : List α) : List Nat → Res (List α)
  | [] => .ok []
  | i :: is => do
    let a ← idx l i
    let rest ← pick l is
    .ok (a :: rest)

/-- Is the point an inlier of the pose (perspective_n_point.cpp:125-127). -/
def isIn (prm : PnpParam K) (s : Pose K) (x : Vec3 K × Vec2 K) : Bool := ScalarFn.lt (res s x.1 x.2).sqNorm prm.inlierThres

/-- The score (perspective_n_point.cpp:123-130). -/
def score (prm : PnpParam K) (pts : List (Vec3 K × Vec2 K)) (s : Pose K) : Nat := (pts.filter (isIn prm s)).length

/-- What a RANSAC run leaves: the pose handed out, and the tried poses with their scores, newest first (the latter is not in the code). -/
structure Ransac (K : Type) where
  pose : Pose K
  tried : List (Pose K × Nat)

/-- The RANSAC loop (perspective_n_point.cpp:106-142): `iter`, random position, best pose, best score, pose so far, poses tried. -/
def ransacLoop (ext : Ext K) (prm : PnpParam K) (rnd : Nat → Nat) (fuel : Nat) (x3 : List (Vec3 K)) (x2 : List (Vec2 K)) :
    Nat → Nat → Pose K → Nat → Ransac K → Option (Res (Ransac K))
  | 0, _, _, _, r => some (.ok r)
  | iter + 1, pos, best, bestScore, r =>
    match draw rnd x3.length fuel pos [] with
    | none => none
    | some (set, pos') =>
      match pick x3 set, pick x2 set with
      | .ok s3, .ok s2 =>
        let s := (estimate ext prm false s3 s2 best).2
        let sc := score prm (x3.zip x2) s
        let r' : Ransac K := ⟨s, (s, sc) :: r.tried⟩
        let better := bestScore < sc
        if ScalarFn.lt prm.inlierRate (lit sc / lit x3.length) then some (.ok r')
        else ransacLoop ext prm rnd fuel x3 x2 iter pos' (if better then s else best) (if better then sc else bestScore) r'
      | .ub u, _ => some (.ub u)
      | _, .ub u => some (.ub u)

/-- `EstimatePoseRANSAC` (perspective_n_point.cpp:87-144). -/
def ransac (ext : Ext K) (prm : PnpParam K) (rnd : Nat → Nat) (fuel : Nat) (x3 : List (Vec3 K)) (x2 : List (Vec2 K)) (s : Pose K) :
    Option (Res (Bool × Ransac K)) :=
  if x3.length ≠ x2.length ∨ x3 = [] then some (.ok (false, ⟨s, []⟩))
  else
    match ransacLoop ext prm rnd fuel x3 x2 prm.ransacIter 0 s 0 ⟨s, []⟩ with
    | none => none
    | some (.ub u) => some (.ub u)
    | some (.ok r) => some (.ok (true, r))

/-- `isInlier.resize(n, true)`: keeps what is there (perspective_n_point.cpp:155). -/
def resizeTrue (l : List Bool) (n : Nat) : List Bool := l.take n ++ List.replicate (n - l.length) true

/-- The inlier flags (perspective_n_point.cpp:155-162). -/
def flags (prm : PnpParam K) (pts : List (Vec3 K × Vec2 K)) (s : Pose K) (old : List Bool) : List Bool :=
  List.zipWith (fun (x : Vec3 K × Vec2 K) (b : Bool) => if ScalarFn.le prm.inlierThres (res s x.1 x.2).sqNorm then false else b) pts (resizeTrue old pts.length)

/-- `EstimatePoseRANSAC` with inlier output (perspective_n_point.cpp:149-164). -/
def ransacFlags (ext : Ext K) (prm : PnpParam K) (rnd : Nat → Nat) (fuel : Nat) (x3 : List (Vec3 K)) (x2 : List (Vec2 K)) (s : Pose K) (old : List Bool) :
    Option (Res (Bool × Ransac K × List Bool)) :=
  match ransac ext prm rnd fuel x3 x2 s with
  | none => none
  | some (.ub u) => some (.ub u)
  | some (.ok (false, r)) => some (.ok (false, r, old))
  | some (.ok (true, r)) => some (.ok (true, r, flags prm (x3.zip x2) r.pose old))

end Pnp
end Vio
