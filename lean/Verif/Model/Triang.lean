/-
Model of `src/geometry/trianglation.cpp`, `include/geometry/trianglation.hpp`.

Comparisons of a `Scalar` with a `double` literal are modelled as comparisons in the scalar type.  The member `analyticTemp.A` is overwritten completely by every
call and is not kept.
-/
import Verif.Model.Ext

set_option linter.unusedSectionVars false

namespace Vio

/-- `Matrix23` (include/utility/typedef.hpp:32). -/
@[ext] structure Mat23 (K : Type) where
  r0 : Vec3 K
  r1 : Vec3 K

variable {K : Type} [Add K] [Sub K] [Mul K] [Neg K] [Div K] [Zero K] [One K] [ScalarFn K]

namespace Mat23
/-- `A.transpose() * B` -/
def tmul (a b : Mat23 K) : Mat3 K :=
  let row (x y : K) : Vec3 K := ⟨x * b.r0.x + y * b.r1.x, x * b.r0.y + y * b.r1.y, x * b.r0.z + y * b.r1.z⟩
  ⟨row a.r0.x a.r1.x, row a.r0.y a.r1.y, row a.r0.z a.r1.z⟩
/-- `A.transpose() * r` -/
def tmulVec (a : Mat23 K) (r : Vec2 K) : Vec3 K :=
  ⟨a.r0.x * r.x + a.r1.x * r.y, a.r0.y * r.x + a.r1.y * r.y, a.r0.z * r.x + a.r1.z * r.y⟩
/-- scalar multiple -/
def smul (k : K) (a : Mat23 K) : Mat23 K := ⟨.smul k a.r0, .smul k a.r1⟩
/-- negation -/
def neg (a : Mat23 K) : Mat23 K := ⟨-a.r0, -a.r1⟩
/-- `A * M` -/
def mulMat (a : Mat23 K) (m : Mat3 K) : Mat23 K := ⟨m.transpose.mulVec a.r0, m.transpose.mulVec a.r1⟩
/-- `A * v` -/
def mulVec (a : Mat23 K) (v : Vec3 K) : Vec2 K := ⟨a.r0.dot v, a.r1.dot v⟩
end Mat23

namespace Triang

/-- The two rows of the linear system for one view (trianglation.cpp:31-33), as a function of row 0 or 1 and column. -/
def viewRow (q : Quat K) (p : Vec3 K) (n : Vec2 K) (r : Nat) (c : Nat) : K :=
  let m := q.inverse.toMat
  let t := -(q.inverse.rotate p)
  let pose : Nat → Nat → K := fun i j => if j < 3 then m.get i j else t.get i
  if r = 0 then n.x * pose 2 c - pose 0 c else n.y * pose 2 c - pose 1 c

/-- The matrix `A` (trianglation.cpp:29-34). Reading beyond the pose or observation list is undefined. -/
def systemRows : List (Quat K) → List (Vec3 K) → List (Vec2 K) → Res (List (Nat → Nat → K))
  | [], _, _ => .ok []
  | _ :: _, [], _ => .ub .outOfRange
  | _ :: _, _ :: _, [] => .ub .outOfRange
  | q :: qs, p :: ps, n :: ns => do
    let rest ← systemRows qs ps ns
    .ok (viewRow q p n :: rest)

/-- The blocks of two rows as one matrix. -/
def stack2 (l : List (Nat → Nat → K)) : DMat K :=
  ⟨2 * l.length, 4, fun i j => match l[i / 2]? with | some f => f (i % 2) j | none => 0⟩

/-- The depth check (trianglation.cpp:42-47): true if no view sees the point at negative depth. -/
def inFront (pw : Vec3 K) : List (Quat K) → List (Vec3 K) → Res Bool
  | [], _ => .ok true
  | _ :: _, [] => .ub .outOfRange
  | q :: qs, p :: ps => if ScalarFn.lt (q.inverse.rotate (pw - p)).z 0 then .ok false else inFront pw qs ps

/-- `TrianglateAnalytic` (trianglation.cpp:21-49): the return value and the point. -/
def analytic (ext : Ext K) (qs : List (Quat K)) (ps : List (Vec3 K)) (ns : List (Vec2 K)) (pw : Vec3 K) : Res (Bool × Vec3 K) :=
  if qs.length < 2 then .ok (false, pw)
  else do
    let rows ← systemRows qs ps ns
    let x := ext.svdLast (stack2 rows)
    if ScalarFn.lt (ScalarFn.fabs (x 3)) (lit (1/1000000)) then .ok (false, pw)
    else
      let pw' : Vec3 K := ⟨x 0 / x 3, x 1 / x 3, x 2 / x 3⟩
      let good ← inFront pw' qs ps
      .ok (good, pw')

/-- `ComputeResidual` (trianglation.cpp:179-186). -/
def residual (q : Quat K) (p : Vec3 K) (pw : Vec3 K) (n : Vec2 K) : K :=
  let pc := q.rotate pw + p
  ((⟨pc.x / pc.z, pc.y / pc.z⟩ : Vec2 K) - n).sqNorm

/-- A view with inverted pose: `q_cw[i]`, `p_cw[i]`, `norm[i]` (trianglation.cpp:61-62, 75-77). -/
structure View (K : Type) where
  q : Quat K
  p : Vec3 K
  n : Vec2 K

/-- The views (trianglation.cpp:74-78). -/
def views : List (Quat K) → List (Vec3 K) → List (Vec2 K) → Res (List (View K))
  | [], _, _ => .ok []
  | _ :: _, [], _ => .ub .outOfRange
  | _ :: _, _ :: _, [] => .ub .outOfRange
  | q :: qs, p :: ps, n :: ns => do
    let rest ← views qs ps ns
    .ok (⟨q.inverse, q.inverse.rotate (-p), n⟩ :: rest)

/-- Total cost of a point (trianglation.cpp:73-78, 112-115). -/
def cost (vs : List (View K)) (pw : Vec3 K) : K := vs.foldl (fun c v => c + residual v.q v.p pw v.n) 0

/-- Point to inverse-depth parameters (trianglation.cpp:57). -/
def toParam (pw : Vec3 K) : Vec3 K := ⟨pw.x / pw.z, pw.y / pw.z, lit 1 / pw.z⟩

/-- Parameters to point (trianglation.cpp:108-110, 123, 132). -/
def toPoint (x : Vec3 K) : Vec3 K := ⟨x.x / x.z, x.y / x.z, lit 1 / x.z⟩

/-- `h` of `CumputeJacobian` (trianglation.cpp:151). -/
def hvec (q : Quat K) (t : Vec3 K) (x : Vec3 K) : Vec3 K := q.toMat.mulVec ⟨x.x, x.y, lit 1⟩ + .smul x.z t

/-- The Jacobian (trianglation.cpp:157-162). -/
def jacobian (q : Quat K) (t : Vec3 K) (x : Vec3 K) : Mat23 K :=
  let h := hvec q t x
  let m := q.toMat
  let w0 : Vec3 K := ⟨m.r0.x, m.r0.y, t.x⟩
  let w1 : Vec3 K := ⟨m.r1.x, m.r1.y, t.y⟩
  let w2 : Vec3 K := ⟨m.r2.x, m.r2.y, t.z⟩
  ⟨.smul (lit 1 / h.z) w0 - .smul (h.x / (h.z * h.z)) w2, .smul (lit 1 / h.z) w1 - .smul (h.y / (h.z * h.z)) w2⟩

/-- The residual vector (trianglation.cpp:165-166). -/
def jresidual (q : Quat K) (t : Vec3 K) (x : Vec3 K) (z : Vec2 K) : Vec2 K :=
  let h := hvec q t x
  (⟨h.x / h.z, h.y / h.z⟩ : Vec2 K) - z

/-- The weight (trianglation.cpp:169-174). -/
def weight (r : Vec2 K) : K :=
  let e := r.norm
  if ScalarFn.le e (lit (1/100)) then lit 1 else ScalarFn.sqrt (lit 2 * lit (1/100) / e)

/-- Accumulation of the normal equation (trianglation.cpp:82-100). -/
def normalEq (vs : List (View K)) (x : Vec3 K) : Mat3 K × Vec3 K :=
  vs.foldl (fun ab v =>
    let j := jacobian v.q v.p x
    let r := jresidual v.q v.p x v.n
    let w := weight r
    if ScalarFn.le w (lit 1) && ScalarFn.le (lit 1) w then (ab.1 + j.tmul j, ab.2 + j.tmulVec r)
    else
      let jw := j.smul (w * w)
      (ab.1 + jw.tmul j, ab.2 + jw.tmulVec r)) (0, 0)

/-- State of the iteration: `solution`, `lambda`, `total_cost`, `delta_norm`, `is_cost_reduced`; `outer` counts
passes of the outer loop and `lambdas` lists the damping of every solver call, newest first (neither is in the code). -/
structure LM (K : Type) where
  sol : Vec3 K
  lambda : K
  cost : K
  deltaNorm : K
  reduced : Bool
  outer : Nat
  lambdas : List K

/-- One pass of the inner loop (trianglation.cpp:105-125). -/
def innerBody (ext : Ext K) (vs : List (View K)) (ab : Mat3 K × Vec3 K) (s : LM K) : LM K :=
  let delta := ext.ldlt3 (ab.1 + Mat3.smul s.lambda .one) ab.2
  let newSol := s.sol - delta
  let newCost := Triang.cost vs (toPoint newSol)
  if ScalarFn.lt newCost s.cost then
    { sol := newSol, lambda := if ScalarFn.lt (lit (1/10000000000)) (s.lambda / lit 10) then s.lambda / lit 10 else lit (1/10000000000)
      cost := newCost, deltaNorm := delta.norm, reduced := true, outer := s.outer, lambdas := s.lambda :: s.lambdas }
  else
    { sol := s.sol, lambda := if ScalarFn.lt (s.lambda * lit 10) (lit 1000000000000) then s.lambda * lit 10 else lit 1000000000000
      cost := s.cost, deltaNorm := delta.norm, reduced := false, outer := s.outer, lambdas := s.lambda :: s.lambdas }

/-- The inner loop (trianglation.cpp:104-126); the number is the remaining repetitions `INNER_LOOP_MAX_ITER - inner_loop_cntr`. -/
def innerLoop (ext : Ext K) (vs : List (View K)) (ab : Mat3 K × Vec3 K) : Nat → LM K → LM K
  | 0, s => innerBody ext vs ab s
  | n + 1, s =>
    let s' := innerBody ext vs ab s
    if s'.reduced then s' else innerLoop ext vs ab n s'

/-- The outer loop (trianglation.cpp:81-128); the number is `OUTER_LOOP_MAX_ITER - outer_loop_cntr`. -/
def outerLoop (ext : Ext K) (vs : List (View K)) : Nat → LM K → LM K
  | 0, s => innerLoop ext vs (normalEq vs s.sol) 10 { s with outer := s.outer + 1 }
  | n + 1, s =>
    let s' := innerLoop ext vs (normalEq vs s.sol) 10 { s with outer := s.outer + 1 }
    if ScalarFn.lt (lit (5/10000000)) s'.deltaNorm then outerLoop ext vs n s' else s'

/-- State before the outer loop (trianglation.cpp:57-78). -/
def lmInit (vs : List (View K)) (pw : Vec3 K) : LM K :=
  { sol := toParam pw, lambda := lit (1/1000), cost := cost vs pw, deltaNorm := 0, reduced := false, outer := 0, lambdas := [] }

/-- `TrianglateIterative` (trianglation.cpp:53-135); it always returns true. -/
def iterative (ext : Ext K) (qs : List (Quat K)) (ps : List (Vec3 K)) (ns : List (Vec2 K)) (pw : Vec3 K) : Res (Bool × Vec3 K) := do
  let vs ← views qs ps ns
  let s := outerLoop ext vs 10 (lmInit vs pw)
  .ok (true, toPoint s.sol)

end Triang
end Vio
