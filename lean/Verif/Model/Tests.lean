/-
Model of the two smaller test programs `apps/test_trianglate.cpp` and `apps/test_pnp.cpp`.

Printing, the timer and the return values that the programs ignore are left out of the results only where said.  `sin` and `cos` are parameters.  Products of integers with `double`
literals are rounded once, when they become a `Scalar`.
-/
import Verif.Model.Config
import Verif.Model.Pnp

set_option linter.unusedSectionVars false

namespace Vio

variable {K : Type} [Add K] [Sub K] [Mul K] [Neg K] [Div K] [Zero K] [One K] [ScalarFn K]

namespace Tests

/-! ### `apps/test_trianglate.cpp` -/

/-- `std::sin` and `std::cos`. -/
structure Trig (K : Type) where
  sin : K → K
  cos : K → K

/-- The double nearest to pi, `M_PI`. -/
def mPi : ℚ := 884279719003555 / 281474976710656

/-- `Eigen::AngleAxis::toRotationMatrix`, which the assignment to `R_cw` calls (test_trianglate.cpp:27, 56). -/
def angleAxis (tr : Trig K) (a : K) (u : Vec3 K) : Mat3 K :=
  let s : Vec3 K := .smul (tr.sin a) u
  let c := tr.cos a
  let c1 : Vec3 K := .smul (lit 1 - c) u
  ⟨⟨c1.x * u.x + c, c1.x * u.y - s.z, c1.x * u.z + s.y⟩,
   ⟨c1.x * u.y + s.z, c1.y * u.y + c, c1.y * u.z - s.x⟩,
   ⟨c1.x * u.z - s.y, c1.y * u.z + s.x, c1.z * u.z + c⟩⟩

/-- `theta` (test_trianglate.cpp:24, 53). -/
def theta (n : Nat) : K := lit ((n : ℚ) * 2 * mPi / (6 * 16))

/-- `R_cw` (test_trianglate.cpp:26-27, 55-56). -/
def rcw (tr : Trig K) (n : Nat) : Mat3 K := angleAxis tr (theta n) ⟨0, 0, 1⟩

/-- `p_cw` (test_trianglate.cpp:28, 57). -/
def pcw (tr : Trig K) (n : Nat) : Vec3 K :=
  ⟨lit 8 * tr.cos (theta n) - lit 8, lit 8 * tr.sin (theta n), lit 1 * tr.sin (lit 2 * theta n)⟩

/-- `p_w` (test_trianglate.cpp:17, 46). -/
def ptrue : Vec3 K := ⟨lit 2, lit 2, lit 2⟩

/-- The observation of one pose (test_trianglate.cpp:30-31, 58-59). -/
def triObs (tr : Trig K) (n : Nat) : Vec2 K :=
  let pc := (rcw tr n).mulVec ptrue + pcw tr n
  ⟨pc.x / pc.z, pc.y / pc.z⟩

/-- The three lists (test_trianglate.cpp:23-34, 52-62). -/
def triViews (tr : Trig K) : List (Quat K) × List (Vec3 K) × List (Vec2 K) :=
  ((List.range 6).map fun n => Quat.ofMat (rcw tr n).transpose, (List.range 6).map fun n => (-(rcw tr n).transpose).mulVec (pcw tr n), (List.range 6).map (triObs tr))

/-- `TestTrianglateAnalytic` (test_trianglate.cpp:14-41): the two points it prints.  `junk` is the uninitialised `res_p_w`. -/
def testAnalytic (ext : Ext K) (tr : Trig K) (junk : Vec3 K) : Res (Vec3 K × Vec3 K) := do
  let v := triViews tr
  let r ← Triang.analytic ext v.1 v.2.1 v.2.2 junk
  .ok (ptrue, r.2)

/-- `TestTrianglateIterative` (test_trianglate.cpp:44-71): the two points it prints, both from `res_p_w` (line 69). -/
def testIterative (ext : Ext K) (tr : Trig K) : Res (Vec3 K × Vec3 K) := do
  let v := triViews tr
  let r ← Triang.iterative ext v.1 v.2.1 v.2.2 (ptrue + ⟨lit (4/10), lit (4/10), lit (4/10)⟩)
  .ok (r.2, r.2)

/-! ### `apps/test_pnp.cpp` -/

/-- `pts_3d` (test_pnp.cpp:17-24). -/
def cloud : List (Vec3 K) :=
  (List.range' 1 9).flatMap fun (i : Nat) => (List.range' 1 9).flatMap fun (j : Nat) => (List.range' 1 9).map fun (k : Nat) => ⟨lit i, lit j, lit ((k : ℚ) * 2)⟩

/-- `p_wc` (test_pnp.cpp:28). -/
def camPos : Vec3 K := ⟨lit 1, lit (-3), lit 0⟩

/-- The projection (test_pnp.cpp:33-34). -/
def see (x : Vec3 K) : Vec2 K :=
  let pc := (Mat3.one : Mat3 K).transpose.mulVec (x - camPos)
  ⟨pc.x / pc.z, pc.y / pc.z⟩

/-- The wrong observations (test_pnp.cpp:39-43); `n` passes remain, `pos` is the position in the random stream. -/
def spoil (rnd : Nat → Nat) (size : Nat) : Nat → Nat → List (Vec2 K) → Res (List (Vec2 K))
  | 0, _, l => .ok l
  | n + 1, pos, l => do
    let i := rnd pos % size
    let y ← idx l i
    spoil rnd size n (pos + 1) (l.set i ⟨lit 10, y.y⟩)

/-- `pts_2d` (test_pnp.cpp:31-43). -/
def sights (rnd : Nat → Nat) : Res (List (Vec2 K)) :=
  let l : List (Vec2 K) := cloud.map see
  spoil rnd (cloud : List (Vec3 K)).length ((cloud : List (Vec3 K)).length / 100) 0 l

/-- What the three calls leave (test_pnp.cpp:51-77). -/
structure PnpOut (K : Type) where
  basic : Bool × Pose K
  kernel : Bool × Pose K
  ransac : Bool × Pnp.Ransac K

/-- `main` (test_pnp.cpp:12-80); the random stream goes on behind the outliers.  The outcome `none` is a search for three points that does not end. -/
def testPnp (ext : Ext K) (rnd : Nat → Nat) (fuel : Nat) : Option (Res (PnpOut K)) :=
  match sights rnd with
  | .ub u => some (.ub u)
  | .ok x2 =>
    let basic := Pnp.estimate ext .default false cloud x2 ⟨.one, 0⟩
    let kernel := Pnp.estimate ext .default true cloud x2 ⟨.one, 0⟩
    match Pnp.ransac ext .default (fun n => rnd (n + (cloud : List (Vec3 K)).length / 100)) fuel cloud x2 ⟨.one, 0⟩ with
    | none => none
    | some (.ub u) => some (.ub u)
    | some (.ok r) => some (.ok ⟨basic, kernel, r⟩)

end Tests
end Vio
