/-
External numerics as oracles: results of Eigen decompositions and of `std::rand()`.  Arbitrary functions of the matrices they are applied to; theorems that need
more ask for the mathematical specification of the one they use as a hypothesis.
-/
import Verif.Model.Matrix

namespace Vio

/-- Vector of six numbers (`Vector6`, include/utility/typedef.hpp:41): `head<3>` and `tail<3>`. -/
@[ext] structure Vec6 (K : Type) where
  p : Vec3 K
  r : Vec3 K
  deriving DecidableEq

/-- `Matrix66` (include/utility/typedef.hpp:36) in blocks of three. -/
@[ext] structure Mat6 (K : Type) where
  pp : Mat3 K
  pr : Mat3 K
  rp : Mat3 K
  rr : Mat3 K

/-- The decompositions used by the code. -/
structure Ext (K : Type) where
  /-- last column of `A.jacobiSvd(ComputeFullV).matrixV()` for a matrix with four columns (trianglation.cpp:35) -/
  svdLast : DMat K → Nat → K
  /-- `(A).ldlt().solve(b)` for 3 x 3 (trianglation.cpp:106) -/
  ldlt3 : Mat3 K → Vec3 K → Vec3 K
  /-- `H.ldlt().solve(b)` for 6 x 6 (perspective_n_point.cpp:52, 213) -/
  ldlt6 : Mat6 K → Vec6 K → Vec6 K
  /-- `householderQ()` of `HouseholderQR<Matrix>(A)`, entry by row and column (multi_view_vision_update.cpp:211-213, 285-287) -/
  qrQ : DMat K → Nat → Nat → K
  /-- eigenvalues of `SelfAdjointEigenSolver<Matrix>(A)` (include/utility/math_lib.hpp:132) -/
  eigVal : DMat K → Nat → K
  /-- eigenvectors of `SelfAdjointEigenSolver<Matrix>(A)`: entry by row and column, one eigenvector per column (include/utility/math_lib.hpp:132) -/
  eigVec : DMat K → Nat → Nat → K

end Vio
