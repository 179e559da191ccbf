/-
Dynamic-size matrices: the Eigen operations the code uses (`Matrix`, `Vector`, include/utility/typedef.hpp:29-30).

A matrix is a size and an entry function; entries outside the size are meaningless and never read by an operation whose size checks pass.
Eigen's assertions (off in a release build, where violating them is undefined behaviour) are `ub` outcomes.  Sums are accumulated left to right
(Eigen leaves the order open).  Sizes are natural numbers; `uint32_t` wrap-around is modelled where a subtraction is data dependent.
-/
import Verif.Model.Math

set_option linter.unusedSectionVars false

namespace Vio

/-- Eigen dynamic matrix. -/
structure DMat (K : Type) where
  rows : Nat
  cols : Nat
  e : Nat → Nat → K

variable {K : Type} [Add K] [Sub K] [Mul K] [Neg K] [Div K] [Zero K] [One K] [ScalarFn K]

/-- Sum of the first `n` terms. -/
def sumTo : Nat → (Nat → K) → K
  | 0, _ => 0
  | n + 1, f => sumTo n f + f n

namespace DMat

/-- `setZero(r, c)` -/
def zero (r c : Nat) : DMat K := ⟨r, c, fun _ _ => 0⟩
/-- `setIdentity` on a square matrix -/
def ident (n : Nat) : DMat K := ⟨n, n, fun i j => if i = j then 1 else 0⟩
/-- `transpose` -/
def transpose (a : DMat K) : DMat K := ⟨a.cols, a.rows, fun i j => a.e j i⟩
/-- matrix product; inner sizes must agree -/
def mul (a b : DMat K) : Res (DMat K) :=
  if a.cols = b.rows then .ok ⟨a.rows, b.cols, fun i j => sumTo a.cols (fun k => a.e i k * b.e k j)⟩ else .ub .dimMismatch
/-- matrix product of operands whose inner sizes agree at compile time -/
def mulF (a b : DMat K) : DMat K := ⟨a.rows, b.cols, fun i j => sumTo a.cols (fun k => a.e i k * b.e k j)⟩
/-- sum; sizes must agree -/
def add (a b : DMat K) : Res (DMat K) :=
  if a.rows = b.rows ∧ a.cols = b.cols then .ok ⟨a.rows, a.cols, fun i j => a.e i j + b.e i j⟩ else .ub .dimMismatch
/-- sum of operands of equal compile-time size -/
def addF (a b : DMat K) : DMat K := ⟨a.rows, a.cols, fun i j => a.e i j + b.e i j⟩
/-- negation -/
def neg (a : DMat K) : DMat K := ⟨a.rows, a.cols, fun i j => - a.e i j⟩
/-- scalar multiple -/
def smul (k : K) (a : DMat K) : DMat K := ⟨a.rows, a.cols, fun i j => k * a.e i j⟩
/-- `diagonal().array() += k` -/
def addDiag (a : DMat K) (k : K) : DMat K := ⟨a.rows, a.cols, fun i j => if i = j then a.e i j + k else a.e i j⟩
/-- `block(i, j, r, c)`; outside the matrix is undefined -/
def block (a : DMat K) (i j r c : Nat) : Res (DMat K) :=
  if i + r ≤ a.rows ∧ j + c ≤ a.cols then .ok ⟨r, c, fun x y => a.e (i + x) (j + y)⟩ else .ub .outOfRange
/-- `block(i, j, r, c) = b` for an expression of size `r x c` -/
def setBlock (a : DMat K) (i j r c : Nat) (b : DMat K) : Res (DMat K) :=
  if ¬ (i + r ≤ a.rows ∧ j + c ≤ a.cols) then .ub .outOfRange
  else if ¬ (b.rows = r ∧ b.cols = c) then .ub .dimMismatch
  else .ok ⟨a.rows, a.cols, fun x y => if i ≤ x ∧ x < i + r ∧ j ≤ y ∧ y < j + c then b.e (x - i) (y - j) else a.e x y⟩
/-- `block<3, 3>(i, j) = b` at compile-time positions inside the matrix -/
def setBlock3 (a : DMat K) (i j : Nat) (b : Mat3 K) : DMat K :=
  ⟨a.rows, a.cols, fun x y => if i ≤ x ∧ x < i + 3 ∧ j ≤ y ∧ y < j + 3 then b.get (x - i) (y - j) else a.e x y⟩
/-- `conservativeResize(r, c)`: kept entries stay, new ones are uninitialised (`junk`) -/
def conservativeResize (junk : Nat → Nat → K) (a : DMat K) (r c : Nat) : DMat K :=
  ⟨r, c, fun x y => if x < a.rows ∧ y < a.cols then a.e x y else junk x y⟩
/-- `v.segment<3>(i)` of a column vector -/
def segment3 (a : DMat K) (i : Nat) : Res (Vec3 K) :=
  if i + 3 ≤ a.rows ∧ 0 < a.cols then .ok ⟨a.e i 0, a.e (i + 1) 0, a.e (i + 2) 0⟩ else .ub .outOfRange
/-- A `3 x 3` matrix as a dynamic one -/
def ofMat3 (m : Mat3 K) : DMat K := ⟨3, 3, m.get⟩

end DMat
end Vio
