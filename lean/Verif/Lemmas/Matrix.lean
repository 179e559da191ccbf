/-
Real matrices: the dynamic-size model matrices as Mathlib matrices.
-/
import Verif.Model.Matrix
import Mathlib.LinearAlgebra.Matrix.PosDef
import Mathlib.Algebra.Order.Star.Real
import Mathlib.Algebra.BigOperators.Fin
import Mathlib.Data.Matrix.Block

namespace Vio

theorem sumTo_eq (n : Nat) (f : Nat → ℝ) : sumTo n f = ∑ k : Fin n, f k := by
  induction n with
  | zero => simp [sumTo]
  | succ n ih => rw [sumTo, ih, Fin.sum_univ_castSucc]; rfl

/-- The `r x c` top left part as a Mathlib matrix. -/
def DMat.toM (a : DMat ℝ) (r c : Nat) : Matrix (Fin r) (Fin c) ℝ := fun i j => a.e i j

namespace DMat
theorem toM_apply (a : DMat ℝ) (r c : Nat) (i : Fin r) (j : Fin c) : a.toM r c i j = a.e i j := rfl
theorem toM_mulF (a b : DMat ℝ) (r n c : Nat) (h : a.cols = n) : (a.mulF b).toM r c = a.toM r n * b.toM n c := by
  subst h
  ext i j
  simp [toM, mulF, Matrix.mul_apply, sumTo_eq]
theorem toM_addF (a b : DMat ℝ) (r c : Nat) : (a.addF b).toM r c = a.toM r c + b.toM r c := rfl
theorem toM_transpose (a : DMat ℝ) (r c : Nat) : a.transpose.toM r c = (a.toM c r).transpose := rfl
theorem toM_zero (m n r c : Nat) : (DMat.zero m n : DMat ℝ).toM r c = 0 := rfl
end DMat

end Vio
