/-
The specifications of the matrix decompositions are satisfiable: every real matrix has a QR decomposition and every symmetric one an eigendecomposition.
-/
import Verif.Spec.Update
import Mathlib.Analysis.InnerProductSpace.GramSchmidtOrtho
import Mathlib.Analysis.Matrix.Spectrum

namespace Vio.Spec
open Matrix

/-- A finite matrix as an entry function. -/
noncomputable def entries {n m : Nat} (M : Matrix (Fin n) (Fin m) ℝ) (i j : Nat) : ℝ := if h : i < n ∧ j < m then M ⟨i, h.1⟩ ⟨j, h.2⟩ else 0

theorem of_entries {n m : Nat} (M : Matrix (Fin n) (Fin m) ℝ) : (Matrix.of fun (i : Fin n) (j : Fin m) => entries M i j) = M := by
  ext i j
  simp [entries]

theorem exists_qr (a : DMat ℝ) : ∃ q, IsQR a q := by
  obtain ⟨b, hb⟩ : ∃ b : OrthonormalBasis (Fin a.rows) ℝ (EuclideanSpace ℝ (Fin a.rows)),
      ∀ i j : Fin a.rows, i < j → ∑ k, b j k * (if i.val < a.cols then a.e k i else 0) = 0 := by
    have hcard : Module.finrank ℝ (EuclideanSpace ℝ (Fin a.rows)) = Fintype.card (Fin a.rows) := by simp
    let f : Fin a.rows → EuclideanSpace ℝ (Fin a.rows) := fun j => WithLp.toLp 2 (fun i => if j.val < a.cols then a.e i j else 0)
    refine ⟨InnerProductSpace.gramSchmidtOrthonormalBasis hcard f, ?_⟩
    intro i j hij
    have := InnerProductSpace.gramSchmidtOrthonormalBasis_inv_triangular hcard f hij
    rw [PiLp.inner_apply] at this
    refine Eq.trans ?_ this
    apply Finset.sum_congr rfl
    intro k _
    have key : ∀ x y : ℝ, x * y = inner ℝ x y := fun x y => mul_comm x y
    exact key _ _
  refine ⟨entries (Matrix.of fun i j => b j i), ?_, ?_⟩
  · rw [of_entries]
    ext i j
    rw [Matrix.mul_apply]
    have := orthonormal_iff_ite.1 b.orthonormal i j
    rw [Matrix.one_apply, ← this, PiLp.inner_apply]
    apply Finset.sum_congr rfl
    intro k _
    simp only [Matrix.transpose_apply, Matrix.of_apply]
    exact mul_comm _ _
  · rw [of_entries]
    intro i j hc
    have hij : j.val < i.val := lt_of_lt_of_le j.2 hc
    have := hb ⟨j, lt_trans hij i.2⟩ i hij
    rw [Matrix.mul_apply]
    refine Eq.trans ?_ this
    apply Finset.sum_congr rfl
    intro k _
    simp only [Matrix.transpose_apply, Matrix.of_apply, DMat.toM, j.2, if_true]

theorem exists_eig (a : DMat ℝ) (hs : SymmTo a.rows a.e) : ∃ d v, IsEig a d v := by
  have hA : (a.toM a.rows a.rows).IsHermitian := by
    rw [Matrix.IsHermitian, Matrix.conjTranspose_eq_transpose_of_trivial]
    ext i j
    exact hs j i j.2 i.2
  let V : Matrix (Fin a.rows) (Fin a.rows) ℝ := hA.eigenvectorUnitary
  refine ⟨fun k => if h : k < a.rows then hA.eigenvalues ⟨k, h⟩ else 0, entries V, ?_, ?_⟩
  · rw [of_entries]
    have := Unitary.coe_star_mul_self hA.eigenvectorUnitary
    rwa [Matrix.star_eq_conjTranspose, Matrix.conjTranspose_eq_transpose_of_trivial] at this
  · rw [of_entries]
    have := hA.spectral_theorem
    rw [Unitary.conjStarAlgAut_apply, Matrix.star_eq_conjTranspose, Matrix.conjTranspose_eq_transpose_of_trivial] at this
    conv_lhs => rw [this]
    congr 2
    ext i j
    simp [Matrix.diagonal_apply]

/-- Decompositions that meet their specification exist. -/
theorem exists_goodExt (e : Ext ℝ) : ∃ ext : Ext ℝ, GoodExt ext ∧ ext.svdLast = e.svdLast ∧ ext.ldlt3 = e.ldlt3 ∧ ext.ldlt6 = e.ldlt6 := by
  classical
  have h : ∀ a : DMat ℝ, ∃ dv : (Nat → ℝ) × (Nat → Nat → ℝ), SymmTo a.rows a.e → IsEig a dv.1 dv.2 := by
    intro a
    by_cases hs : SymmTo a.rows a.e
    · obtain ⟨d, v, h⟩ := exists_eig a hs
      exact ⟨(d, v), fun _ => h⟩
    · exact ⟨(fun _ => 0, fun _ _ => 0), fun h => absurd h hs⟩
  choose dv hdv using h
  choose q hq using exists_qr
  exact ⟨⟨e.svdLast, e.ldlt3, e.ldlt6, q, fun a => (dv a).1, fun a => (dv a).2⟩, ⟨hq, fun a _ hs => hdv a hs⟩, rfl, rfl, rfl⟩

end Vio.Spec
