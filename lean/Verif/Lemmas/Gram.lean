/-
The Kalman step depends on the measurement equation `H x = r` only through `Hᵀ H` and `Hᵀ r`, whatever eigendecomposition the library returns.
-/
import Verif.Props.Kalman
import Mathlib.LinearAlgebra.Lagrange

set_option linter.unusedSectionVars false

namespace Vio
open Spec Matrix

namespace Update

/-- Powers of a diagonalised matrix. -/
theorem conj_pow {m : Nat} (V : Matrix (Fin m) (Fin m) ℝ) (d : Fin m → ℝ) (h1 : Vᵀ * V = 1) (h2 : V * Vᵀ = 1) (k : Nat) :
    V * diagonal (fun i => d i ^ k) * Vᵀ = (V * diagonal d * Vᵀ) ^ k := by
  induction k with
  | zero => simp [h2]
  | succ k ih =>
    rw [pow_succ, ← ih]
    have : diagonal (fun i => d i ^ (k + 1)) = diagonal (fun i => d i ^ k) * diagonal d := by rw [diagonal_mul_diagonal]; simp only [pow_succ]
    rw [this]
    calc V * (diagonal (fun i => d i ^ k) * diagonal d) * Vᵀ = V * diagonal (fun i => d i ^ k) * 1 * diagonal d * Vᵀ := by simp only [Matrix.mul_one, Matrix.mul_assoc]
      _ = _ := by rw [← h1]; simp only [Matrix.mul_assoc]

/-- `Hᵀ` moves through a power of `H P Hᵀ + R`. -/
theorem push_pow {m n : Nat} (P : Matrix (Fin n) (Fin n) ℝ) (H : Matrix (Fin m) (Fin n) ℝ) (R : ℝ) (k : Nat) :
    Hᵀ * (H * (P * Hᵀ) + R • (1 : Matrix (Fin m) (Fin m) ℝ)) ^ k = (Hᵀ * H * P + R • (1 : Matrix (Fin n) (Fin n) ℝ)) ^ k * Hᵀ := by
  induction k with
  | zero => simp
  | succ k ih =>
    rw [pow_succ, ← Matrix.mul_assoc, ih, pow_succ]
    generalize (Hᵀ * H * P + R • (1 : Matrix (Fin n) (Fin n) ℝ)) ^ k = M
    simp only [Matrix.mul_add, Matrix.add_mul, Matrix.mul_smul, Matrix.smul_mul, Matrix.mul_one, Matrix.mul_assoc]

/-- Spectral functions of the innovation covariance, seen through `Hᵀ`, depend on `Hᵀ H` and on `Hᵀ Z` only. -/
theorem gram_fun {m m' n l : Nat} (f : ℝ → ℝ) (P : Matrix (Fin n) (Fin n) ℝ) (R : ℝ) (H : Matrix (Fin m) (Fin n) ℝ) (H' : Matrix (Fin m') (Fin n) ℝ)
    (V : Matrix (Fin m) (Fin m) ℝ) (W : Matrix (Fin m') (Fin m') ℝ) (d : Fin m → ℝ) (e : Fin m' → ℝ)
    (hV1 : Vᵀ * V = 1) (hV2 : V * Vᵀ = 1) (hW1 : Wᵀ * W = 1) (hW2 : W * Wᵀ = 1)
    (hA : H * (P * Hᵀ) + R • (1 : Matrix (Fin m) (Fin m) ℝ) = V * diagonal d * Vᵀ) (hB : H' * (P * H'ᵀ) + R • (1 : Matrix (Fin m') (Fin m') ℝ) = W * diagonal e * Wᵀ)
    (Z : Matrix (Fin m) (Fin l) ℝ) (Z' : Matrix (Fin m') (Fin l) ℝ) (hG : Hᵀ * H = H'ᵀ * H') (hZ : Hᵀ * Z = H'ᵀ * Z') :
    Hᵀ * (V * diagonal (fun i => f (d i)) * Vᵀ) * Z = H'ᵀ * (W * diagonal (fun i => f (e i)) * Wᵀ) * Z' := by
  classical
  have poly : ∀ p : Polynomial ℝ, Hᵀ * (V * diagonal (fun i => p.eval (d i)) * Vᵀ) * Z = H'ᵀ * (W * diagonal (fun i => p.eval (e i)) * Wᵀ) * Z' := by
    intro p
    induction p using Polynomial.induction_on' with
    | add p q hp hq =>
      have e1 : ∀ {m : Nat} (V : Matrix (Fin m) (Fin m) ℝ) (d : Fin m → ℝ),
          V * diagonal (fun i => (p + q).eval (d i)) * Vᵀ = V * diagonal (fun i => p.eval (d i)) * Vᵀ + V * diagonal (fun i => q.eval (d i)) * Vᵀ := by
        intro m V d
        have : diagonal (fun i => (p + q).eval (d i)) = diagonal (fun i => p.eval (d i)) + diagonal (fun i => q.eval (d i)) := by
          rw [diagonal_add]; simp only [Polynomial.eval_add]
        rw [this, Matrix.mul_add, Matrix.add_mul]
      rw [e1, e1, Matrix.mul_add, Matrix.add_mul, hp, hq, Matrix.mul_add, Matrix.add_mul]
    | monomial k c =>
      have e1 : ∀ {m : Nat} (V : Matrix (Fin m) (Fin m) ℝ) (d : Fin m → ℝ), Vᵀ * V = 1 → V * Vᵀ = 1 →
          V * diagonal (fun i => (Polynomial.monomial k c).eval (d i)) * Vᵀ = c • (V * diagonal d * Vᵀ) ^ k := by
        intro m V d h1 h2
        have : diagonal (fun i => (Polynomial.monomial k c).eval (d i)) = c • diagonal (fun i => d i ^ k) := by
          rw [← diagonal_smul]; congr 1; funext i; simp
        rw [this, Matrix.mul_smul, Matrix.smul_mul, conj_pow V d h1 h2]
      rw [e1 V d hV1 hV2, e1 W e hW1 hW2, ← hA, ← hB, Matrix.mul_smul, Matrix.mul_smul, push_pow, push_pow, Matrix.smul_mul, Matrix.smul_mul,
        Matrix.mul_assoc _ Hᵀ Z, Matrix.mul_assoc _ H'ᵀ Z', hZ, hG]
  let s : Finset ℝ := Finset.univ.image d ∪ Finset.univ.image e
  have hp : ∀ x ∈ s, (Lagrange.interpolate s id f).eval x = f x := by
    intro x hx
    exact Lagrange.eval_interpolate_at_node f (Set.injOn_id _) hx
  have := poly (Lagrange.interpolate s id f)
  have ed : (fun i => (Lagrange.interpolate s id f).eval (d i)) = fun i => f (d i) := by
    funext i; exact hp _ (Finset.mem_union_left _ (Finset.mem_image_of_mem _ (Finset.mem_univ i)))
  have ee : (fun i => (Lagrange.interpolate s id f).eval (e i)) = fun i => f (e i) := by
    funext i; exact hp _ (Finset.mem_union_right _ (Finset.mem_image_of_mem _ (Finset.mem_univ i)))
  rwa [ed, ee] at this

/-- The Kalman step on two measurement equations with the same `Hᵀ H` and `Hᵀ r`, and any two libraries: same correction, same covariance. -/
theorem kalman_gram (ext ext' : Ext ℝ) (hext : GoodExt ext) (hext' : GoodExt ext') (noise : ℝ) (P P' a b : DMat ℝ) (n : Nat) (h1 : P.rows = n) (h2 : P.cols = n)
    (h3 : P'.rows = n) (h4 : P'.cols = n) (hPP : P'.toM n n = P.toM n n) (hP : (P.toM n n)ᵀ = P.toM n n) (ha : a.cols = n + 1) (hb : b.cols = n + 1)
    (hG : (a.toM a.rows n)ᵀ * a.toM a.rows n = (b.toM b.rows n)ᵀ * b.toM b.rows n)
    (hr : (a.toM a.rows n)ᵀ * (Matrix.of fun (i : Fin a.rows) (_ : Fin 1) => a.e i n) = (b.toM b.rows n)ᵀ * (Matrix.of fun (i : Fin b.rows) (_ : Fin 1) => b.e i n)) :
    ∃ k k', kalman ext noise P a = .ok k ∧ kalman ext' noise P' b = .ok k' ∧ k.dx.rows = n ∧ k'.dx.rows = n ∧ k.dx.cols = 1 ∧ k'.dx.cols = 1 ∧
      k.cov.rows = n ∧ k'.cov.rows = n ∧ k.cov.cols = n ∧ k'.cov.cols = n ∧
      k.dx.toM n 1 = k'.dx.toM n 1 ∧ k.cov.toM n n = k'.cov.toM n n := by
  obtain ⟨k, S, hk, s1, s2, s3, s4, s5, s6, s7, s8, s9, s10⟩ := kalman_eq ext noise P a n a.rows h1 h2 rfl ha
  obtain ⟨k', S', hk', t1, t2, t3, t4, t5, t6, t7, t8, t9, t10⟩ := kalman_eq ext' noise P' b n b.rows h3 h4 rfl hb
  rw [hPP] at t3 t4 t10
  refine ⟨k, k', hk, hk', s5, t5, s6, t6, s8, t8, s9, t9, ?_⟩
  have symm : ∀ {m : Nat} (S : DMat ℝ) (H : Matrix (Fin m) (Fin n) ℝ), S.rows = m → S.toM m m = H * (P.toM n n * Hᵀ) + (noise * noise) • (1 : Matrix (Fin m) (Fin m) ℝ) →
      SymmTo S.rows S.e := by
    intro m S H hm hS i j hi hj
    rw [hm] at hi hj
    have : (S.toM m m)ᵀ = S.toM m m := by
      rw [hS]
      simp only [Matrix.transpose_add, Matrix.transpose_mul, Matrix.transpose_transpose, Matrix.transpose_smul, Matrix.transpose_one, hP, Matrix.mul_assoc]
    exact congrFun (congrFun this ⟨j, hj⟩) ⟨i, hi⟩
  have eS := hext.eig S (by rw [s1, s2]) (symm S _ s1 s3)
  have eS' := hext'.eig S' (by rw [t1, t2]) (symm S' _ t1 t3)
  obtain ⟨v1, v2, v3⟩ := IsEig.at eS a.rows s1
  obtain ⟨w1, w2, w3⟩ := IsEig.at eS' b.rows t1
  have hX := invEig_toM ext S a.rows s1
  have hX' := invEig_toM ext' S' b.rows t1
  have key : ∀ {l : Nat} (Z : Matrix (Fin a.rows) (Fin l) ℝ) (Z' : Matrix (Fin b.rows) (Fin l) ℝ), (a.toM a.rows n)ᵀ * Z = (b.toM b.rows n)ᵀ * Z' →
      k.gain.toM n a.rows * Z = k'.gain.toM n b.rows * Z' := by
    intro l Z Z' hZ
    have := gram_fun cutInv (P.toM n n) (noise * noise) (a.toM a.rows n) (b.toM b.rows n) _ _ _ _ v1 v2 w1 w2 (s3.symm.trans v3) (t3.symm.trans w3) Z Z' hG hZ
    rw [← hX, ← hX'] at this
    rw [s4, t4]
    calc P.toM n n * (a.toM a.rows n)ᵀ * (invEig ext S).toM a.rows a.rows * Z = P.toM n n * ((a.toM a.rows n)ᵀ * (invEig ext S).toM a.rows a.rows * Z) := by simp only [Matrix.mul_assoc]
      _ = _ := by rw [this]; simp only [Matrix.mul_assoc]
  exact ⟨by rw [s7, t7]; exact key _ _ hr, by rw [s10, t10, key _ _ hG]⟩

/-- Compression keeps `Hᵀ H` and `Hᵀ r`. -/
theorem compress_gram (env : Env ℝ) (hext : GoodExt env.ext) (a : DMat ℝ) (n : Nat) (hc : a.cols = n + 1) :
    ∃ b, compress env a = .ok b ∧ b.cols = n + 1 ∧ (b.toM b.rows n)ᵀ * b.toM b.rows n = (a.toM a.rows n)ᵀ * a.toM a.rows n ∧
      (b.toM b.rows n)ᵀ * (Matrix.of fun (i : Fin b.rows) (_ : Fin 1) => b.e i n) = (a.toM a.rows n)ᵀ * (Matrix.of fun (i : Fin a.rows) (_ : Fin 1) => a.e i n) := by
  by_cases hr : a.cols < a.rows
  · obtain ⟨b, U, c1, c2, c3, c4, c5, c6⟩ := compress_eq env hext a n hc hr
    refine ⟨b, c1, c3, ?_⟩
    rw [c2, c5, c6, Matrix.transpose_mul]
    constructor
    · rw [Matrix.mul_assoc, ← Matrix.mul_assoc Uᵀ, c4, Matrix.one_mul]
    · rw [Matrix.mul_assoc]
  · refine ⟨a, ?_, hc, rfl, rfl⟩
    unfold compress
    rw [if_neg hr]

end Update
end Vio
