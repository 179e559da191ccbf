/-
C83: the gain of the update is the best linear gain and the correction is the minimiser of the cost that the filter stands for, as long as the noise is above the cut-off of the inverse.
-/
import Verif.Props.Kalman

set_option linter.unusedSectionVars false

namespace Vio
open Spec Matrix

namespace Spec

/-- Covariance of the error after a linear correction with an arbitrary gain: `(I - L H) P (I - L H)ᵀ + R L Lᵀ`. -/
def errorCov {n m : Nat} (P : Matrix (Fin n) (Fin n) ℝ) (H : Matrix (Fin m) (Fin n) ℝ) (R : ℝ) (L : Matrix (Fin n) (Fin m) ℝ) : Matrix (Fin n) (Fin n) ℝ :=
  (1 - L * H) * P * (1 - L * H)ᵀ + R • (L * Lᵀ)

/-- The cost of an error state: squared Mahalanobis distance to the prior, information matrix `Λ`, and squared residuals over their variance. -/
noncomputable def mapCost {n m : Nat} (Λ : Matrix (Fin n) (Fin n) ℝ) (H : Matrix (Fin m) (Fin n) ℝ) (R : ℝ) (r : Fin m → ℝ) (x : Fin n → ℝ) : ℝ :=
  x ⬝ᵥ Λ *ᵥ x + (r - H *ᵥ x) ⬝ᵥ (r - H *ᵥ x) / R

end Spec

namespace Update

/-- With the exact inverse of the innovation covariance, any other gain gives the posterior plus a positive semidefinite matrix. -/
theorem errorCov_eq {n m : Nat} (P : Matrix (Fin n) (Fin n) ℝ) (H : Matrix (Fin m) (Fin n) ℝ) (R : ℝ) (X : Matrix (Fin m) (Fin m) ℝ) (hP : Pᵀ = P)
    (h1 : X * (H * (P * Hᵀ) + R • (1 : Matrix (Fin m) (Fin m) ℝ)) = 1) (h2 : (H * (P * Hᵀ) + R • (1 : Matrix (Fin m) (Fin m) ℝ)) * X = 1) (hX : Xᵀ = X) (L : Matrix (Fin n) (Fin m) ℝ) :
    errorCov P H R L = (1 - P * Hᵀ * X * H) * P + (L - P * Hᵀ * X) * (H * (P * Hᵀ) + R • (1 : Matrix (Fin m) (Fin m) ℝ)) * (L - P * Hᵀ * X)ᵀ := by
  have hS : (H * (P * Hᵀ) + R • (1 : Matrix (Fin m) (Fin m) ℝ)) = H * P * Hᵀ + R • 1 := by rw [Matrix.mul_assoc]
  have e1 : errorCov P H R L = P - L * (H * P) - P * Hᵀ * Lᵀ + L * (H * P * Hᵀ + R • (1 : Matrix (Fin m) (Fin m) ℝ)) * Lᵀ := by
    unfold errorCov
    simp only [Matrix.transpose_sub, Matrix.transpose_mul, Matrix.transpose_one, Matrix.sub_mul, Matrix.mul_sub, Matrix.one_mul, Matrix.mul_one, Matrix.mul_add, Matrix.add_mul,
      Matrix.mul_assoc, Matrix.mul_smul, Matrix.smul_mul]
    abel
  have hXt : (L - P * Hᵀ * X)ᵀ = Lᵀ - X * H * P := by
    rw [Matrix.transpose_sub, Matrix.transpose_mul, Matrix.transpose_mul, Matrix.transpose_transpose, hX, hP, Matrix.mul_assoc]
  rw [e1, hXt, ← hS]
  generalize H * (P * Hᵀ) + R • (1 : Matrix (Fin m) (Fin m) ℝ) = S at *
  have a1 : (L - P * Hᵀ * X) * S * (Lᵀ - X * H * P) = L * S * Lᵀ - L * (S * X) * (H * P) - P * Hᵀ * (X * S) * Lᵀ + P * Hᵀ * (X * S) * X * (H * P) := by
    simp only [Matrix.sub_mul, Matrix.mul_sub, Matrix.mul_assoc]
    abel
  rw [a1, h1, h2]
  simp only [Matrix.mul_one, Matrix.sub_mul, Matrix.one_mul, Matrix.mul_assoc]
  abel

/-- The innovation covariance has no eigenvalue below the variance of the noise. -/
theorem innovation_eig {n m : Nat} (P : Matrix (Fin n) (Fin n) ℝ) (H : Matrix (Fin m) (Fin n) ℝ) (R : ℝ) (hP : P.PosSemidef) (μ : ℝ) (v : Fin m → ℝ) (hv : v ≠ 0)
    (h : (H * (P * Hᵀ) + R • (1 : Matrix (Fin m) (Fin m) ℝ)) *ᵥ v = μ • v) : R ≤ μ := by
  have q := hP.mul_mul_conjTranspose_same H
  rw [Matrix.conjTranspose_eq_transpose_of_trivial] at q
  have h0 := q.dotProduct_mulVec_nonneg v
  simp only [star_trivial] at h0
  have hpos : 0 < v ⬝ᵥ v := by
    rcases (dotProduct_self_star_nonneg v).lt_or_eq with h' | h'
    · simpa using h'
    · exfalso; apply hv; simpa using h'.symm
  have := congrArg (fun w => v ⬝ᵥ w) h
  simp only [Matrix.add_mulVec, Matrix.smul_mulVec, Matrix.one_mulVec, dotProduct_add, dotProduct_smul, smul_eq_mul] at this
  rw [← Matrix.mul_assoc] at this
  have : 0 ≤ (μ - R) * (v ⬝ᵥ v) := by rw [sub_mul, ← this]; linarith
  nlinarith [nonneg_of_mul_nonneg_left this hpos]

/-- What the step computes when the noise is above the cut-off. -/
theorem kalman_exact (ext : Ext ℝ) (hext : GoodExt ext) (noise : ℝ) (hn : 1 / 10000000000 < noise * noise) (P hxr : DMat ℝ) (n m : Nat) (h1 : P.rows = n) (h2 : P.cols = n)
    (h3 : hxr.rows = m) (h4 : hxr.cols = n + 1) (hP : (P.toM n n).PosSemidef) :
    ∃ (k : Kalman ℝ) (X : Matrix (Fin m) (Fin m) ℝ), kalman ext noise P hxr = .ok k ∧ Xᵀ = X ∧ (P.toM n n)ᵀ = P.toM n n ∧
      X * (hxr.toM m n * (P.toM n n * (hxr.toM m n)ᵀ) + (noise * noise) • (1 : Matrix (Fin m) (Fin m) ℝ)) = 1 ∧
      (hxr.toM m n * (P.toM n n * (hxr.toM m n)ᵀ) + (noise * noise) • (1 : Matrix (Fin m) (Fin m) ℝ)) * X = 1 ∧
      k.gain.toM n m = P.toM n n * (hxr.toM m n)ᵀ * X ∧ k.cov.toM n n = (1 - k.gain.toM n m * hxr.toM m n) * P.toM n n ∧
      k.dx.toM n 1 = k.gain.toM n m * (Matrix.of fun (i : Fin m) (_ : Fin 1) => hxr.e i n) := by
  obtain ⟨k, hk, -, -, -, -, -, -, -, hcov⟩ := C44_kalman ext hext noise P hxr n m h1 h2 h3 h4 hP
  obtain ⟨k', S, hk', s1, s2, s3, s4, -, -, s7, -, -, -⟩ := kalman_eq ext noise P hxr n m h1 h2 h3 h4
  obtain rfl : k = k' := by rw [hk] at hk'; cases hk'; rfl
  have hPt : (P.toM n n)ᵀ = P.toM n n := by
    have := hP.isHermitian
    rwa [Matrix.IsHermitian, Matrix.conjTranspose_eq_transpose_of_trivial] at this
  have hSsym : SymmTo S.rows S.e := by
    intro i j hi hj
    rw [s1] at hi hj
    have : (S.toM m m)ᵀ = S.toM m m := by
      rw [s3]
      simp only [Matrix.transpose_add, Matrix.transpose_mul, Matrix.transpose_transpose, Matrix.transpose_smul, Matrix.transpose_one, hPt, Matrix.mul_assoc]
    exact congrFun (congrFun this ⟨j, hj⟩) ⟨i, hi⟩
  have heig := hext.eig S (by rw [s1, s2]) hSsym
  obtain ⟨x1, x2⟩ := C45_inverse ext S m s1 heig (by
    intro μ v hv hμ
    rw [s3] at hμ
    exact lt_of_lt_of_le hn (innovation_eig _ _ _ hP μ v hv hμ))
  rw [s3] at x1 x2
  exact ⟨k, (invEig ext S).toM m m, hk, (C45_generalised_inverse ext S m s1 heig).1, hPt, x1, x2, s4, hcov, s7⟩

/-- C83, gain.  For every positive semidefinite prior, every measurement and every noise whose variance is above the cut-off of the inverse, no linear gain gives a smaller error
covariance than the posterior of the update: the difference is positive semidefinite for every gain. -/
theorem C83_best_gain (ext : Ext ℝ) (hext : GoodExt ext) (noise : ℝ) (hn : 1 / 10000000000 < noise * noise) (P hxr : DMat ℝ) (n m : Nat) (h1 : P.rows = n) (h2 : P.cols = n)
    (h3 : hxr.rows = m) (h4 : hxr.cols = n + 1) (hP : (P.toM n n).PosSemidef) :
    ∃ k, kalman ext noise P hxr = .ok k ∧ k.cov.toM n n = errorCov (P.toM n n) (hxr.toM m n) (noise * noise) (k.gain.toM n m) ∧
      ∀ L : Matrix (Fin n) (Fin m) ℝ, (errorCov (P.toM n n) (hxr.toM m n) (noise * noise) L - k.cov.toM n n).PosSemidef := by
  obtain ⟨k, X, hk, hX, hPt, x1, x2, hg, hcov, -⟩ := kalman_exact ext hext noise hn P hxr n m h1 h2 h3 h4 hP
  refine ⟨k, hk, ?_, fun L => ?_⟩
  · rw [errorCov_eq _ _ _ X hPt x1 x2 hX, hcov, hg]
    simp
  · rw [errorCov_eq _ _ _ X hPt x1 x2 hX, hcov, hg, add_sub_cancel_left]
    have q := hP.mul_mul_conjTranspose_same (hxr.toM m n)
    rw [Matrix.conjTranspose_eq_transpose_of_trivial, Matrix.mul_assoc] at q
    have q1 : (hxr.toM m n * (P.toM n n * (hxr.toM m n)ᵀ) + (noise * noise) • (1 : Matrix (Fin m) (Fin m) ℝ)).PosSemidef :=
      q.add (Matrix.PosSemidef.one.smul (mul_self_nonneg noise))
    have := q1.mul_mul_conjTranspose_same (L - P.toM n n * (hxr.toM m n)ᵀ * X)
    rwa [Matrix.conjTranspose_eq_transpose_of_trivial] at this

/-- C83, correction.  With an invertible prior the correction is the minimiser of the cost: every other error state costs at least as much. -/
theorem C83_map (ext : Ext ℝ) (hext : GoodExt ext) (noise : ℝ) (hn : 1 / 10000000000 < noise * noise) (P hxr : DMat ℝ) (n m : Nat) (h1 : P.rows = n) (h2 : P.cols = n)
    (h3 : hxr.rows = m) (h4 : hxr.cols = n + 1) (hP : (P.toM n n).PosSemidef) (Λ : Matrix (Fin n) (Fin n) ℝ) (hΛ : Λ * P.toM n n = 1) :
    ∃ k, kalman ext noise P hxr = .ok k ∧ ∀ x : Fin n → ℝ,
      mapCost Λ (hxr.toM m n) (noise * noise) (fun i => hxr.e i n) (fun i => k.dx.e i 0) ≤ mapCost Λ (hxr.toM m n) (noise * noise) (fun i => hxr.e i n) x := by
  obtain ⟨k, X, hk, hX, hPt, x1, x2, hg, hcov, hdx⟩ := kalman_exact ext hext noise hn P hxr n m h1 h2 h3 h4 hP
  refine ⟨k, hk, fun x => ?_⟩
  have hR : 0 < noise * noise := lt_trans (by norm_num) hn
  generalize noise * noise = R at *
  set H := hxr.toM m n with hH
  set r : Fin m → ℝ := fun i => hxr.e i n with hr
  set d : Fin n → ℝ := fun i => k.dx.e i 0 with hd
  have hdv : d = (P.toM n n * Hᵀ * X) *ᵥ r := by
    funext i
    have := congrFun (congrFun hdx i) 0
    rw [hg, Matrix.mul_apply] at this
    exact this
  have hPΛ : P.toM n n * Λ = 1 := mul_eq_one_comm.1 hΛ
  have hΛt : Λᵀ = Λ := by
    have h5 : P.toM n n * Λᵀ = 1 := by
      have := congrArg Matrix.transpose hΛ
      rwa [Matrix.transpose_mul, hPt, Matrix.transpose_one] at this
    calc Λᵀ = (Λ * P.toM n n) * Λᵀ := by rw [hΛ, Matrix.one_mul]
      _ = Λ := by rw [Matrix.mul_assoc, h5, Matrix.mul_one]
  have hΛp : Λ.PosSemidef := by
    have := hP.mul_mul_conjTranspose_same Λ
    rwa [Matrix.conjTranspose_eq_transpose_of_trivial, hΛ, Matrix.one_mul, hΛt] at this
  generalize P.toM n n = P' at *
  -- the normal equations
  have e1 : Λ *ᵥ d = Hᵀ *ᵥ (X *ᵥ r) := by
    rw [hdv, Matrix.mulVec_mulVec, ← Matrix.mul_assoc, ← Matrix.mul_assoc, hΛ, Matrix.one_mul, Matrix.mulVec_mulVec]
  have e2 : r - H *ᵥ d = R • (X *ᵥ r) := by
    have : (H * (P' * Hᵀ) + R • (1 : Matrix (Fin m) (Fin m) ℝ)) *ᵥ (X *ᵥ r) = r := by rw [Matrix.mulVec_mulVec, x2, Matrix.one_mulVec]
    rw [Matrix.add_mulVec, Matrix.smul_mulVec, Matrix.one_mulVec] at this
    have h7 : H *ᵥ d = (H * (P' * Hᵀ)) *ᵥ (X *ᵥ r) := by rw [hdv, Matrix.mulVec_mulVec, Matrix.mulVec_mulVec]; simp only [Matrix.mul_assoc]
    rw [h7]
    nth_rewrite 1 [← this]
    simp
  obtain ⟨y, rfl⟩ : ∃ y, x = d + y := ⟨x - d, by simp⟩
  have e3 : r - H *ᵥ (d + y) = R • (X *ᵥ r) - H *ᵥ y := by rw [Matrix.mulVec_add, ← e2]; abel
  unfold mapCost
  rw [e3, e2]
  have hy := hΛp.dotProduct_mulVec_nonneg y
  simp only [star_trivial] at hy
  have hcross : y ⬝ᵥ Λ *ᵥ d = (X *ᵥ r) ⬝ᵥ (H *ᵥ y) := by
    rw [e1, Matrix.mulVec_transpose, dotProduct_comm, ← Matrix.dotProduct_mulVec]
  have hcross2 : d ⬝ᵥ Λ *ᵥ y = y ⬝ᵥ Λ *ᵥ d := by
    rw [Matrix.dotProduct_mulVec, ← Matrix.mulVec_transpose, hΛt, dotProduct_comm]
  have hsq : 0 ≤ (H *ᵥ y) ⬝ᵥ (H *ᵥ y) := by simpa using dotProduct_self_star_nonneg (H *ᵥ y)
  simp only [Matrix.mulVec_add, dotProduct_add, add_dotProduct, sub_dotProduct, dotProduct_sub, smul_dotProduct, dotProduct_smul, smul_eq_mul]
  rw [hcross2, hcross, dotProduct_comm (H *ᵥ y) (X *ᵥ r)]
  generalize (X *ᵥ r) ⬝ᵥ (X *ᵥ r) = A at *
  generalize (X *ᵥ r) ⬝ᵥ (H *ᵥ y) = B at *
  generalize (H *ᵥ y) ⬝ᵥ (H *ᵥ y) = C at *
  generalize y ⬝ᵥ Λ *ᵥ y = D at *
  have e4 : (R * (R * A - B) - (R * B - C)) / R = R * A - 2 * B + C / R := by field_simp; ring
  have e5 : R * (R * A) / R = R * A := by field_simp
  rw [e4, e5]
  have : 0 ≤ C / R := div_nonneg hsq hR.le
  linarith

/-- C83, the cut-off is needed: without noise and with a small prior the innovation covariance is taken for singular, the gain is zero, and the unit gain would give a smaller covariance. -/
theorem C83_cutoff : ∃ (ext : Ext ℝ) (P hxr : DMat ℝ) (k : Kalman ℝ), GoodExt ext ∧ P.rows = 1 ∧ P.cols = 1 ∧ hxr.rows = 1 ∧ hxr.cols = 2 ∧ (P.toM 1 1).PosSemidef ∧
    kalman ext 0 P hxr = .ok k ∧ ¬ (errorCov (P.toM 1 1) (hxr.toM 1 1) (0 * 0) 1 - k.cov.toM 1 1).PosSemidef := by
  obtain ⟨ext, hext, _⟩ := exists_goodExt ⟨fun _ _ => 0, fun _ b => b, fun _ b => b, fun _ _ _ => 0, fun _ _ => 0, fun _ _ _ => 0⟩
  let P : DMat ℝ := ⟨1, 1, fun _ _ => 1 / 100000000000⟩
  let hxr : DMat ℝ := ⟨1, 2, fun _ _ => 1⟩
  have hPm : P.toM 1 1 = Matrix.diagonal fun _ => 1 / 100000000000 := by
    ext i j; fin_cases i; fin_cases j; simp [P, DMat.toM]
  have hHm : hxr.toM 1 1 = 1 := by ext i j; fin_cases i; fin_cases j; simp [hxr, DMat.toM]
  have hP : (P.toM 1 1).PosSemidef := by rw [hPm]; exact Matrix.PosSemidef.diagonal fun _ => by norm_num
  obtain ⟨k, S, hk, s1, s2, s3, s4, -, -, -, -, -, s10⟩ := kalman_eq ext 0 P hxr 1 1 rfl rfl rfl rfl
  have hSsym : SymmTo S.rows S.e := by
    intro i j hi hj
    rw [s1] at hi hj
    obtain rfl : i = 0 := by omega
    obtain rfl : j = 0 := by omega
    rfl
  obtain ⟨o1, -, o3⟩ := IsEig.at (hext.eig S (by rw [s1, s2]) hSsym) 1 s1
  have hinv := invEig_toM ext S 1 s1
  generalize eigM ext S 1 = V at *
  have v1 : V 0 0 * V 0 0 = 1 := by
    have := congrFun (congrFun o1 0) 0
    simpa [Matrix.mul_apply] using this
  have v2 : S.toM 1 1 0 0 = 1 / 100000000000 := by
    rw [s3, hPm, hHm]
    simp
  have v3 : ext.eigVal S 0 = 1 / 100000000000 := by
    have := congrFun (congrFun o3 0) 0
    rw [v2] at this
    simp [Matrix.mul_apply] at this
    rw [mul_comm (V 0 0), mul_assoc, v1, mul_one] at this
    rw [← this]; norm_num
  have hX : (invEig ext S).toM 1 1 = 0 := by
    rw [hinv]
    have : cutInv (ext.eigVal S 0) = 0 := by rw [v3]; unfold cutInv; rw [if_neg (by norm_num)]
    ext i j
    fin_cases i; fin_cases j
    simp [Matrix.mul_apply, this]
  have hgain : k.gain.toM 1 1 = 0 := by rw [s4, hX, Matrix.mul_zero]
  refine ⟨ext, P, hxr, k, hext, rfl, rfl, rfl, rfl, hP, hk, fun h => ?_⟩
  have h0 := h.diag_nonneg (i := 0)
  rw [s10, hgain, hPm, hHm] at h0
  simp [errorCov] at h0
  norm_num at h0

/-- C83: a measurement with five rows and an invertible prior meet the hypotheses, with the variance of the noise above the cut-off. -/
example : ∃ ext : Ext ℝ, GoodExt ext ∧ (1 : ℝ) / 10000000000 < 1 * 1 ∧ ((DMat.ident 2 : DMat ℝ).toM 2 2).PosSemidef ∧ (1 : Matrix (Fin 2) (Fin 2) ℝ) * (DMat.ident 2 : DMat ℝ).toM 2 2 = 1 ∧
    exMeas.rows = 5 ∧ exMeas.cols = 2 + 1 := by
  obtain ⟨ext, hext, _⟩ := exists_goodExt ⟨fun _ _ => 0, fun _ b => b, fun _ b => b, fun _ _ _ => 0, fun _ _ => 0, fun _ _ _ => 0⟩
  have hid : ((DMat.ident 2 : DMat ℝ).toM 2 2) = 1 := by
    ext i j
    fin_cases i <;> fin_cases j <;> simp [DMat.toM, DMat.ident]
  exact ⟨ext, hext, by norm_num, by rw [hid]; exact Matrix.PosSemidef.one, by rw [hid, one_mul], rfl, rfl⟩

end Update
end Vio
