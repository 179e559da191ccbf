/-
Properties C44 to C47: the Kalman step, the eigenvalue based inverse, the null space projection and the QR compression, in exact arithmetic.
-/
import Verif.Props.UpdateCov
import Verif.Lemmas.Decomp

set_option linter.unusedSectionVars false

namespace Vio
open Spec Matrix

variable {T : Type} [TimeOps T] [TimeCast T ℝ]

namespace DMat
theorem mul_spec {a b : DMat ℝ} (h : a.cols = b.rows) :
    ∃ c, a.mul b = .ok c ∧ c.rows = a.rows ∧ c.cols = b.cols ∧ ∀ r k, c.toM r k = a.toM r a.cols * b.toM a.cols k := by
  refine ⟨_, if_pos h, rfl, rfl, fun r k => ?_⟩
  exact toM_mulF a b r a.cols k rfl

theorem add_spec {a b : DMat ℝ} (h1 : a.rows = b.rows) (h2 : a.cols = b.cols) :
    ∃ c, a.add b = .ok c ∧ c.rows = a.rows ∧ c.cols = a.cols ∧ ∀ r k, c.toM r k = a.toM r k + b.toM r k :=
  ⟨_, if_pos ⟨h1, h2⟩, rfl, rfl, fun _ _ => rfl⟩

theorem toM_addDiag (a : DMat ℝ) (k : ℝ) (n : Nat) : (a.addDiag k).toM n n = a.toM n n + k • (1 : Matrix (Fin n) (Fin n) ℝ) := by
  ext i j
  by_cases h : i = j
  · subst h; simp [toM, addDiag]
  · have : ¬ i.val = j.val := fun e => h (Fin.ext e)
    simp [toM, addDiag, this, Matrix.one_apply_ne h]

theorem toM_neg (a : DMat ℝ) (r c : Nat) : a.neg.toM r c = - a.toM r c := rfl
theorem toM_smul (k : ℝ) (a : DMat ℝ) (r c : Nat) : (DMat.smul k a).toM r c = k • a.toM r c := rfl
end DMat

namespace Update

/-! ### C45 -/

/-- The truncated reciprocal of `Utility::Inverse`. -/
noncomputable def cutInv (x : ℝ) : ℝ := if 1 / 10000000000 < x then 1 / x else 0

theorem cutInv_nonneg (x : ℝ) : 0 ≤ cutInv x := by
  unfold cutInv
  split_ifs with h
  · have : (0:ℝ) < x := lt_trans (by norm_num) h
    positivity
  · exact le_rfl

theorem cutInv_mul (x : ℝ) : cutInv x * x * cutInv x = cutInv x := by
  unfold cutInv
  split_ifs with h
  · have : x ≠ 0 := (lt_trans (by norm_num) h).ne'
    field_simp
  · simp

/-- The orthogonal factor as a matrix. -/
def eigM (ext : Ext ℝ) (a : DMat ℝ) (n : Nat) : Matrix (Fin n) (Fin n) ℝ := Matrix.of fun i j => ext.eigVec a i j

theorem invEig_toM (ext : Ext ℝ) (a : DMat ℝ) (n : Nat) (hn : a.rows = n) :
    (invEig ext a).toM n n = eigM ext a n * diagonal (fun k : Fin n => cutInv (ext.eigVal a k)) * (eigM ext a n).transpose := by
  subst hn
  ext i j
  rw [Matrix.mul_apply]
  simp only [DMat.toM, invEig, sumTo_eq, eigM, Matrix.mul_diagonal, Matrix.transpose_apply, Matrix.of_apply]
  apply Finset.sum_congr rfl
  intro k _
  congr 2
  simp only [cutInv, zeroTol, lit, ScalarFn.lt_real]
  push_cast
  simp

/-- Form of an eigendecomposition at a given size. -/
theorem IsEig.at {ext : Ext ℝ} {a : DMat ℝ} (h : IsEig a (ext.eigVal a) (ext.eigVec a)) (n : Nat) (hn : a.rows = n) :
    (eigM ext a n).transpose * eigM ext a n = 1 ∧ eigM ext a n * (eigM ext a n).transpose = 1 ∧
    a.toM n n = eigM ext a n * diagonal (fun k : Fin n => ext.eigVal a k) * (eigM ext a n).transpose := by
  subst hn
  exact ⟨h.orth, mul_eq_one_comm.1 h.orth, h.diag⟩

/-- C45, part for every symmetric matrix: the result `X` is symmetric, positive semidefinite and `X * A * X = X`. -/
theorem C45_generalised_inverse (ext : Ext ℝ) (a : DMat ℝ) (n : Nat) (hn : a.rows = n) (h : IsEig a (ext.eigVal a) (ext.eigVec a)) :
    let X := (invEig ext a).toM n n
    X.transpose = X ∧ X.PosSemidef ∧ X * a.toM n n * X = X := by
  obtain ⟨h1, h2, h3⟩ := IsEig.at h n hn
  intro X
  have hX : X = _ := invEig_toM ext a n hn
  generalize eigM ext a n = V at *
  refine ⟨?_, ?_, ?_⟩
  · rw [hX]
    simp [Matrix.transpose_mul, Matrix.mul_assoc]
  · rw [hX]
    have : (diagonal (fun k : Fin n => cutInv (ext.eigVal a k))).PosSemidef := Matrix.PosSemidef.diagonal (fun k => cutInv_nonneg _)
    have := this.mul_mul_conjTranspose_same V
    rwa [Matrix.conjTranspose_eq_transpose_of_trivial] at this
  · rw [hX, h3]
    have hd : diagonal (fun k : Fin n => cutInv (ext.eigVal a k)) * diagonal (fun k : Fin n => ext.eigVal a k) * diagonal (fun k : Fin n => cutInv (ext.eigVal a k)) =
        diagonal (fun k : Fin n => cutInv (ext.eigVal a k)) := by
      rw [diagonal_mul_diagonal, diagonal_mul_diagonal]
      congr 1
      funext k
      exact cutInv_mul _
    generalize diagonal (fun k : Fin n => ext.eigVal a k) = D at *
    generalize diagonal (fun k : Fin n => cutInv (ext.eigVal a k)) = E at *
    calc V * E * Vᵀ * (V * D * Vᵀ) * (V * E * Vᵀ) = V * E * (Vᵀ * V) * D * (Vᵀ * V) * E * Vᵀ := by simp only [Matrix.mul_assoc]
      _ = V * (E * D * E) * Vᵀ := by rw [h1]; simp only [Matrix.mul_one, Matrix.mul_assoc]
      _ = _ := by rw [hd]

/-- C45, well-conditioned: if every eigenvalue exceeds the cut-off the result is the inverse. -/
theorem C45_inverse (ext : Ext ℝ) (a : DMat ℝ) (n : Nat) (hn : a.rows = n) (h : IsEig a (ext.eigVal a) (ext.eigVec a))
    (hpos : ∀ (μ : ℝ) (v : Fin n → ℝ), v ≠ 0 → (a.toM n n).mulVec v = μ • v → 1 / 10000000000 < μ) :
    (invEig ext a).toM n n * a.toM n n = 1 ∧ a.toM n n * (invEig ext a).toM n n = 1 := by
  obtain ⟨h1, h2, h3⟩ := IsEig.at h n hn
  have hX := invEig_toM ext a n hn
  generalize eigM ext a n = V at *
  have hev : ∀ k : Fin n, 1 / 10000000000 < ext.eigVal a k := by
    intro k
    apply hpos _ (V.mulVec (Pi.single k 1))
    · intro h0
      have : Vᵀ.mulVec (V.mulVec (Pi.single k 1)) = Pi.single k 1 := by rw [Matrix.mulVec_mulVec, h1, Matrix.one_mulVec]
      rw [h0, Matrix.mulVec_zero] at this
      have := congrFun this k
      simp at this
    · rw [h3, Matrix.mulVec_mulVec, Matrix.mul_assoc, h1, Matrix.mul_one, ← Matrix.mulVec_mulVec, ← Matrix.mulVec_smul]
      congr 1
      funext i
      rw [Matrix.mulVec_diagonal]
      by_cases hik : i = k
      · subst hik; simp
      · simp [Pi.single_eq_of_ne hik]
  have hd : diagonal (fun k : Fin n => cutInv (ext.eigVal a k)) * diagonal (fun k : Fin n => ext.eigVal a k) = 1 := by
    rw [diagonal_mul_diagonal, ← Matrix.diagonal_one]
    congr 1
    funext k
    have := hev k
    have h0 : ext.eigVal a k ≠ 0 := (lt_trans (by norm_num) this).ne'
    simp only [cutInv, this, if_true]
    field_simp
  have hl : (invEig ext a).toM n n * a.toM n n = 1 := by
    rw [hX, h3]
    generalize diagonal (fun k : Fin n => ext.eigVal a k) = D at *
    generalize diagonal (fun k : Fin n => cutInv (ext.eigVal a k)) = E at *
    calc V * E * Vᵀ * (V * D * Vᵀ) = V * E * (Vᵀ * V) * D * Vᵀ := by simp only [Matrix.mul_assoc]
      _ = V * (E * D) * Vᵀ := by rw [h1]; simp only [Matrix.mul_one, Matrix.mul_assoc]
      _ = 1 := by rw [hd, Matrix.mul_one, h2]
  exact ⟨hl, mul_eq_one_comm.1 hl⟩

/-! ### The Kalman step as matrix equations -/

/-- The Kalman step: what it computes, for `n` state components and `m` measurement rows. -/
theorem kalman_eq (ext : Ext ℝ) (noise : ℝ) (P hxr : DMat ℝ) (n m : Nat) (h1 : P.rows = n) (h2 : P.cols = n) (h3 : hxr.rows = m) (h4 : hxr.cols = n + 1) :
    ∃ (k : Kalman ℝ) (S : DMat ℝ), kalman ext noise P hxr = .ok k ∧ S.rows = m ∧ S.cols = m ∧
      S.toM m m = hxr.toM m n * (P.toM n n * (hxr.toM m n)ᵀ) + (noise * noise) • (1 : Matrix (Fin m) (Fin m) ℝ) ∧
      k.gain.toM n m = P.toM n n * (hxr.toM m n)ᵀ * (invEig ext S).toM m m ∧
      k.dx.rows = n ∧ k.dx.cols = 1 ∧ k.dx.toM n 1 = k.gain.toM n m * (Matrix.of fun (i : Fin m) (_ : Fin 1) => hxr.e i n) ∧
      k.cov.rows = n ∧ k.cov.cols = n ∧
      k.cov.toM n n = (1 / 2 : ℝ) • ((1 - k.gain.toM n m * hxr.toM m n) * P.toM n n + ((1 - k.gain.toM n m * hxr.toM m n) * P.toM n n)ᵀ) := by
  have e1 : n + 1 - 1 = n := by omega
  unfold kalman
  rw [h3, h4, e1]
  obtain ⟨H, a1, a2, a3, a4⟩ := DMat.block_spec (a := hxr) (i := 0) (j := 0) (r := m) (c := n) (by omega) (by omega)
  obtain ⟨r, b1, b2, b3, b4⟩ := DMat.block_spec (a := hxr) (i := 0) (j := n) (r := m) (c := 1) (by omega) (by omega)
  have hH : H.toM m n = hxr.toM m n := by ext i j; simp [DMat.toM, a4]
  have hr : r.toM m 1 = Matrix.of fun (i : Fin m) (_ : Fin 1) => hxr.e i n := by ext i j; simp [DMat.toM, b4]
  rw [a1, Res.bind_ok, b1, Res.bind_ok]
  obtain ⟨PHt, c1, c2, c3, c4⟩ := DMat.mul_spec (a := P) (b := H.transpose) (by rw [h2, DMat.transpose_rows, a3])
  rw [c1, Res.bind_ok]
  obtain ⟨S, d1, d2, d3, d4⟩ := DMat.mul_spec (a := H) (b := PHt) (by rw [a3, c2, h1])
  simp only [d1, Res.bind_ok]
  have hPH : PHt.toM n m = P.toM n n * (hxr.toM m n)ᵀ := by rw [c4, h2, DMat.toM_transpose, hH]
  have hS : (S.addDiag (noise * noise)).toM m m = hxr.toM m n * (P.toM n n * (hxr.toM m n)ᵀ) + (noise * noise) • (1 : Matrix (Fin m) (Fin m) ℝ) := by
    rw [DMat.toM_addDiag, d4, a3, hH, hPH]
  have hSr : (S.addDiag (noise * noise)).rows = m := by show S.rows = m; rw [d2, a2]
  have hSc : (S.addDiag (noise * noise)).cols = m := by show S.cols = m; rw [d3, c3, DMat.transpose_cols, a2]
  have hPc : PHt.cols = m := by rw [c3, DMat.transpose_cols, a2]
  obtain ⟨g, g1, g2, g3, g4⟩ := DMat.mul_spec (a := PHt) (b := invEig ext (S.addDiag (noise * noise))) (by show PHt.cols = (S.addDiag (noise * noise)).rows; rw [hPc, hSr])
  rw [g1, Res.bind_ok]
  have hgr : g.rows = n := by rw [g2, c2, h1]
  have hgc : g.cols = m := by rw [g3]; exact hSr
  have hg : g.toM n m = P.toM n n * (hxr.toM m n)ᵀ * (invEig ext (S.addDiag (noise * noise))).toM m m := by rw [g4, hPc, hPH]
  obtain ⟨x, x1, x2, x3, x4⟩ := DMat.mul_spec (a := g) (b := r) (by rw [hgc, b2])
  rw [x1, Res.bind_ok]
  obtain ⟨I, i1, i2, i3, i4⟩ := DMat.mul_spec (a := g.neg) (b := H) (by show g.cols = H.rows; rw [hgc, a2])
  simp only [i1, Res.bind_ok]
  have hIr : I.rows = n := by rw [i2]; exact hgr
  have hIc : I.cols = n := by rw [i3, a3]
  have hI : (I.addDiag 1).toM n n = 1 - g.toM n m * hxr.toM m n := by
    rw [DMat.toM_addDiag, i4]
    show g.neg.toM n g.cols * H.toM g.cols n + _ = _
    rw [hgc, hH, DMat.toM_neg, one_smul, Matrix.neg_mul]
    abel
  obtain ⟨N, n1, n2, n3, n4⟩ := DMat.mul_spec (a := I.addDiag 1) (b := P) (by show I.cols = P.rows; rw [hIc, h1])
  simp only [n1, Res.bind_ok]
  have hNr : N.rows = n := by rw [n2]; exact hIr
  have hNc : N.cols = n := by rw [n3, h2]
  have hN : N.toM n n = (1 - g.toM n m * hxr.toM m n) * P.toM n n := by
    rw [n4]
    show (I.addDiag 1).toM n I.cols * P.toM I.cols n = _
    rw [hIc, hI]
  obtain ⟨U, u1, u2, u3, u4⟩ := DMat.add_spec (a := N) (b := N.transpose) (by rw [DMat.transpose_rows, hNr, hNc]) (by rw [DMat.transpose_cols, hNr, hNc])
  rw [u1, Res.bind_ok]
  refine ⟨_, S.addDiag (noise * noise), rfl, hSr, hSc, hS, hg, ?_, ?_, ?_, ?_, ?_, ?_⟩
  · show x.rows = n; rw [x2, hgr]
  · show x.cols = 1; rw [x3, b3]
  · show x.toM n 1 = _; rw [x4, hgc, hr]
  · show U.rows = n; rw [u2, hNr]
  · show U.cols = n; rw [u3, hNc]
  · show (DMat.smul _ U).toM n n = _
    rw [DMat.toM_smul, u4, DMat.toM_transpose, hN]
    congr 1
    simp [lit]

/-- Algebra of the step: with `X` symmetric the unsymmetrised posterior is `P - P Hᵀ X H P` and symmetric. -/
theorem posterior_eq {n m : Nat} (P : Matrix (Fin n) (Fin n) ℝ) (H : Matrix (Fin m) (Fin n) ℝ) (X : Matrix (Fin m) (Fin m) ℝ) (hP : Pᵀ = P) (hX : Xᵀ = X) :
    let N := (1 - P * Hᵀ * X * H) * P
    N = P - (P * Hᵀ) * X * (P * Hᵀ)ᵀ ∧ Nᵀ = N ∧ (1 / 2 : ℝ) • (N + Nᵀ) = N := by
  intro N
  have hN : N = P - (P * Hᵀ) * X * (P * Hᵀ)ᵀ := by
    show (1 - P * Hᵀ * X * H) * P = _
    rw [Matrix.sub_mul, Matrix.one_mul, Matrix.transpose_mul, Matrix.transpose_transpose, hP]
    simp only [Matrix.mul_assoc]
  have hNt : Nᵀ = N := by
    rw [hN]
    simp only [Matrix.transpose_sub, Matrix.transpose_mul, Matrix.transpose_transpose, hX, hP, Matrix.mul_assoc]
  refine ⟨hN, hNt, ?_⟩
  rw [hNt, ← two_smul ℝ N, smul_smul]
  norm_num

/-- Algebra of the step: the Joseph form. -/
theorem posterior_joseph {n m : Nat} (P : Matrix (Fin n) (Fin n) ℝ) (H : Matrix (Fin m) (Fin n) ℝ) (X : Matrix (Fin m) (Fin m) ℝ) (R : ℝ) (hP : Pᵀ = P) (hX : Xᵀ = X)
    (hS : X * (H * (P * Hᵀ) + R • (1 : Matrix (Fin m) (Fin m) ℝ)) * X = X) :
    let G := P * Hᵀ * X
    P - (P * Hᵀ) * X * (P * Hᵀ)ᵀ = (1 - G * H) * P * (1 - G * H)ᵀ + R • (G * Gᵀ) := by
  intro G
  have hG : Gᵀ = X * H * P := by
    show (P * Hᵀ * X)ᵀ = _
    rw [Matrix.transpose_mul, Matrix.transpose_mul, Matrix.transpose_transpose, hX, hP, Matrix.mul_assoc]
  have hPHt : (P * Hᵀ)ᵀ = H * P := by rw [Matrix.transpose_mul, Matrix.transpose_transpose, hP]
  rw [hPHt]
  have e1 : (1 - G * H)ᵀ = 1 - Hᵀ * Gᵀ := by rw [Matrix.transpose_sub, Matrix.transpose_mul, Matrix.transpose_one]
  rw [e1, hG]
  have key : P * Hᵀ * X * (H * (P * Hᵀ)) * X * (H * P) + R • (P * Hᵀ * X * (X * (H * P))) = P * Hᵀ * X * (H * P) := by
    have := congrArg (fun Z => P * Hᵀ * Z * (H * P)) hS
    simp only [Matrix.mul_add, Matrix.add_mul, Matrix.mul_smul, Matrix.smul_mul, Matrix.mul_one] at this
    rw [← this]
    simp only [Matrix.mul_assoc]
  have expand : (1 - G * H) * P * (1 - Hᵀ * (X * H * P)) + R • (G * (X * H * P)) =
      P - P * Hᵀ * X * (H * P) - P * Hᵀ * X * (H * P) + (P * Hᵀ * X * (H * (P * Hᵀ)) * X * (H * P) + R • (P * Hᵀ * X * (X * (H * P)))) := by
    show (1 - P * Hᵀ * X * H) * P * (1 - Hᵀ * (X * H * P)) + R • (P * Hᵀ * X * (X * H * P)) = _
    simp only [Matrix.sub_mul, Matrix.mul_sub, Matrix.one_mul, Matrix.mul_one, Matrix.mul_assoc]
    abel
  rw [expand, key]
  abel

/-! ### C44 -/

/-- C44.  For every prior that is symmetric and positive semidefinite, every measurement matrix and residual and every noise level, with an eigendecomposition of the innovation
covariance: the posterior is symmetric and positive semidefinite, and so is prior minus posterior.  The symmetrisation changes nothing: the result is `(I - K H) P`. -/
theorem C44_kalman (ext : Ext ℝ) (hext : GoodExt ext) (noise : ℝ) (P hxr : DMat ℝ) (n m : Nat) (h1 : P.rows = n) (h2 : P.cols = n) (h3 : hxr.rows = m) (h4 : hxr.cols = n + 1)
    (hP : (P.toM n n).PosSemidef) :
    ∃ k, kalman ext noise P hxr = .ok k ∧ k.cov.rows = n ∧ k.cov.cols = n ∧ k.dx.rows = n ∧ k.dx.cols = 1 ∧
      (k.cov.toM n n).PosSemidef ∧ (P.toM n n - k.cov.toM n n).PosSemidef ∧ SymmTo n k.cov.e ∧
      k.cov.toM n n = (1 - k.gain.toM n m * hxr.toM m n) * P.toM n n := by
  obtain ⟨k, S, hk, s1, s2, s3, s4, s5, s6, _, s8, s9, s10⟩ := kalman_eq ext noise P hxr n m h1 h2 h3 h4
  have hPt : (P.toM n n)ᵀ = P.toM n n := by
    have := hP.isHermitian
    rwa [Matrix.IsHermitian, Matrix.conjTranspose_eq_transpose_of_trivial] at this
  have hSsym : SymmTo S.rows S.e := by
    intro i j hi hj
    rw [s1] at hi hj
    have : (S.toM m m)ᵀ = S.toM m m := by
      rw [s3]
      simp only [Matrix.transpose_add, Matrix.transpose_mul, Matrix.transpose_transpose, Matrix.transpose_smul, Matrix.transpose_one, hPt, Matrix.mul_assoc]
    exact congrFun (congrFun this ⟨j, hj⟩) ⟨i, hi⟩
  have heig := hext.eig S (by rw [s1, s2]) hSsym
  obtain ⟨x1, x2, x3⟩ := C45_generalised_inverse ext S m s1 heig
  rw [s3] at x3
  generalize P.toM n n = P' at *
  generalize hxr.toM m n = H at *
  generalize (invEig ext S).toM m m = X at *
  rw [s4] at s10
  obtain ⟨p1, p2, p3⟩ := posterior_eq P' H X hPt x1
  rw [p3] at s10
  refine ⟨k, hk, s8, s9, s5, s6, ?_, ?_, ?_, ?_⟩
  · rw [s10, p1, posterior_joseph P' H X (noise * noise) hPt x1 x3]
    have q1 := hP.mul_mul_conjTranspose_same (1 - P' * Hᵀ * X * H)
    rw [Matrix.conjTranspose_eq_transpose_of_trivial] at q1
    have q2 := Matrix.posSemidef_self_mul_conjTranspose (P' * Hᵀ * X)
    rw [Matrix.conjTranspose_eq_transpose_of_trivial] at q2
    exact q1.add (q2.smul (mul_self_nonneg noise))
  · rw [s10, p1, sub_sub_cancel]
    have q := x2.mul_mul_conjTranspose_same (P' * Hᵀ)
    rwa [Matrix.conjTranspose_eq_transpose_of_trivial] at q
  · intro i j hi hj
    rw [← s10] at p2
    exact congrFun (congrFun p2 ⟨j, hj⟩) ⟨i, hi⟩
  · rw [s10, s4]

/-! ### C46 -/

/-- C46.  The projection multiplies the columns after the third by a matrix `N` with orthonormal rows that annihilates the landmark columns. -/
theorem C46_projection (ext : Ext ℝ) (a : DMat ℝ) (m c : Nat) (hr : a.rows = m + 3) (hc : a.cols = c + 3)
    (hq : ∀ h : DMat ℝ, h.rows = m + 3 → IsQR h (ext.qrQ h)) :
    ∃ (b : DMat ℝ) (N : Matrix (Fin m) (Fin (m + 3)) ℝ), project ext a = .ok b ∧ b.rows = m ∧ b.cols = c ∧
      N * Nᵀ = 1 ∧ N * a.toM (m + 3) 3 = 0 ∧ b.toM m c = N * (Matrix.of fun (i : Fin (m + 3)) (j : Fin c) => a.e i (3 + j)) := by
  unfold project
  obtain ⟨h, h1, h2, h3, h4⟩ := DMat.block_spec (a := a) (i := 0) (j := 0) (r := a.rows) (c := 3) (by omega) (by omega)
  rw [h1, Res.bind_ok]
  have hh := hq h (by omega)
  have hb : (applyQt ext h a).rows = m + 3 := hr
  have hb2 : (applyQt ext h a).cols = c + 3 := hc
  simp only [hb, hb2]
  rw [if_neg (by omega)]
  obtain ⟨b, b1, b2, b3, b4⟩ := DMat.block_spec (a := applyQt ext h a) (i := 3) (j := 3) (r := m + 3 - 3) (c := c + 3 - 3) (by omega) (by omega)
  have hrows : h.rows = m + 3 := by omega
  refine ⟨b, Matrix.of fun (i : Fin m) (k : Fin (m + 3)) => ext.qrQ h k (3 + i), b1, by omega, by omega, ?_, ?_, ?_⟩
  · obtain ⟨o, _⟩ := hh
    have e : ∀ i j : Fin m, ∑ k : Fin h.rows, ext.qrQ h k (3 + i) * ext.qrQ h k (3 + j) = if i = j then 1 else 0 := by
      intro i j
      have := congrFun (congrFun o ⟨3 + i, by omega⟩) ⟨3 + j, by omega⟩
      rw [Matrix.mul_apply] at this
      simp only [Matrix.transpose_apply, Matrix.of_apply] at this
      rw [this, Matrix.one_apply]
      simp only [Fin.ext_iff, Nat.add_left_cancel_iff]
    ext i j
    rw [Matrix.mul_apply, Matrix.one_apply, ← e i j]
    simp only [Matrix.transpose_apply, Matrix.of_apply]
    rw [hrows]
  · obtain ⟨_, u⟩ := hh
    ext i j
    have := u ⟨3 + i, by omega⟩ ⟨j, by omega⟩ (by simp only; omega)
    rw [Matrix.mul_apply] at this ⊢
    simp only [Matrix.transpose_apply, Matrix.of_apply, DMat.toM, h4, Nat.zero_add] at this ⊢
    rw [Matrix.zero_apply, ← this]
    rw [hrows]
  · ext i j
    rw [Matrix.mul_apply]
    simp only [DMat.toM, b4, applyQt, Matrix.of_apply, sumTo_eq]
    rw [hr]

/-- C46.  If the residual of every row is landmark part + state part + noise, the projected residual is projected state part + projected noise, for every landmark error. -/
theorem C46_landmark_removed {m c : Nat} (N : Matrix (Fin m) (Fin (m + 3)) ℝ) (Hf : Matrix (Fin (m + 3)) (Fin 3) ℝ) (Hx : Matrix (Fin (m + 3)) (Fin c) ℝ)
    (hN : N * Hf = 0) (δf : Fin 3 → ℝ) (δx : Fin c → ℝ) (ν r : Fin (m + 3) → ℝ) (hr : r = Hf.mulVec δf + Hx.mulVec δx + ν) :
    N.mulVec r = (N * Hx).mulVec δx + N.mulVec ν := by
  rw [hr, Matrix.mulVec_add, Matrix.mulVec_add, Matrix.mulVec_mulVec, Matrix.mulVec_mulVec, hN, Matrix.zero_mulVec, zero_add]

/-- C46.  White noise of variance `v` stays white with the same variance: its covariance `v * I` is mapped to `N (v I) Nᵀ = v I`. -/
theorem C46_noise_white {m : Nat} (N : Matrix (Fin m) (Fin (m + 3)) ℝ) (hN : N * Nᵀ = 1) (v : ℝ) :
    N * (v • (1 : Matrix (Fin (m + 3)) (Fin (m + 3)) ℝ)) * Nᵀ = v • (1 : Matrix (Fin m) (Fin m) ℝ) := by
  rw [Matrix.mul_smul, Matrix.mul_one, Matrix.smul_mul, hN]

/-! ### C47 -/

/-- Spectral functions of intertwined matrices are intertwined. -/
theorem intertwine {m n : Nat} (f : ℝ → ℝ) (V : Matrix (Fin m) (Fin m) ℝ) (W : Matrix (Fin n) (Fin n) ℝ) (d : Fin m → ℝ) (e : Fin n → ℝ) (U : Matrix (Fin m) (Fin n) ℝ)
    (hV1 : Vᵀ * V = 1) (hV2 : V * Vᵀ = 1) (hW1 : Wᵀ * W = 1) (hW2 : W * Wᵀ = 1)
    (h : V * diagonal d * Vᵀ * U = U * (W * diagonal e * Wᵀ)) :
    V * diagonal (fun k => f (d k)) * Vᵀ * U = U * (W * diagonal (fun k => f (e k)) * Wᵀ) := by
  have h1 : diagonal d * (Vᵀ * U * W) = Vᵀ * U * W * diagonal e := by
    have := congrArg (fun Z => Vᵀ * Z * W) h
    calc diagonal d * (Vᵀ * U * W) = (Vᵀ * V) * diagonal d * Vᵀ * U * W := by rw [hV1, Matrix.one_mul]; simp only [Matrix.mul_assoc]
      _ = Vᵀ * (V * diagonal d * Vᵀ * U) * W := by simp only [Matrix.mul_assoc]
      _ = Vᵀ * (U * (W * diagonal e * Wᵀ)) * W := this
      _ = Vᵀ * U * W * diagonal e * (Wᵀ * W) := by simp only [Matrix.mul_assoc]
      _ = _ := by rw [hW1, Matrix.mul_one]
  have h2 : diagonal (fun k => f (d k)) * (Vᵀ * U * W) = Vᵀ * U * W * diagonal (fun k => f (e k)) := by
    ext i j
    have := congrFun (congrFun h1 i) j
    rw [Matrix.diagonal_mul, Matrix.mul_diagonal] at this ⊢
    by_cases hz : (Vᵀ * U * W) i j = 0
    · rw [hz]; simp
    · have hde : d i = e j := by
        have h3 : (d i - e j) * (Vᵀ * U * W) i j = 0 := by linarith
        rcases mul_eq_zero.1 h3 with h4 | h4
        · linarith
        · exact absurd h4 hz
      rw [hde, mul_comm]
  calc V * diagonal (fun k => f (d k)) * Vᵀ * U = V * diagonal (fun k => f (d k)) * Vᵀ * U * (W * Wᵀ) := by rw [hW2, Matrix.mul_one]
    _ = V * (diagonal (fun k => f (d k)) * (Vᵀ * U * W)) * Wᵀ := by simp only [Matrix.mul_assoc]
    _ = V * (Vᵀ * U * W * diagonal (fun k => f (e k))) * Wᵀ := by rw [h2]
    _ = (V * Vᵀ) * U * (W * diagonal (fun k => f (e k)) * Wᵀ) := by simp only [Matrix.mul_assoc]
    _ = _ := by rw [hV2, Matrix.one_mul]

/-- The compressed equation: `H = U R` and `r' = Uᵀ r` for a matrix `U` with orthonormal columns. -/
theorem compress_eq (env : Env ℝ) (hext : GoodExt env.ext) (a : DMat ℝ) (n : Nat) (hc : a.cols = n + 1) (hr : a.cols < a.rows) :
    ∃ (b : DMat ℝ) (U : Matrix (Fin a.rows) (Fin n) ℝ), compress env a = .ok b ∧ b.rows = n ∧ b.cols = n + 1 ∧
      Uᵀ * U = 1 ∧ a.toM a.rows n = U * b.toM n n ∧
      (Matrix.of fun (i : Fin n) (_ : Fin 1) => b.e i n) = Uᵀ * (Matrix.of fun (i : Fin a.rows) (_ : Fin 1) => a.e i n) := by
  unfold compress
  rw [if_pos hr]
  obtain ⟨h, h1, h2, h3, h4⟩ := DMat.block_spec (a := a) (i := 0) (j := 0) (r := a.rows) (c := a.cols - 1) (by omega) (by omega)
  rw [h1, Res.bind_ok]
  have hq := hext.qr h
  have hn : a.cols - 1 = n := by omega
  have hhc : h.cols = n := by omega
  have hent : ∀ i j, i < n → j < n + 1 → ((applyQt env.ext h a).conservativeResize env.junk (a.cols - 1) a.cols).e i j =
      ∑ k : Fin a.rows, env.ext.qrQ h k i * a.e k j := by
    intro i j hi hj
    have h5 : i < a.rows ∧ j < a.cols := by omega
    simp only [DMat.conservativeResize, applyQt, h5, and_self, if_true, sumTo_eq]
  obtain ⟨o, u⟩ := hq
  have o' : (Matrix.of fun (i j : Fin h.rows) => env.ext.qrQ h i j) * (Matrix.of fun (i j : Fin h.rows) => env.ext.qrQ h i j)ᵀ = 1 := mul_eq_one_comm.1 o
  refine ⟨_, Matrix.of fun (i : Fin a.rows) (j : Fin n) => env.ext.qrQ h i j, rfl, hn, hc, ?_, ?_, ?_⟩
  · ext i j
    have := congrFun (congrFun o ⟨i, by omega⟩) ⟨j, by omega⟩
    rw [Matrix.mul_apply] at this ⊢
    simp only [Matrix.transpose_apply, Matrix.of_apply, Matrix.one_apply, Fin.mk.injEq] at this ⊢
    rw [h2] at this
    rw [this]
    simp [Fin.ext_iff]
  · -- expand with the full orthogonal matrix, the lower rows vanish
    ext i j
    have full : h.e i j = ∑ k : Fin h.rows, env.ext.qrQ h i k * ∑ l : Fin h.rows, env.ext.qrQ h l k * h.e l j := by
      have := congrArg (fun Z => Z * h.toM h.rows h.cols) o'
      simp only [Matrix.one_mul, Matrix.mul_assoc] at this
      have := congrFun (congrFun this ⟨i, by omega⟩) ⟨j, by omega⟩
      rw [Matrix.mul_apply] at this
      simp only [Matrix.mul_apply, Matrix.transpose_apply, Matrix.of_apply, DMat.toM] at this
      exact this.symm
    have hz : ∀ k : Fin h.rows, n ≤ k.val → ∑ l : Fin h.rows, env.ext.qrQ h l k * h.e l j = 0 := by
      intro k hk
      have := u k ⟨j, by omega⟩ (by omega)
      rw [Matrix.mul_apply] at this
      simpa only [Matrix.transpose_apply, Matrix.of_apply, DMat.toM] using this
    have e1 : a.toM a.rows n i j = h.e i j := by simp [DMat.toM, h4]
    rw [e1, full, Matrix.mul_apply]
    have e2 : ∀ k, (∑ l : Fin h.rows, env.ext.qrQ h l k * h.e l j) = ∑ l : Fin a.rows, env.ext.qrQ h l k * a.e l j := by
      intro k
      rw [h2]
      simp [h4]
    simp only [DMat.toM, Matrix.of_apply]
    have e3 : ∀ k : Fin n, ((applyQt env.ext h a).conservativeResize env.junk (a.cols - 1) a.cols).e k j = ∑ l : Fin h.rows, env.ext.qrQ h l k * h.e l j := by
      intro k
      rw [hent k j k.2 (by omega), e2]
    simp only [e3]
    -- a sum over `h.rows` whose terms from `n` on vanish
    have hle : n ≤ h.rows := by omega
    rw [← Finset.sum_range (fun k => env.ext.qrQ h i k * ∑ l : Fin h.rows, env.ext.qrQ h l k * h.e l j),
      ← Finset.sum_range (fun k => env.ext.qrQ h i k * ∑ l : Fin h.rows, env.ext.qrQ h l k * h.e l j)]
    symm
    apply Finset.sum_subset (Finset.range_mono hle)
    intro k hk hk'
    simp only [Finset.mem_range] at hk hk'
    rw [hz ⟨k, hk⟩ (by simp only; omega), mul_zero]
  · ext i j
    rw [Matrix.mul_apply]
    simp only [Matrix.of_apply, Matrix.transpose_apply]
    exact hent i n i.2 (by omega)

/-- C47.  The compressed measurement equation gives the same state correction and the same posterior covariance, for every noise level. -/
theorem C47_compression (env : Env ℝ) (hext : GoodExt env.ext) (noise : ℝ) (P a : DMat ℝ) (n : Nat) (h1 : P.rows = n) (h2 : P.cols = n) (hP : (P.toM n n)ᵀ = P.toM n n)
    (hc : a.cols = n + 1) :
    ∃ b k k', compress env a = .ok b ∧ kalman env.ext noise P a = .ok k ∧ kalman env.ext noise P b = .ok k' ∧
      k'.dx.toM n 1 = k.dx.toM n 1 ∧ k'.cov.toM n n = k.cov.toM n n := by
  by_cases hr : a.cols < a.rows
  · obtain ⟨b, U, c1, c2, c3, c4, c5, c6⟩ := compress_eq env hext a n hc hr
    obtain ⟨k, S, hk, s1, s2, s3, s4, s5, s6, s7, s8, s9, s10⟩ := kalman_eq env.ext noise P a n a.rows h1 h2 rfl hc
    obtain ⟨k', S', hk', t1, t2, t3, t4, t5, t6, t7, t8, t9, t10⟩ := kalman_eq env.ext noise P b n n h1 h2 c2 c3
    refine ⟨b, k, k', c1, hk, hk', ?_⟩
    have symm : ∀ {m : Nat} (S : DMat ℝ) (H : Matrix (Fin m) (Fin n) ℝ), S.rows = m → S.toM m m = H * (P.toM n n * Hᵀ) + (noise * noise) • (1 : Matrix (Fin m) (Fin m) ℝ) →
        SymmTo S.rows S.e := by
      intro m S H hm hS i j hi hj
      rw [hm] at hi hj
      have : (S.toM m m)ᵀ = S.toM m m := by
        rw [hS]
        simp only [Matrix.transpose_add, Matrix.transpose_mul, Matrix.transpose_transpose, Matrix.transpose_smul, Matrix.transpose_one, hP, Matrix.mul_assoc]
      exact congrFun (congrFun this ⟨j, hj⟩) ⟨i, hi⟩
    have eS := hext.eig S (by rw [s1, s2]) (symm S _ s1 s3)
    have eS' := hext.eig S' (by rw [t1, t2]) (symm S' _ t1 t3)
    obtain ⟨v1, v2, v3⟩ := IsEig.at eS a.rows s1
    obtain ⟨w1, w2, w3⟩ := IsEig.at eS' n t1
    have x1 := (C45_generalised_inverse env.ext S a.rows s1 eS).1
    have x1' := (C45_generalised_inverse env.ext S' n t1 eS').1
    have hX := invEig_toM env.ext S a.rows s1
    have hX' := invEig_toM env.ext S' n t1
    have tw : S.toM a.rows a.rows * U = U * S'.toM n n := by
      rw [s3, t3, c5]
      simp only [Matrix.transpose_mul, Matrix.add_mul, Matrix.mul_add, Matrix.smul_mul, Matrix.mul_smul, Matrix.one_mul, Matrix.mul_one, Matrix.mul_assoc, c4]
    rw [v3, w3] at tw
    have key := intertwine cutInv _ _ _ _ U v1 v2 w1 w2 tw
    rw [← hX, ← hX'] at key
    have key' : Uᵀ * (invEig env.ext S).toM a.rows a.rows = (invEig env.ext S').toM n n * Uᵀ := by
      have := congrArg Matrix.transpose key
      rwa [Matrix.transpose_mul, Matrix.transpose_mul, x1, x1'] at this
    have hg : P.toM n n * (a.toM a.rows n)ᵀ * (invEig env.ext S).toM a.rows a.rows = k'.gain.toM n n * Uᵀ := by
      rw [t4, c5, Matrix.transpose_mul]
      simp only [Matrix.mul_assoc]
      rw [key']
    have hgH : k.gain.toM n a.rows * a.toM a.rows n = k'.gain.toM n n * b.toM n n := by
      rw [s4, hg, c5, Matrix.mul_assoc, ← Matrix.mul_assoc Uᵀ, c4, Matrix.one_mul]
    constructor
    · rw [t7, s7, c6, s4, hg, Matrix.mul_assoc]
    · rw [t10, s10, hgH]
  · obtain ⟨k, S, hk, _⟩ := kalman_eq env.ext noise P a n a.rows h1 h2 rfl hc
    refine ⟨a, k, k, ?_, hk, hk, rfl, rfl⟩
    unfold compress
    rw [if_neg hr]

/-! ### Concrete cases -/

/-- A measurement equation with five rows, two state components and a residual. -/
def exMeas : DMat ℝ := ⟨5, 3, fun i j => (i : ℝ) + 2 * j⟩

/-- C44, C47: decompositions that meet the hypotheses exist, with a prior that is not zero and more rows than columns. -/
example : ∃ env : Env ℝ, GoodExt env.ext ∧ ((DMat.ident 2 : DMat ℝ).toM 2 2).PosSemidef ∧ exMeas.cols < exMeas.rows ∧
    ∃ b k k', compress env exMeas = .ok b ∧ b.rows = 2 ∧ kalman env.ext 1 (DMat.ident 2) exMeas = .ok k ∧ kalman env.ext 1 (DMat.ident 2) b = .ok k' ∧
      k'.dx.toM 2 1 = k.dx.toM 2 1 ∧ (k.cov.toM 2 2).PosSemidef := by
  obtain ⟨ext, hext, _⟩ := exists_goodExt ⟨fun _ _ => 0, fun _ b => b, fun _ b => b, fun _ _ _ => 0, fun _ _ => 0, fun _ _ _ => 0⟩
  have hid : ((DMat.ident 2 : DMat ℝ).toM 2 2) = 1 := by
    ext i j
    fin_cases i <;> fin_cases j <;> simp [DMat.toM, DMat.ident]
  have hp : ((DMat.ident 2 : DMat ℝ).toM 2 2).PosSemidef := by rw [hid]; exact Matrix.PosSemidef.one
  refine ⟨⟨ext, id, id, fun _ _ => 0⟩, hext, hp, by simp [exMeas], ?_⟩
  obtain ⟨b, k, k', h1, h2, h3, h4, _⟩ := C47_compression ⟨ext, id, id, fun _ _ => 0⟩ hext 1 (DMat.ident 2) exMeas 2 rfl rfl (by rw [hid]; simp) rfl
  obtain ⟨k2, q1, _, _, _, _, q2, _⟩ := C44_kalman ext hext 1 (DMat.ident 2) exMeas 2 5 rfl rfl rfl rfl hp
  obtain ⟨b', U, c1, c2, _⟩ := compress_eq ⟨ext, id, id, fun _ _ => 0⟩ hext exMeas 2 rfl (by simp [exMeas])
  rw [c1] at h1; cases h1
  refine ⟨b, k, k', c1, c2, h2, h3, h4, ?_⟩
  rw [show kalman ext 1 (DMat.ident 2) exMeas = .ok k from h2] at q1
  cases q1
  exact q2

/-- C45: twice the identity is well-conditioned. -/
example : ∀ (μ : ℝ) (v : Fin 2 → ℝ), v ≠ 0 → ((DMat.smul 2 (DMat.ident 2) : DMat ℝ).toM 2 2).mulVec v = μ • v → 1 / 10000000000 < μ := by
  intro μ v hv h
  have hid : ((DMat.smul 2 (DMat.ident 2) : DMat ℝ).toM 2 2) = (2 : ℝ) • (1 : Matrix (Fin 2) (Fin 2) ℝ) := by
    ext i j
    fin_cases i <;> fin_cases j <;> simp [DMat.toM, DMat.ident, DMat.smul]
  rw [hid, Matrix.smul_mulVec, Matrix.one_mulVec] at h
  have : (2 - μ) • v = 0 := by rw [sub_smul, h, sub_self]
  rcases smul_eq_zero.1 this with h | h
  · have : μ = 2 := by linarith
    rw [this]; norm_num
  · exact absurd h hv

/-- C46: two observations in two frames give four rows, one of which remains. -/
example : ∃ (ext : Ext ℝ) (b : DMat ℝ), project ext ⟨4, 8, fun i j => (i : ℝ) * j + i⟩ = .ok b ∧ b.rows = 1 ∧ b.cols = 5 := by
  obtain ⟨ext, hext, _⟩ := exists_goodExt ⟨fun _ _ => 0, fun _ b => b, fun _ b => b, fun _ _ _ => 0, fun _ _ => 0, fun _ _ _ => 0⟩
  obtain ⟨b, _, h1, h2, h3, _⟩ := C46_projection ext ⟨4, 8, fun i j => (i : ℝ) * j + i⟩ 1 5 rfl rfl (fun h _ => hext.qr h)
  exact ⟨ext, b, h1, h2, h3⟩

end Update
end Vio
