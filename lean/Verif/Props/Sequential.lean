/-
C130, C131: measurements in one batch or one after the other, and the common scale of all variances.
-/
import Verif.Props.Correction

set_option linter.unusedSectionVars false

namespace Vio

open Matrix Update Spec

namespace Lin

/-- The residual column. -/
def res (a : DMat ℝ) (n m : Nat) : Matrix (Fin m) (Fin 1) ℝ := Matrix.of fun i _ => a.e i n

/-- The filter step in information form, which has one solution only: `C (1 + Hᵀ H P / R) = P` and `d = C Hᵀ r / R`. -/
structure Info {n m : Nat} (P : Matrix (Fin n) (Fin n) ℝ) (H : Matrix (Fin m) (Fin n) ℝ) (R : ℝ) (r : Matrix (Fin m) (Fin 1) ℝ) (C : Matrix (Fin n) (Fin n) ℝ) (d : Matrix (Fin n) (Fin 1) ℝ) : Prop where
  cov : C * (1 + R⁻¹ • (Hᵀ * H * P)) = P
  dx : d = R⁻¹ • (C * (Hᵀ * r))
  inv : ∃ N, (1 + R⁻¹ • (Hᵀ * H * P)) * N = 1

theorem Info.unique {n m m' : Nat} {P : Matrix (Fin n) (Fin n) ℝ} {H : Matrix (Fin m) (Fin n) ℝ} {H' : Matrix (Fin m') (Fin n) ℝ} {R : ℝ} {r : Matrix (Fin m) (Fin 1) ℝ} {r' : Matrix (Fin m') (Fin 1) ℝ}
    {C C' : Matrix (Fin n) (Fin n) ℝ} {d d' : Matrix (Fin n) (Fin 1) ℝ} (h : Info P H R r C d) (h' : Info P H' R r' C' d') (e1 : Hᵀ * H = H'ᵀ * H') (e2 : Hᵀ * r = H'ᵀ * r') : C = C' ∧ d = d' := by
  obtain ⟨N, hN⟩ := h.inv
  have hc : C = C' := by
    have h2 := h'.cov
    rw [← e1] at h2
    calc C = C * ((1 + R⁻¹ • (Hᵀ * H * P)) * N) := by rw [hN, Matrix.mul_one]
      _ = C' * ((1 + R⁻¹ • (Hᵀ * H * P)) * N) := by rw [← Matrix.mul_assoc, ← Matrix.mul_assoc, h.cov, h2]
      _ = C' := by rw [hN, Matrix.mul_one]
  exact ⟨hc, by rw [h.dx, h'.dx, e2, hc]⟩

/-- The filter step of the code has the information form. -/
theorem kalman_info (ext : Ext ℝ) (hext : GoodExt ext) (noise : ℝ) (hn : 1 / 10000000000 < noise * noise) (P a : DMat ℝ) (n m : Nat) (h1 : P.rows = n) (h2 : P.cols = n) (h3 : a.rows = m)
    (h4 : a.cols = n + 1) (hP : (P.toM n n).PosSemidef) :
    ∃ k, kalman ext noise P a = .ok k ∧ k.cov.rows = n ∧ k.cov.cols = n ∧ (k.cov.toM n n).PosSemidef ∧ Info (P.toM n n) (a.toM m n) (noise * noise) (res a n m) (k.cov.toM n n) (k.dx.toM n 1) := by
  obtain ⟨k, X, hk, hXt, hPt, hX, hX', hG, hC, hd⟩ := kalman_exact ext hext noise hn P a n m h1 h2 h3 h4 hP
  obtain ⟨k', hk', c1, c2, -, -, hpsd, -⟩ := C44_kalman ext hext noise P a n m h1 h2 h3 h4 hP
  obtain rfl : k = k' := by rw [hk] at hk'; cases hk'; rfl
  have hR : noise * noise ≠ 0 := (lt_trans (by norm_num) hn).ne'
  refine ⟨k, hk, c1, c2, hpsd, ?_⟩
  have hd' : k.dx.toM n 1 = k.gain.toM n m * res a n m := hd
  generalize k.dx.toM n 1 = d at *
  generalize k.cov.toM n n = C at *
  generalize k.gain.toM n m = G at *
  generalize P.toM n n = P at *
  generalize a.toM m n = H at *
  generalize noise * noise = R at *
  have e1 : C * Hᵀ = R • G := by
    have : C * Hᵀ = P * Hᵀ * (X * (H * (P * Hᵀ) + R • 1)) - P * Hᵀ * X * (H * (P * Hᵀ)) := by
      rw [hX, hC, hG, Matrix.sub_mul, Matrix.sub_mul, Matrix.one_mul, Matrix.mul_one]
      simp only [Matrix.mul_assoc]
    rw [this, Matrix.mul_add, Matrix.mul_add, hG, Matrix.mul_smul, Matrix.mul_smul, Matrix.mul_one]
    simp only [Matrix.mul_assoc]
    abel
  have e2 : G = R⁻¹ • (C * Hᵀ) := by rw [e1, smul_smul, inv_mul_cancel₀ hR, one_smul]
  refine ⟨?_, ?_, 1 - Hᵀ * X * H * P, ?_⟩
  · rw [Matrix.mul_add, Matrix.mul_one, Matrix.mul_smul, ← Matrix.mul_assoc, ← Matrix.mul_assoc, ← Matrix.smul_mul, ← Matrix.smul_mul, ← e2]
    nth_rewrite 1 [hC]
    rw [Matrix.sub_mul, Matrix.one_mul]
    abel
  · rw [hd', e2, Matrix.smul_mul, Matrix.mul_assoc]
  · have e3 : H * P * Hᵀ * X = 1 - R • X := by
      rw [← hX', Matrix.add_mul, Matrix.smul_mul, Matrix.one_mul, Matrix.mul_assoc H P]
      abel
    have e4 : R⁻¹ • (Hᵀ * H * P) * (Hᵀ * X * H * P) = R⁻¹ • (Hᵀ * (H * P * Hᵀ * X) * H * P) := by
      rw [Matrix.smul_mul]
      simp only [Matrix.mul_assoc]
    rw [Matrix.add_mul, Matrix.one_mul, Matrix.mul_sub, Matrix.mul_one, e4, e3, Matrix.mul_sub, Matrix.mul_one, Matrix.sub_mul, Matrix.sub_mul, smul_sub, Matrix.mul_smul, Matrix.smul_mul, Matrix.smul_mul,
      smul_smul, inv_mul_cancel₀ hR, one_smul]
    abel

/-- `a` is `b` on top of `c`. -/
structure Stacked (a b c : DMat ℝ) (n m1 m2 : Nat) : Prop where
  rows : a.rows = m1 + m2
  cols : a.cols = n + 1
  rows1 : b.rows = m1
  cols1 : b.cols = n + 1
  rows2 : c.rows = m2
  cols2 : c.cols = n + 1
  top : ∀ i < m1, ∀ j ≤ n, a.e i j = b.e i j
  bottom : ∀ i < m2, ∀ j ≤ n, a.e (m1 + i) j = c.e i j

theorem Stacked.mul {a b c : DMat ℝ} {n m1 m2 : Nat} (h : Stacked a b c n m1 m2) : (a.toM (m1 + m2) n)ᵀ * a.toM (m1 + m2) n = (b.toM m1 n)ᵀ * b.toM m1 n + (c.toM m2 n)ᵀ * c.toM m2 n ∧
    (a.toM (m1 + m2) n)ᵀ * res a n (m1 + m2) = (b.toM m1 n)ᵀ * res b n m1 + (c.toM m2 n)ᵀ * res c n m2 := by
  constructor <;>
  · ext i j
    simp only [Matrix.mul_apply, Matrix.add_apply, Matrix.transpose_apply, DMat.toM, Matrix.of_apply, res, Fin.sum_univ_add, Fin.val_castAdd, Fin.val_natAdd]
    congr 1 <;> refine Finset.sum_congr rfl fun x _ => ?_
    · rw [h.top x x.2 i (by omega), h.top x x.2 _ (by omega)]
    · rw [h.bottom x x.2 i (by omega), h.bottom x x.2 _ (by omega)]

end Lin
open Lin

/-- C130: the filter step on two blocks of measurements at once gives the same covariance and the same correction as one step on the first block and then one on the second, with the residual of the second
block reduced by what the first correction predicts.  For every linear algebra library that meets its contract, also for singular covariances. -/
theorem C130_sequential (ext : Ext ℝ) (hext : GoodExt ext) (noise : ℝ) (hn : 1 / 10000000000 < noise * noise) (P a b c : DMat ℝ) (n m1 m2 : Nat) (h1 : P.rows = n) (h2 : P.cols = n)
    (hs : Stacked a b c n m1 m2) (hP : (P.toM n n).PosSemidef) :
    ∃ k k1 k2, kalman ext noise P a = .ok k ∧ kalman ext noise P b = .ok k1 ∧ kalman ext noise k1.cov (withRes c n fun i => c.e i n - ∑ j : Fin n, c.e i j * k1.dx.e j 0) = .ok k2 ∧
      k.cov.toM n n = k2.cov.toM n n ∧ ∀ i < n, k.dx.e i 0 = k1.dx.e i 0 + k2.dx.e i 0 := by
  obtain ⟨k, hk, -, -, -, i0⟩ := kalman_info ext hext noise hn P a n (m1 + m2) h1 h2 hs.rows hs.cols hP
  obtain ⟨k1, hk1, q1, q2, q3, i1⟩ := kalman_info ext hext noise hn P b n m1 h1 h2 hs.rows1 hs.cols1 hP
  have hw := withRes_same hs.rows2 hs.cols2 (fun i => c.e i n - ∑ j : Fin n, c.e i j * k1.dx.e j 0)
  obtain ⟨k2, hk2, -, -, -, i2⟩ := kalman_info ext hext noise hn k1.cov _ n m2 q1 q2 hw.rows' hw.cols' q3
  have eH : (withRes c n fun i => c.e i n - ∑ j : Fin n, c.e i j * k1.dx.e j 0).toM m2 n = c.toM m2 n := by
    ext i j; exact (hw.h i i.2 j j.2).symm
  have er : res (withRes c n fun i => c.e i n - ∑ j : Fin n, c.e i j * k1.dx.e j 0) n m2 = res c n m2 - c.toM m2 n * k1.dx.toM n 1 := by
    ext i j
    simp [res, withRes, Matrix.mul_apply, DMat.toM]
  rw [eH, er] at i2
  refine ⟨k, k1, k2, hk, hk1, hk2, ?_⟩
  suffices h : k.cov.toM n n = k2.cov.toM n n ∧ k.dx.toM n 1 = k1.dx.toM n 1 + k2.dx.toM n 1 from
    ⟨h.1, fun i hi => congrFun (congrFun h.2 ⟨i, hi⟩) 0⟩
  obtain ⟨s1, s2⟩ := hs.mul
  obtain ⟨a1, a2, N, hN⟩ := i0
  obtain ⟨b1, b2, -⟩ := i1
  obtain ⟨c1, c2, -⟩ := i2
  generalize k.dx.toM n 1 = d at *
  generalize k1.dx.toM n 1 = d1 at *
  generalize k2.dx.toM n 1 = d2 at *
  generalize k.cov.toM n n = C at *
  generalize k1.cov.toM n n = C1 at *
  generalize k2.cov.toM n n = C2 at *
  rw [s1] at a1 hN
  rw [s2] at a2
  generalize P.toM n n = P at *
  generalize b.toM m1 n = B at *
  generalize c.toM m2 n = D at *
  generalize res b n m1 = rb at *
  generalize res c n m2 = rc at *
  generalize (noise * noise)⁻¹ = S at *
  have e : C2 * (1 + S • ((Bᵀ * B + Dᵀ * D) * P)) = P := by
    calc C2 * (1 + S • ((Bᵀ * B + Dᵀ * D) * P)) = C2 * (1 + S • (Dᵀ * D * C1)) * (1 + S • (Bᵀ * B * P)) + C2 * (S • (Dᵀ * D * (P - C1 * (1 + S • (Bᵀ * B * P))))) := by
          simp only [Matrix.mul_add, Matrix.add_mul, Matrix.mul_sub, Matrix.mul_one, Matrix.mul_smul, Matrix.smul_mul, smul_add, smul_sub, Matrix.mul_assoc, smul_smul]
          abel
      _ = P := by rw [c1, b1, sub_self, Matrix.mul_zero, smul_zero, Matrix.mul_zero, add_zero]
  have hc : C = C2 := by
    calc C = C * ((1 + S • ((Bᵀ * B + Dᵀ * D) * P)) * N) := by rw [hN, Matrix.mul_one]
      _ = C2 * ((1 + S • ((Bᵀ * B + Dᵀ * D) * P)) * N) := by rw [← Matrix.mul_assoc, ← Matrix.mul_assoc, a1, e]
      _ = C2 := by rw [hN, Matrix.mul_one]
  refine ⟨hc, ?_⟩
  have e1 : C1 = C2 + S • (C2 * (Dᵀ * D * C1)) := by
    rw [← Matrix.mul_smul]
    nth_rewrite 1 [← c1]
    rw [Matrix.mul_add, Matrix.mul_one]
  have e2 : d1 = S • (C2 * (Bᵀ * rb)) + S • (C2 * (Dᵀ * (D * d1))) := by
    nth_rewrite 1 [b2]
    nth_rewrite 1 [e1]
    nth_rewrite 1 [b2]
    simp only [Matrix.add_mul, Matrix.smul_mul, Matrix.mul_smul, smul_add, Matrix.mul_assoc]
  rw [a2, hc, c2, Matrix.mul_sub, Matrix.mul_sub, smul_sub]
  nth_rewrite 1 [e2]
  rw [Matrix.mul_add, smul_add]
  abel

/-- C131: only ratios of variances matter: with every variance of the state multiplied by `s` and the noise variance too, the correction is the same and the covariance is multiplied by `s`, as long as both
noises are above the cut-off of the inverse. -/
theorem C131_scale (ext : Ext ℝ) (hext : GoodExt ext) (s noise noise' : ℝ) (hs : 0 < s) (hn : 1 / 10000000000 < noise * noise) (hn' : 1 / 10000000000 < noise' * noise') (hR : noise' * noise' = s * (noise * noise))
    (P P' a : DMat ℝ) (n m : Nat) (h1 : P.rows = n) (h2 : P.cols = n) (h1' : P'.rows = n) (h2' : P'.cols = n) (h3 : a.rows = m) (h4 : a.cols = n + 1) (hP : (P.toM n n).PosSemidef)
    (hP' : ∀ i < n, ∀ j < n, P'.e i j = s * P.e i j) :
    ∃ k k', kalman ext noise P a = .ok k ∧ kalman ext noise' P' a = .ok k' ∧ (∀ i < n, k'.dx.e i 0 = k.dx.e i 0) ∧ ∀ i < n, ∀ j < n, k'.cov.e i j = s * k.cov.e i j := by
  have e : P'.toM n n = s • P.toM n n := by
    ext i j
    simpa [DMat.toM] using hP' i i.2 j j.2
  obtain ⟨k, hk, -, -, -, i1⟩ := kalman_info ext hext noise hn P a n m h1 h2 h3 h4 hP
  obtain ⟨k', hk', -, -, -, i2⟩ := kalman_info ext hext noise' hn' P' a n m h1' h2' h3 h4 (by rw [e]; exact hP.smul hs.le)
  have hR0 : noise * noise ≠ 0 := (lt_trans (by norm_num) hn).ne'
  rw [e, hR] at i2
  have hz : (s * (noise * noise))⁻¹ * s = (noise * noise)⁻¹ := by field_simp
  have i3 : Info (P.toM n n) (a.toM m n) (noise * noise) (res a n m) (s⁻¹ • k'.cov.toM n n) (k'.dx.toM n 1) := by
    refine ⟨?_, ?_, ?_⟩
    · have := i2.cov
      rw [Matrix.mul_smul _ s, smul_smul, hz] at this
      rw [Matrix.smul_mul, this, smul_smul, inv_mul_cancel₀ hs.ne', one_smul]
    · rw [i2.dx, Matrix.smul_mul, smul_smul, mul_inv, mul_comm s⁻¹]
    · obtain ⟨N, hN⟩ := i2.inv
      rw [Matrix.mul_smul _ s, smul_smul, hz] at hN
      exact ⟨N, hN⟩
  obtain ⟨j1, j2⟩ := i3.unique i1 rfl rfl
  refine ⟨k, k', hk, hk', fun i hi => congrFun (congrFun j2 ⟨i, hi⟩) 0, fun i hi j hj => ?_⟩
  have := congrFun (congrFun j1 ⟨i, hi⟩) ⟨j, hj⟩
  have h5 : s⁻¹ * k'.cov.e i j = k.cov.e i j := this
  rw [← h5]
  field_simp

/-- C130 and C131 for one state of variance 1 and two measurements of it. -/
example : ∃ ext : Ext ℝ, GoodExt ext ∧
    (∃ k k1 k2, kalman ext 1 (.ident 1) ⟨2, 2, fun i j => if j = 0 then 1 else i + 1⟩ = .ok k ∧ kalman ext 1 (.ident 1) ⟨1, 2, fun _ _ => 1⟩ = .ok k1 ∧
      kalman ext 1 k1.cov (withRes ⟨1, 2, fun _ j => if j = 0 then 1 else 2⟩ 1 fun _ => (if 1 = 0 then 1 else 2) - ∑ j : Fin 1, (if (j : Nat) = 0 then 1 else 2) * k1.dx.e j 0) = .ok k2 ∧
      k.cov.toM 1 1 = k2.cov.toM 1 1 ∧ ∀ i < 1, k.dx.e i 0 = k1.dx.e i 0 + k2.dx.e i 0) ∧
    ∃ k k', kalman ext 1 (.ident 1) ⟨1, 2, fun _ _ => 1⟩ = .ok k ∧ kalman ext 2 ⟨1, 1, fun _ _ => 4⟩ ⟨1, 2, fun _ _ => 1⟩ = .ok k' ∧ (∀ i < 1, k'.dx.e i 0 = k.dx.e i 0) ∧
      ∀ i < 1, ∀ j < 1, k'.cov.e i j = 4 * k.cov.e i j := by
  obtain ⟨ext, hext, -⟩ := exists_goodExt ⟨fun _ _ => 0, fun _ v => v, fun _ _ => ⟨0, 0⟩, fun _ _ _ => 0, fun _ _ => 0, fun _ _ _ => 0⟩
  have hI : (DMat.ident 1 : DMat ℝ).toM 1 1 = 1 := by
    ext i j
    fin_cases i; fin_cases j
    simp [DMat.toM, DMat.ident]
  have hp : ((DMat.ident 1 : DMat ℝ).toM 1 1).PosSemidef := by rw [hI]; exact Matrix.PosSemidef.one
  refine ⟨ext, hext, ?_, ?_⟩
  · refine C130_sequential ext hext 1 (by norm_num) (.ident 1) ⟨2, 2, fun i j => if j = 0 then 1 else i + 1⟩ ⟨1, 2, fun _ _ => 1⟩ ⟨1, 2, fun _ j => if j = 0 then 1 else 2⟩ 1 1 1 rfl rfl
      ⟨rfl, rfl, rfl, rfl, rfl, rfl, ?_, ?_⟩ hp
    · intro i hi j hj
      obtain rfl : i = 0 := by omega
      simp
    · intro i hi j hj
      obtain rfl : i = 0 := by omega
      dsimp only
      split <;> norm_num
  · refine C131_scale ext hext 4 1 2 (by norm_num) (by norm_num) (by norm_num) (by norm_num) (.ident 1) ⟨1, 1, fun _ _ => 4⟩ ⟨1, 2, fun _ _ => 1⟩ 1 1 rfl rfl rfl rfl rfl rfl hp ?_
    intro i hi j hj
    obtain rfl : i = 0 := by omega
    obtain rfl : j = 0 := by omega
    simp [DMat.ident]

end Vio
