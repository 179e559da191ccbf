import Verif.Props.KalmanOpt
import Verif.Lemmas.Decomp
import Mathlib.LinearAlgebra.Matrix.PosDef

/-!
C128: the filter update is linear in the residual, and the covariance and the gain do not depend on it. In particular no measurement is turned down for being surprising: the code has no consistency test of
the residual against its covariance, and the correction grows with the residual without a bound.
-/

namespace Vio
set_option linter.unusedSectionVars false

open Matrix

namespace Lin

/-- Two stacked systems [H | r] with the same Jacobian H. -/
structure SameH (n m : Nat) (a b : DMat ℝ) : Prop where
  rows : a.rows = m
  cols : a.cols = n + 1
  rows' : b.rows = m
  cols' : b.cols = n + 1
  h : ∀ i < m, ∀ j < n, a.e i j = b.e i j

/-- The system with the Jacobian of `a` and the residual `r`. -/
def withRes (a : DMat ℝ) (n : Nat) (r : Nat → ℝ) : DMat ℝ := ⟨a.rows, a.cols, fun i j => if j = n then r i else a.e i j⟩

theorem withRes_same {a : DMat ℝ} {n m : Nat} (h1 : a.rows = m) (h2 : a.cols = n + 1) (r : Nat → ℝ) : SameH n m a (withRes a n r) :=
  ⟨h1, h2, h1, h2, fun i _ j hj => by simp [withRes, Nat.ne_of_lt hj]⟩

end Lin
open Lin Update Spec

/-- C128: with the same covariance and Jacobian, two residuals give the same gain and the same covariance, and the corrections are that gain times the residual. For every linear algebra library that meets its
contract. -/
theorem C128_gain (ext : Ext ℝ) (hext : GoodExt ext) (noise : ℝ) (hn : 1 / 10000000000 < noise * noise) (P a : DMat ℝ) (n m : Nat) (h1 : P.rows = n) (h2 : P.cols = n) (h3 : a.rows = m) (h4 : a.cols = n + 1)
    (hP : (P.toM n n).PosSemidef) :
    ∃ (G : Matrix (Fin n) (Fin m) ℝ) (C : Matrix (Fin n) (Fin n) ℝ), ∀ r : Nat → ℝ, ∃ k, kalman ext noise P (withRes a n r) = .ok k ∧ k.gain.toM n m = G ∧ k.cov.toM n n = C ∧
      ∀ i : Fin n, k.dx.e i 0 = ∑ j : Fin m, G i j * r j := by
  obtain ⟨k0, X, -, -, -, hX, -, hG, hC, -⟩ := kalman_exact ext hext noise hn P a n m h1 h2 h3 h4 hP
  refine ⟨k0.gain.toM n m, k0.cov.toM n n, fun r => ?_⟩
  have hs := withRes_same h3 h4 r
  obtain ⟨k, Y, hk, -, -, -, hY, hG', hC', hd⟩ := kalman_exact ext hext noise hn P (withRes a n r) n m h1 h2 hs.rows' hs.cols' hP
  have hH : (withRes a n r).toM m n = a.toM m n := by
    ext i j
    exact (hs.h i i.2 j j.2).symm
  rw [hH] at hY hG' hC'
  have hXY : X = Y := by
    calc X = X * ((a.toM m n * (P.toM n n * (a.toM m n)ᵀ) + (noise * noise) • (1 : Matrix (Fin m) (Fin m) ℝ)) * Y) := by rw [hY, Matrix.mul_one]
      _ = Y := by rw [← Matrix.mul_assoc, hX, Matrix.one_mul]
  have hg : k.gain.toM n m = k0.gain.toM n m := by rw [hG', hG, hXY]
  refine ⟨k, hk, hg, by rw [hC', hC, hg], fun i => ?_⟩
  have := congrFun (congrFun hd i) 0
  rw [hg] at this
  simpa [DMat.toM, Matrix.mul_apply, withRes] using this

/-- C128: the correction is linear: the correction for r + c s is the one for r plus c times the one for s. -/
theorem C128_linear (ext : Ext ℝ) (hext : GoodExt ext) (noise : ℝ) (hn : 1 / 10000000000 < noise * noise) (P a : DMat ℝ) (n m : Nat) (h1 : P.rows = n) (h2 : P.cols = n) (h3 : a.rows = m)
    (h4 : a.cols = n + 1) (hP : (P.toM n n).PosSemidef) (r s : Nat → ℝ) (c : ℝ) :
    ∃ kr ks k, kalman ext noise P (withRes a n r) = .ok kr ∧ kalman ext noise P (withRes a n s) = .ok ks ∧ kalman ext noise P (withRes a n fun i => r i + c * s i) = .ok k ∧
      (∀ i < n, k.dx.e i 0 = kr.dx.e i 0 + c * ks.dx.e i 0) ∧ k.cov.toM n n = kr.cov.toM n n := by
  obtain ⟨G, C, h⟩ := C128_gain ext hext noise hn P a n m h1 h2 h3 h4 hP
  obtain ⟨kr, e1, -, c1, d1⟩ := h r
  obtain ⟨ks, e2, -, -, d2⟩ := h s
  obtain ⟨k, e3, -, c3, d3⟩ := h fun i => r i + c * s i
  refine ⟨kr, ks, k, e1, e2, e3, fun i hi => ?_, by rw [c3, c1]⟩
  have x1 := d1 ⟨i, hi⟩
  have x2 := d2 ⟨i, hi⟩
  have x3 := d3 ⟨i, hi⟩
  dsimp only at x1 x2 x3
  rw [x1, x2, x3, Finset.mul_sum, ← Finset.sum_add_distrib]
  exact Finset.sum_congr rfl fun j _ => by ring

/-- C128: when the measurements tell anything about the state, that is when P Hᵀ is not zero, some residual moves the state further than any bound, and leaves the same covariance as a residual of zero: no
measurement is turned down, and the filter is as sure of itself as before. -/
theorem C128_unbounded (ext : Ext ℝ) (hext : GoodExt ext) (noise : ℝ) (hn : 1 / 10000000000 < noise * noise) (P a : DMat ℝ) (n m : Nat) (h1 : P.rows = n) (h2 : P.cols = n) (h3 : a.rows = m)
    (h4 : a.cols = n + 1) (hP : (P.toM n n).PosSemidef) (hinf : P.toM n n * (a.toM m n)ᵀ ≠ 0) :
    ∃ i < n, ∀ B : ℝ, ∃ (r : Nat → ℝ) (k k0 : Kalman ℝ), kalman ext noise P (withRes a n r) = .ok k ∧ kalman ext noise P (withRes a n fun _ => 0) = .ok k0 ∧ B < k.dx.e i 0 ∧ k0.dx.e i 0 = 0 ∧
      k.cov.toM n n = k0.cov.toM n n := by
  obtain ⟨k', X, hk', -, -, hX, -, hG', -, -⟩ := kalman_exact ext hext noise hn P a n m h1 h2 h3 h4 hP
  obtain ⟨G, C, h⟩ := C128_gain ext hext noise hn P a n m h1 h2 h3 h4 hP
  have hG : G = P.toM n n * (a.toM m n)ᵀ * X := by
    obtain ⟨k, hk, hg, -, -⟩ := h fun i => a.e i n
    have ha : withRes a n (fun i => a.e i n) = a := by
      unfold withRes
      cases a
      congr 1
      funext i j
      dsimp only
      split
      · next h => rw [h]
      · rfl
    rw [ha, hk'] at hk
    cases hk
    rw [← hg, hG']
  have hne : G ≠ 0 := by
    intro h0
    apply hinf
    have : P.toM n n * (a.toM m n)ᵀ = G * (a.toM m n * (P.toM n n * (a.toM m n)ᵀ) + (noise * noise) • (1 : Matrix (Fin m) (Fin m) ℝ)) := by rw [hG, Matrix.mul_assoc _ X, hX, Matrix.mul_one]
    rw [this, h0, Matrix.zero_mul]
  obtain ⟨i, j, hij⟩ : ∃ i j, G i j ≠ 0 := by
    by_contra hc
    push Not at hc
    exact hne (by ext i j; exact hc i j)
  refine ⟨i, i.2, fun B => ?_⟩
  obtain ⟨k, e1, -, c1, d1⟩ := h fun l => if l = j.val then (B + 1) / G i j else 0
  obtain ⟨k0, e0, -, c0, d0⟩ := h fun _ => 0
  refine ⟨_, k, k0, e1, e0, ?_, by rw [d0]; simp, by rw [c1, c0]⟩
  have : k.dx.e i 0 = B + 1 := by
    rw [d1, Finset.sum_eq_single j]
    · rw [if_pos rfl]; field_simp
    · intro l _ hl
      rw [if_neg (fun h => hl (Fin.ext h)), mul_zero]
    · simp
  rw [this]; linarith

/-- The hypotheses are met: one state of variance 1, one measurement of it. -/
example : ∃ ext : Ext ℝ, GoodExt ext ∧ ∃ i < 1, ∀ B : ℝ, ∃ (r : Nat → ℝ) (k k0 : Kalman ℝ), kalman ext 1 (DMat.ident 1) (withRes ⟨1, 2, fun _ _ => 1⟩ 1 r) = .ok k ∧
    kalman ext 1 (DMat.ident 1) (withRes ⟨1, 2, fun _ _ => 1⟩ 1 fun _ => 0) = .ok k0 ∧ B < k.dx.e i 0 ∧ k0.dx.e i 0 = 0 ∧ k.cov.toM 1 1 = k0.cov.toM 1 1 := by
  obtain ⟨ext, hext, -⟩ := exists_goodExt ⟨fun _ _ => 0, fun _ v => v, fun _ _ => ⟨0, 0⟩, fun _ _ _ => 0, fun _ _ => 0, fun _ _ _ => 0⟩
  have hI : (DMat.ident 1 : DMat ℝ).toM 1 1 = 1 := by
    ext i j
    fin_cases i; fin_cases j
    simp [DMat.toM, DMat.ident]
  refine ⟨ext, hext, C128_unbounded ext hext 1 (by norm_num) (DMat.ident 1) ⟨1, 2, fun _ _ => 1⟩ 1 1 rfl rfl rfl rfl ?_ ?_⟩
  · rw [hI]; exact Matrix.PosSemidef.one
  · rw [hI, Matrix.one_mul]
    intro h0
    have := congrFun (congrFun h0 0) 0
    simp [DMat.toM] at this

end Vio
