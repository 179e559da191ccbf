/-
C93: the angles of `QuaternionToEuler`.
-/
import Verif.Spec.Euler
import Verif.Lemmas.Quat
import Mathlib.Analysis.SpecialFunctions.Complex.Arg
import Mathlib.Analysis.SpecialFunctions.Trigonometric.Inverse
import Mathlib.Analysis.Real.Pi.Bounds
import Mathlib.Tactic.LinearCombination

namespace Vio.Utility
open Vio.Spec

/-- The number that the code multiplies angles with. -/
noncomputable def perRadian : ℝ := 57.295779579

theorem atan2_trig (y x c : ℝ) (hc : 0 < c) (h : x ^ 2 + y ^ 2 = c ^ 2) : c * Real.cos (ScalarFn.atan2 y x) = x ∧ c * Real.sin (ScalarFn.atan2 y x) = y := by
  have hn : ‖(⟨x, y⟩ : ℂ)‖ = c := by
    rw [Complex.norm_def, Complex.normSq_mk, show x * x + y * y = c ^ 2 by rw [← h]; ring, Real.sqrt_sq hc.le]
  have hne : (⟨x, y⟩ : ℂ) ≠ 0 := by rw [← norm_pos_iff, hn]; exact hc
  rw [ScalarFn.atan2_real, Complex.cos_arg hne, Complex.sin_arg, hn]
  exact ⟨mul_div_cancel₀ _ hc.ne', mul_div_cancel₀ _ hc.ne'⟩

/-- C93: for a unit quaternion that does not point the first axis straight up or down, turning by the three angles about the fixed axes, in the order of their names, gives its rotation.  The
angles are the results divided by the constant of the code. -/
theorem C93_euler (q : Quat ℝ) (h : q.sqNorm = 1) (hg : (q.toMat.r2.x) ^ 2 ≠ 1) :
    eulerMat ((quatToEuler q).x / perRadian) ((quatToEuler q).y / perRadian) ((quatToEuler q).z / perRadian) = q.toMat := by
  have hk : (perRadian : ℝ) ≠ 0 := by norm_num [perRadian]
  have hlit : (lit (57295779579/1000000000) : ℝ) = perRadian := by simp only [ScalarFn.lit_real, perRadian]; norm_num
  have e : (quatToEuler q).x / perRadian = ScalarFn.atan2 q.toMat.r2.y q.toMat.r2.z ∧ (quatToEuler q).y / perRadian = Real.arcsin (-q.toMat.r2.x) ∧
      (quatToEuler q).z / perRadian = ScalarFn.atan2 q.toMat.r1.x q.toMat.r0.x := by
    unfold quatToEuler
    rw [Quat.inverse_of_unit q h, hlit]
    dsimp only
    rw [mul_div_cancel_right₀ _ hk, mul_div_cancel_right₀ _ hk, mul_div_cancel_right₀ _ hk]
    refine ⟨?_, ?_, ?_⟩
    · simp only [Quat.toMat]; congr 1 <;> ring
    · simp only [Quat.toMat, ScalarFn.asin_real]; congr 1; ring
    · simp only [Quat.toMat]; congr 1 <;> ring
  obtain ⟨e1, e2, e3⟩ := e
  rw [e1, e2, e3]
  have hu : q.w ^ 2 + q.x ^ 2 + q.y ^ 2 + q.z ^ 2 = 1 := by rw [← h]; simp only [Quat.sqNorm]; ring
  have hw : q.w ^ 2 = 1 - q.x ^ 2 - q.y ^ 2 - q.z ^ 2 := by linarith
  have c1 : q.toMat.r0.x ^ 2 + q.toMat.r1.x ^ 2 + q.toMat.r2.x ^ 2 = 1 := by
    simp only [Quat.toMat, ScalarFn.lit_real]; push_cast; ring_nf; rw [hw]; ring
  have c2 : q.toMat.r2.z ^ 2 + q.toMat.r2.y ^ 2 + q.toMat.r2.x ^ 2 = 1 := by
    simp only [Quat.toMat, ScalarFn.lit_real]; push_cast; ring_nf; rw [hw]; ring
  have c3 : q.toMat.r0.x * q.toMat.r2.x + q.toMat.r0.y * q.toMat.r2.y + q.toMat.r0.z * q.toMat.r2.z = 0 := by
    simp only [Quat.toMat, ScalarFn.lit_real]; push_cast; linear_combination (-4 * q.x * q.z) * hu
  have c4 : q.toMat.r1.x * q.toMat.r2.x + q.toMat.r1.y * q.toMat.r2.y + q.toMat.r1.z * q.toMat.r2.z = 0 := by
    simp only [Quat.toMat, ScalarFn.lit_real]; push_cast; linear_combination (-4 * q.y * q.z) * hu
  have c5 : q.toMat.r0.x = q.toMat.r1.y * q.toMat.r2.z - q.toMat.r1.z * q.toMat.r2.y := by
    simp only [Quat.toMat, ScalarFn.lit_real]; push_cast; linear_combination (-4 * q.x ^ 2) * hu
  have c6 : q.toMat.r1.x = q.toMat.r2.y * q.toMat.r0.z - q.toMat.r2.z * q.toMat.r0.y := by
    simp only [Quat.toMat, ScalarFn.lit_real]; push_cast; linear_combination (-4 * q.x * q.y) * hu
  generalize q.toMat = m at *
  obtain ⟨⟨a, b, c⟩, ⟨d, f, g⟩, ⟨i, j, k⟩⟩ := m
  dsimp only at *
  have hi : i ^ 2 ≤ 1 := by nlinarith [sq_nonneg k, sq_nonneg j]
  have hi1 : -1 ≤ -i ∧ -i ≤ 1 := by constructor <;> nlinarith
  have hs : Real.sin (Real.arcsin (-i)) = -i := Real.sin_arcsin hi1.1 hi1.2
  have hcos : Real.cos (Real.arcsin (-i)) = Real.sqrt (1 - (-i) ^ 2) := Real.cos_arcsin _
  have hpos : 0 < 1 - (-i) ^ 2 := by
    rcases lt_or_eq_of_le hi with h | h
    · linarith [show (-i) ^ 2 = i ^ 2 by ring]
    · exact absurd h hg
  have hcp : 0 < Real.cos (Real.arcsin (-i)) := by rw [hcos]; exact Real.sqrt_pos.2 hpos
  have hc2 : Real.cos (Real.arcsin (-i)) ^ 2 = 1 - i ^ 2 := by rw [hcos, Real.sq_sqrt hpos.le]; ring
  obtain ⟨t1, t2⟩ := atan2_trig j k _ hcp (by rw [hc2]; linarith)
  obtain ⟨t3, t4⟩ := atan2_trig d a _ hcp (by rw [hc2]; linarith)
  have u1 := Real.sin_sq_add_cos_sq (ScalarFn.atan2 j k)
  simp only [eulerMat, rotX, rotY, rotZ, Mat3.mul, Mat3.transpose, Mat3.mulVec, Vec3.dot]
  rw [hs]
  generalize Real.cos (Real.arcsin (-i)) = C at *
  generalize Real.cos (ScalarFn.atan2 j k) = cp at *
  generalize Real.sin (ScalarFn.atan2 j k) = sp at *
  generalize Real.cos (ScalarFn.atan2 d a) = cy at *
  generalize Real.sin (ScalarFn.atan2 d a) = sy at *
  subst t1 t2 t3 t4
  have v1 : b * sp + c * cp = -(cy * i) := mul_left_cancel₀ hcp.ne' (by linarith)
  have v2 : f * sp + g * cp = -(sy * i) := mul_left_cancel₀ hcp.ne' (by linarith)
  have v3 : cy = f * cp - g * sp := mul_left_cancel₀ hcp.ne' (by linarith)
  have v4 : sy = sp * c - cp * b := mul_left_cancel₀ hcp.ne' (by linarith)
  simp only [Mat3.mk.injEq, Vec3.mk.injEq]
  refine ⟨⟨by ring, ?_, ?_⟩, ⟨by ring, ?_, ?_⟩, ⟨by ring, by ring, by ring⟩⟩
  · linear_combination -sp * v1 - cp * v4 + b * u1
  · linear_combination -cp * v1 + sp * v4 + c * u1
  · linear_combination -sp * v2 + cp * v3 + f * u1
  · linear_combination -cp * v2 - sp * v3 + g * u1

theorem perRadian_pos : 0 < perRadian := by norm_num [perRadian]

/-- C93: the constant of the code is not 180/π, but an angle within half a turn comes out within 4e-7 degrees of its value in degrees. -/
theorem C93_degrees (t : ℝ) (ht : |t| ≤ Real.pi) : |t * perRadian - t * 180 / Real.pi| < 4 / 10 ^ 7 := by
  have hp := Real.pi_pos
  have h1 := Real.pi_gt_d20
  have h2 := Real.pi_lt_d20
  have e : t * perRadian - t * 180 / Real.pi = t / Real.pi * (perRadian * Real.pi - 180) := by field_simp
  have hb : |t / Real.pi| ≤ 1 := by rw [abs_div, abs_of_pos hp, div_le_one hp]; exact ht
  have hc : |perRadian * Real.pi - 180| < 4 / 10 ^ 7 := by
    rw [abs_lt]; unfold perRadian; constructor <;> norm_num at * <;> linarith
  rw [e, abs_mul]
  calc |t / Real.pi| * |perRadian * Real.pi - 180| ≤ 1 * |perRadian * Real.pi - 180| := mul_le_mul_of_nonneg_right hb (abs_nonneg _)
    _ < _ := by rw [one_mul]; exact hc

theorem C93_not_degrees : perRadian ≠ 180 / Real.pi := by
  intro h
  have hp := Real.pi_pos
  rw [eq_div_iff hp.ne'] at h
  have h1 := Real.pi_gt_d20
  unfold perRadian at h
  norm_num at *
  linarith

/-- C93: the ranges of the angles: half a turn either way for the first and the third, a quarter for the second. -/
theorem C93_range (q : Quat ℝ) : |(quatToEuler q).x| ≤ Real.pi * perRadian ∧ |(quatToEuler q).y| ≤ Real.pi / 2 * perRadian ∧ |(quatToEuler q).z| ≤ Real.pi * perRadian := by
  have hlit : (lit (57295779579/1000000000) : ℝ) = perRadian := by simp only [ScalarFn.lit_real, perRadian]; norm_num
  have hk := perRadian_pos
  unfold quatToEuler
  rw [hlit]
  dsimp only
  rw [abs_mul, abs_mul, abs_mul, abs_of_pos hk, ScalarFn.atan2_real, ScalarFn.atan2_real]
  exact ⟨mul_le_mul_of_nonneg_right (Complex.abs_arg_le_pi _) hk.le,
    mul_le_mul_of_nonneg_right (abs_le.2 ⟨Real.neg_pi_div_two_le_arcsin _, Real.arcsin_le_pi_div_two _⟩) hk.le, mul_le_mul_of_nonneg_right (Complex.abs_arg_le_pi _) hk.le⟩

/-- C93: where the first axis points straight down or up the angles do not determine the rotation: two different ones have the same angles. -/
theorem C93_gimbal_lock : ∃ a b : Quat ℝ, a.sqNorm = 1 ∧ b.sqNorm = 1 ∧ a.toMat ≠ b.toMat ∧ quatToEuler a = quatToEuler b := by
  refine ⟨⟨1/2, 1/2, -1/2, 1/2⟩, ⟨1/2, -1/2, -1/2, -1/2⟩, by norm_num [Quat.sqNorm], by norm_num [Quat.sqNorm], ?_, ?_⟩
  · intro h
    have := congrArg (fun m => m.r0.y) h
    norm_num [Quat.toMat] at this
  · unfold quatToEuler
    rw [Quat.inverse_of_unit _ (by norm_num [Quat.sqNorm]), Quat.inverse_of_unit _ (by norm_num [Quat.sqNorm])]
    norm_num [Quat.toMat]

/-- C93: the hypotheses are met by a rotation about a slanted axis. -/
example : (⟨1/2, 1/2, 1/2, 1/2⟩ : Quat ℝ).sqNorm = 1 ∧ ((⟨1/2, 1/2, 1/2, 1/2⟩ : Quat ℝ).toMat.r2.x) ^ 2 ≠ 1 ∧ |(1 : ℝ)| ≤ Real.pi := by
  refine ⟨by norm_num [Quat.sqNorm], by norm_num [Quat.toMat], ?_⟩
  rw [abs_one]; linarith [Real.pi_gt_three]

end Vio.Utility
