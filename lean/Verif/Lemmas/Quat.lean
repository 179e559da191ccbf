/-
Real quaternions and 3-vectors: the algebra behind the fixed-size model operations.
-/
import Verif.Model.Math
import Mathlib.Tactic.Ring
import Mathlib.Tactic.Linarith
import Mathlib.Tactic.FieldSimp
import Mathlib.Tactic.LinearCombination

namespace Vio

namespace Quat

theorem sqNorm_mul (a b : Quat ℝ) : (a.mul b).sqNorm = a.sqNorm * b.sqNorm := by
  simp only [mul, sqNorm]; ring

theorem sqNorm_deltaQ_pos (v : Vec3 ℝ) : 1 ≤ (Utility.deltaQ v).sqNorm := by
  simp only [Utility.deltaQ, sqNorm]
  nlinarith [mul_self_nonneg (v.sdiv (lit 2)).x, mul_self_nonneg (v.sdiv (lit 2)).y, mul_self_nonneg (v.sdiv (lit 2)).z]

theorem normalized_of_pos (q : Quat ℝ) (h : 0 < q.sqNorm) :
    q.normalized = ⟨q.w / √q.sqNorm, q.x / √q.sqNorm, q.y / √q.sqNorm, q.z / √q.sqNorm⟩ := by
  simp [normalized, h]

theorem sqNorm_normalized (q : Quat ℝ) (h : 0 < q.sqNorm) : q.normalized.sqNorm = 1 := by
  rw [normalized_of_pos q h]
  have hs := Real.sq_sqrt h.le
  have h0 : √q.sqNorm ≠ 0 := (Real.sqrt_pos.2 h).ne'
  have e : q.sqNorm = q.w * q.w + q.x * q.x + q.y * q.y + q.z * q.z := rfl
  generalize √q.sqNorm = r at hs h0
  rw [e] at hs
  show q.w / r * (q.w / r) + q.x / r * (q.x / r) + q.y / r * (q.y / r) + q.z / r * (q.z / r) = 1
  field_simp
  nlinarith

theorem normalized_of_unit (q : Quat ℝ) (h : q.sqNorm = 1) : q.normalized = q := by
  rw [normalized_of_pos q (by rw [h]; norm_num), h]
  simp

theorem inverse_of_unit (q : Quat ℝ) (h : q.sqNorm = 1) : q.inverse = ⟨q.w, -q.x, -q.y, -q.z⟩ := by
  simp [inverse, h]

theorem sqNorm_inverse_of_unit (q : Quat ℝ) (h : q.sqNorm = 1) : q.inverse.sqNorm = 1 := by
  rw [inverse_of_unit q h]
  simp only [sqNorm] at h ⊢
  linarith

theorem one_mul' (q : Quat ℝ) : (Quat.one : Quat ℝ).mul q = q := by
  apply Quat.ext <;> simp [one, mul]
theorem mul_one' (q : Quat ℝ) : q.mul (Quat.one : Quat ℝ) = q := by
  apply Quat.ext <;> simp [one, mul]
theorem mul_assoc' (a b c : Quat ℝ) : (a.mul b).mul c = a.mul (b.mul c) := by
  apply Quat.ext <;> simp only [mul] <;> ring
theorem inverse_mul_of_unit (q : Quat ℝ) (h : q.sqNorm = 1) : q.inverse.mul q = Quat.one := by
  rw [inverse_of_unit q h]
  simp only [sqNorm] at h
  apply Quat.ext <;> simp only [mul, one] <;> linarith
theorem mul_inverse_of_unit (q : Quat ℝ) (h : q.sqNorm = 1) : q.mul q.inverse = Quat.one := by
  rw [inverse_of_unit q h]
  simp only [sqNorm] at h
  apply Quat.ext <;> simp only [mul, one] <;> linarith

/-- `toRotationMatrix` and `_transformVector` agree, for every quaternion. -/
theorem toMat_mulVec (q : Quat ℝ) (v : Vec3 ℝ) : q.toMat.mulVec v = q.rotate v := by
  apply Vec3.ext <;>
    simp only [toMat, Mat3.mulVec, Vec3.dot, rotate, vec, Vec3.cross, Vec3.add_x, Vec3.add_y, Vec3.add_z, Vec3.smul_x, Vec3.smul_y, Vec3.smul_z,
      ScalarFn.lit_real] <;> push_cast <;> ring

theorem rotate_add (q : Quat ℝ) (u v : Vec3 ℝ) : q.rotate (u + v) = q.rotate u + q.rotate v := by
  apply Vec3.ext <;>
    simp only [rotate, vec, Vec3.cross, Vec3.add_x, Vec3.add_y, Vec3.add_z, Vec3.smul_x, Vec3.smul_y, Vec3.smul_z] <;> ring
theorem rotate_sub (q : Quat ℝ) (u v : Vec3 ℝ) : q.rotate (u - v) = q.rotate u - q.rotate v := by
  apply Vec3.ext <;>
    simp only [rotate, vec, Vec3.cross, Vec3.add_x, Vec3.add_y, Vec3.add_z, Vec3.sub_x, Vec3.sub_y, Vec3.sub_z, Vec3.smul_x, Vec3.smul_y, Vec3.smul_z] <;> ring
theorem rotate_smul (q : Quat ℝ) (k : ℝ) (v : Vec3 ℝ) : q.rotate (.smul k v) = .smul k (q.rotate v) := by
  apply Vec3.ext <;>
    simp only [rotate, vec, Vec3.cross, Vec3.add_x, Vec3.add_y, Vec3.add_z, Vec3.smul_x, Vec3.smul_y, Vec3.smul_z] <;> ring
theorem rotate_one (v : Vec3 ℝ) : (Quat.one : Quat ℝ).rotate v = v := by
  apply Vec3.ext <;> simp [rotate, one, vec, Vec3.cross]

theorem rotate_mul (a b : Quat ℝ) (ha : a.sqNorm = 1) (hb : b.sqNorm = 1) (v : Vec3 ℝ) : (a.mul b).rotate v = a.rotate (b.rotate v) := by
  simp only [sqNorm] at ha hb
  apply Vec3.ext <;>
    simp only [rotate, mul, vec, Vec3.cross, Vec3.add_x, Vec3.add_y, Vec3.add_z, Vec3.smul_x, Vec3.smul_y, Vec3.smul_z]
  · linear_combination (2 * (b.y * (b.x * v.y - b.y * v.x) - b.z * (b.z * v.x - b.x * v.z) + b.w * (b.y * v.z - b.z * v.y))) * ha +
      (2 * (a.y * (a.x * v.y - a.y * v.x) - a.z * (a.z * v.x - a.x * v.z) + a.w * (a.y * v.z - a.z * v.y))) * hb
  · linear_combination (2 * (b.z * (b.y * v.z - b.z * v.y) - b.x * (b.x * v.y - b.y * v.x) + b.w * (b.z * v.x - b.x * v.z))) * ha +
      (2 * (a.z * (a.y * v.z - a.z * v.y) - a.x * (a.x * v.y - a.y * v.x) + a.w * (a.z * v.x - a.x * v.z))) * hb
  · linear_combination (2 * (b.x * (b.z * v.x - b.x * v.z) - b.y * (b.y * v.z - b.z * v.y) + b.w * (b.x * v.y - b.y * v.x))) * ha +
      (2 * (a.x * (a.z * v.x - a.x * v.z) - a.y * (a.y * v.z - a.z * v.y) + a.w * (a.x * v.y - a.y * v.x))) * hb

end Quat
end Vio
