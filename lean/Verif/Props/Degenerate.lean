/-
C80: inverse and normalisation of every quaternion, the zero quaternion included.
-/
import Verif.Props.Math

set_option linter.unusedSectionVars false

namespace Vio

theorem Quat.sqNorm_pos_iff (q : Quat ℝ) : 0 < q.sqNorm ↔ q ≠ ⟨0, 0, 0, 0⟩ := by
  constructor
  · rintro h rfl; simp [Quat.sqNorm] at h
  · intro h
    by_contra hc
    apply h
    simp only [Quat.sqNorm] at hc
    apply Quat.ext <;> nlinarith [mul_self_nonneg q.w, mul_self_nonneg q.x, mul_self_nonneg q.y, mul_self_nonneg q.z]

/-- C80: every quaternion but zero times its inverse is one, on both sides; zero, which has no inverse, is sent to zero. -/
theorem C80_inverse (q : Quat ℝ) : (q ≠ ⟨0, 0, 0, 0⟩ → q.mul q.inverse = .one ∧ q.inverse.mul q = .one) ∧ (q = ⟨0, 0, 0, 0⟩ → q.inverse = ⟨0, 0, 0, 0⟩) := by
  constructor
  · intro h
    have hp := (Quat.sqNorm_pos_iff q).2 h
    have e : ScalarFn.lt 0 q.sqNorm = true := by simpa using hp
    have hne : q.w * q.w + q.x * q.x + q.y * q.y + q.z * q.z ≠ 0 := hp.ne'
    have hne2 : q.w ^ 2 + q.x ^ 2 + q.y ^ 2 + q.z ^ 2 ≠ 0 := by simpa only [sq] using hne
    unfold Quat.inverse
    simp only [e, if_true]
    simp only [Quat.sqNorm]
    constructor <;> apply Quat.ext <;> simp only [Quat.mul, Quat.one] <;> field_simp <;> ring
  · rintro rfl
    have e : ScalarFn.lt 0 (⟨0, 0, 0, 0⟩ : Quat ℝ).sqNorm = false := by simp [Quat.sqNorm]
    unfold Quat.inverse
    simp only [e, Bool.false_eq_true, if_false]

/-- C80: normalisation gives a unit quaternion of the same direction, and leaves zero as it is. -/
theorem C80_normalized (q : Quat ℝ) : (q ≠ ⟨0, 0, 0, 0⟩ → q.normalized.sqNorm = 1 ∧ ∃ k > 0, q = ⟨k * q.normalized.w, k * q.normalized.x, k * q.normalized.y, k * q.normalized.z⟩) ∧
    (q = ⟨0, 0, 0, 0⟩ → q.normalized = ⟨0, 0, 0, 0⟩) := by
  constructor
  · intro h
    have hp := (Quat.sqNorm_pos_iff q).2 h
    refine ⟨Quat.sqNorm_normalized q hp, Real.sqrt q.sqNorm, Real.sqrt_pos.2 hp, ?_⟩
    have hne := (Real.sqrt_pos.2 hp).ne'
    rw [Quat.normalized_of_pos q hp]
    apply Quat.ext <;> simp only <;> field_simp
  · rintro rfl
    have e : ScalarFn.lt 0 (⟨0, 0, 0, 0⟩ : Quat ℝ).sqNorm = false := by simp [Quat.sqNorm]
    unfold Quat.normalized
    simp only [e, Bool.false_eq_true, if_false]

/-- A quaternion that is not zero and not a unit. -/
example : (⟨1, 2, 0, 2⟩ : Quat ℝ).mul (⟨1, 2, 0, 2⟩ : Quat ℝ).inverse = .one := ((C80_inverse ⟨1, 2, 0, 2⟩).1 (by intro h; have := congrArg Quat.w h; norm_num at this)).1

end Vio
