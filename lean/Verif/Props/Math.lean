/-
Properties C80, C81: the helpers of `include/utility/math_lib.hpp`, in exact arithmetic.
-/
import Verif.PReal
import Verif.Lemmas.Attitude
import Mathlib.LinearAlgebra.Matrix.Notation
import Mathlib.Analysis.SpecialFunctions.Trigonometric.Inverse

namespace Vio

open PReal

/-! ### C80: products and rigid motions -/

/-- The skew matrix is the cross product. -/
theorem C80_skew (v w : Vec3 ℝ) : (Utility.skew v).mulVec w = v.cross w := by
  apply Vec3.ext <;> simp only [Utility.skew, Mat3.mulVec, Vec3.dot, Vec3.cross_x, Vec3.cross_y, Vec3.cross_z] <;> ring

/-- Skew symmetry. -/
theorem C80_skew_transpose (v : Vec3 ℝ) : (Utility.skew v).transpose = -Utility.skew v := by
  apply Mat3.ext <;> apply Vec3.ext <;> simp [Utility.skew, Mat3.transpose]

/-- Components in the order used by the four-row matrices. -/
def Quat.comp (q : Quat ℝ) : Fin 4 → ℝ := ![q.w, q.x, q.y, q.z]

/-- The left matrix of `q` times `p` is `q * p`. -/
theorem C80_qleft (q p : Quat ℝ) (i : Fin 4) : ∑ j, Utility.qleft q i j * p.comp j = (q.mul p).comp i := by
  fin_cases i <;> simp [Fin.sum_univ_four, Utility.qleft, Utility.skew, Quat.vec, Quat.comp, Quat.mul] <;> ring

/-- The right matrix of `p` times `q` is `q * p`. -/
theorem C80_qright (q p : Quat ℝ) (i : Fin 4) : ∑ j, Utility.qright p i j * q.comp j = (q.mul p).comp i := by
  fin_cases i <;> simp [Fin.sum_univ_four, Utility.qright, Utility.skew, Quat.vec, Quat.comp, Quat.mul] <;> ring

/-- A point in homogeneous coordinates. -/
def Vec3.hom (v : Vec3 ℝ) : Fin 4 → ℝ := ![v.x, v.y, v.z, 1]

/-- `TransformMatrix` acts on points as rotation and translation, for every quaternion. -/
theorem C80_transform_acts (q : Quat ℝ) (t v : Vec3 ℝ) (i : Fin 4) :
    ∑ j, Utility.transformMatrix q t i j * v.hom j = (q.rotate v + t).hom i := by
  rw [← Quat.toMat_mulVec]
  fin_cases i <;> simp [Fin.sum_univ_four, Utility.transformMatrix, Vec3.hom, Mat3.mulVec, Vec3.dot]

/-- Two matrices that act alike on all points and have last row `0 0 0 1` are equal. -/
theorem hom_ext (A B : Fin 4 → Fin 4 → ℝ) (h : ∀ (v : Vec3 ℝ) (i : Fin 4), ∑ j, A i j * v.hom j = ∑ j, B i j * v.hom j) (i j : Fin 4) : A i j = B i j := by
  have h0 := h 0 i
  have h1 := h ⟨1, 0, 0⟩ i
  have h2 := h ⟨0, 1, 0⟩ i
  have h3 := h ⟨0, 0, 1⟩ i
  simp [Fin.sum_univ_four, Vec3.hom] at h0 h1 h2 h3
  fin_cases j <;> simp <;> linarith

/-- Composition of rigid motions with unit quaternions. -/
theorem C80_transform_compose (q1 q2 : Quat ℝ) (t1 t2 : Vec3 ℝ) (h1 : q1.sqNorm = 1) (h2 : q2.sqNorm = 1) (i j : Fin 4) :
    ∑ k, Utility.transformMatrix q1 t1 i k * Utility.transformMatrix q2 t2 k j = Utility.transformMatrix (q1.mul q2) (q1.rotate t2 + t1) i j := by
  refine hom_ext (fun i j => ∑ k, Utility.transformMatrix q1 t1 i k * Utility.transformMatrix q2 t2 k j) _ ?_ i j
  intro v i
  rw [C80_transform_acts]
  have e : ∑ j, (∑ k, Utility.transformMatrix q1 t1 i k * Utility.transformMatrix q2 t2 k j) * v.hom j =
      ∑ k, Utility.transformMatrix q1 t1 i k * ∑ j, Utility.transformMatrix q2 t2 k j * v.hom j := by
    simp only [Finset.sum_mul, Finset.mul_sum]
    rw [Finset.sum_comm]
    refine Finset.sum_congr rfl fun k _ => Finset.sum_congr rfl fun j _ => by ring
  rw [e]
  simp only [C80_transform_acts]
  rw [Quat.rotate_mul _ _ h1 h2, Quat.rotate_add]
  congr 1
  apply Vec3.ext <;> simp <;> ring

/-- The inverse of a rigid motion with unit quaternion. -/
theorem C80_transform_inverse (q : Quat ℝ) (t : Vec3 ℝ) (h : q.sqNorm = 1) (i j : Fin 4) :
    ∑ k, Utility.transformMatrix q t i k * Utility.transformMatrix q.inverse (-(q.inverse.rotate t)) k j = if i = j then 1 else 0 := by
  rw [C80_transform_compose _ _ _ _ h (Quat.sqNorm_inverse_of_unit _ h), Quat.mul_inverse_of_unit _ h]
  have e : q.rotate (-(q.inverse.rotate t)) + t = 0 := by
    have h1 : -(q.inverse.rotate t) = Vec3.smul (-1) (q.inverse.rotate t) := by apply Vec3.ext <;> simp
    rw [h1, Quat.rotate_smul, ← Quat.rotate_mul _ _ h (Quat.sqNorm_inverse_of_unit _ h), Quat.mul_inverse_of_unit _ h, Quat.rotate_one]
    apply Vec3.ext <;> simp
  rw [e]
  fin_cases i <;> fin_cases j <;> simp [Utility.transformMatrix, Quat.one, Quat.toMat]

/-! ### C81: magnitude of a rotation -/

theorem rotMagQuat_eq (q : Quat ℝ) : Utility.rotMagQuat q = Real.arccos (1 - 2 * (q.x ^ 2 + q.y ^ 2 + q.z ^ 2)) := by
  unfold Utility.rotMagQuat Utility.rotMagMat Quat.toMat Mat3.trace
  simp only [ScalarFn.fabs_real, ScalarFn.acos_real, ScalarFn.lit_real]
  rw [abs_of_nonneg (Real.arccos_nonneg _)]
  congr 1
  push_cast
  ring

/-- A rotation by an angle between 0 and pi about a unit axis has that angle as magnitude. -/
theorem C81_quaternion_angle (u : Vec3 ℝ) (hu : u.sqNorm = 1) (θ : ℝ) (h0 : 0 ≤ θ) (hp : θ ≤ Real.pi) :
    Utility.rotMagQuat ⟨Real.cos (θ / 2), Real.sin (θ / 2) * u.x, Real.sin (θ / 2) * u.y, Real.sin (θ / 2) * u.z⟩ = θ := by
  rw [rotMagQuat_eq]
  simp only [Vec3.sqNorm] at hu
  have : 1 - 2 * ((Real.sin (θ / 2) * u.x) ^ 2 + (Real.sin (θ / 2) * u.y) ^ 2 + (Real.sin (θ / 2) * u.z) ^ 2) = Real.cos θ := by
    have h1 : Real.cos θ = 1 - 2 * Real.sin (θ / 2) ^ 2 := by
      have := Real.cos_two_mul (θ / 2)
      rw [show 2 * (θ / 2) = θ by ring] at this
      have h2 := Real.sin_sq_add_cos_sq (θ / 2)
      linarith
    rw [h1]
    linear_combination (-2 * Real.sin (θ / 2) ^ 2) * hu
  rw [this, Real.arccos_cos h0 hp]

/-- For every unit quaternion: twice the arc cosine of the absolute real part, in `[0, pi]`; both signs of the quaternion give the same. -/
theorem C81_quaternion (q : Quat ℝ) (h : q.sqNorm = 1) :
    Utility.rotMagQuat q = 2 * Real.arccos |q.w| ∧ 0 ≤ Utility.rotMagQuat q ∧ Utility.rotMagQuat q ≤ Real.pi := by
  have e := rotMagQuat_eq q
  refine ⟨?_, by rw [e]; exact Real.arccos_nonneg _, by rw [e]; exact Real.arccos_le_pi _⟩
  simp only [Quat.sqNorm] at h
  have hw : |q.w| ≤ 1 := by
    rw [abs_le_one_iff_mul_self_le_one]
    nlinarith [mul_self_nonneg q.x, mul_self_nonneg q.y, mul_self_nonneg q.z]
  have h1 : 1 - 2 * (q.x ^ 2 + q.y ^ 2 + q.z ^ 2) = Real.cos (2 * Real.arccos |q.w|) := by
    rw [Real.cos_two_mul, Real.cos_arccos (by linarith [abs_nonneg q.w]) hw, sq_abs]
    linarith
  rw [e, h1, Real.arccos_cos (by linarith [Real.arccos_nonneg |q.w|])]
  have := (Real.arccos_le_pi_div_two (x := |q.w|)).2 (abs_nonneg _)
  linarith

/-- The magnitude of a rotation vector, through the unnormalised quaternion. -/
theorem rotMagVec_eq (r : Vec3 ℝ) : Utility.rotMagVec r = Real.arccos (1 - r.norm ^ 2 / 2) := by
  unfold Utility.rotMagVec
  rw [rotMagQuat_eq, Vec3.norm_sq]
  simp only [ScalarFn.lit_real, Vec3.sqNorm]
  congr 1
  push_cast
  ring

theorem C81_vector (r : Vec3 ℝ) (h : r.norm ≤ 2) :
    Utility.rotMagVec r = 2 * Real.arcsin (r.norm / 2) ∧ r.norm ≤ Utility.rotMagVec r ∧ (r ≠ 0 → r.norm < Utility.rotMagVec r) := by
  have h0 := r.norm_nonneg
  have e : Utility.rotMagVec r = 2 * Real.arcsin (r.norm / 2) := by
    rw [rotMagVec_eq]
    have hs : Real.sin (Real.arcsin (r.norm / 2)) = r.norm / 2 := Real.sin_arcsin (by linarith) (by linarith)
    have h1 : 1 - r.norm ^ 2 / 2 = Real.cos (2 * Real.arcsin (r.norm / 2)) := by
      have := Real.cos_two_mul (Real.arcsin (r.norm / 2))
      have h2 := Real.sin_sq_add_cos_sq (Real.arcsin (r.norm / 2))
      rw [hs] at h2
      linarith
    rw [h1, Real.arccos_cos (by linarith [Real.arcsin_nonneg.2 (by linarith : 0 ≤ r.norm / 2)]) (by linarith [Real.arcsin_le_pi_div_two (r.norm / 2)])]
  have key : r ≠ 0 → r.norm < Utility.rotMagVec r := by
    intro hr
    have hpos := r.norm_pos hr
    have hs : Real.sin (Real.arcsin (r.norm / 2)) = r.norm / 2 := Real.sin_arcsin (by linarith) (by linarith)
    have := Real.sin_lt (x := Real.arcsin (r.norm / 2)) (Real.arcsin_pos.2 (by linarith))
    rw [hs] at this
    rw [e]; linarith
  refine ⟨e, ?_, key⟩
  by_cases hr : r = 0
  · rw [e, (Vec3.norm_eq_zero r).2 hr]; simp
  · exact (key hr).le

theorem emb_rotMagQuat (q : Quat ℝ) : Utility.rotMagQuat q.emb =
    ScalarFn.fabs (ScalarFn.acos (PReal.of (1 - 2 * (q.x ^ 2 + q.y ^ 2 + q.z ^ 2)))) := by
  have e : ((q.emb.toMat.trace - lit 1) / lit 2 : PReal) = .of ((q.toMat.trace - lit 1) / lit 2) := of_div _ _ (by simp)
  unfold Utility.rotMagQuat Utility.rotMagMat
  rw [e]
  congr 3
  simp only [Quat.toMat, Mat3.trace, ScalarFn.lit_real]
  push_cast
  ring

/-- With a NaN value: a unit quaternion always has a magnitude. -/
theorem C81_quaternion_defined (q : Quat ℝ) (h : q.sqNorm = 1) : Utility.rotMagQuat q.emb = .of (Utility.rotMagQuat q) := by
  rw [emb_rotMagQuat, rotMagQuat_eq]
  simp only [Quat.sqNorm] at h
  show PReal.lift1 _ _ (PReal.lift1 _ _ _) = _
  simp only [PReal.lift1]
  rw [if_pos ⟨by nlinarith [mul_self_nonneg q.w], by nlinarith [mul_self_nonneg q.x, mul_self_nonneg q.y, mul_self_nonneg q.z]⟩]
  simp [abs_of_nonneg (Real.arccos_nonneg _)]

/-- A rotation vector has a magnitude exactly when it is not longer than two; otherwise the result is NaN. -/
theorem C81_vector_defined_iff (r : Vec3 ℝ) :
    (r.norm ≤ 2 → Utility.rotMagVec r.emb = .of (Utility.rotMagVec r)) ∧ (2 < r.norm → Utility.rotMagVec r.emb = .nan) := by
  have h0 := r.norm_nonneg
  have e : Utility.rotMagVec r.emb = ScalarFn.fabs (ScalarFn.acos (PReal.of (1 - r.norm ^ 2 / 2))) := by
    have : Utility.rotMagVec r.emb = Utility.rotMagQuat (Quat.emb ⟨lit 1, lit (1/2) * r.x, lit (1/2) * r.y, lit (1/2) * r.z⟩) := rfl
    rw [this, emb_rotMagQuat]
    congr 3
    rw [Vec3.norm_sq]
    simp only [ScalarFn.lit_real, Vec3.sqNorm]
    push_cast
    ring
  rw [e, rotMagVec_eq]
  constructor
  · intro h
    show PReal.lift1 _ _ (PReal.lift1 _ _ _) = _
    simp only [PReal.lift1]
    rw [if_pos ⟨by nlinarith, by nlinarith⟩]
    simp [abs_of_nonneg (Real.arccos_nonneg _)]
  · intro h
    show PReal.lift1 _ _ (PReal.lift1 _ _ _) = _
    simp only [PReal.lift1]
    rw [if_neg (by rintro ⟨h1, -⟩; nlinarith)]

/-- A quarter turn about x: hypotheses are met and the magnitude is pi / 2. -/
example : Utility.rotMagQuat ⟨Real.cos (Real.pi / 2 / 2), Real.sin (Real.pi / 2 / 2) * 1, Real.sin (Real.pi / 2 / 2) * 0, Real.sin (Real.pi / 2 / 2) * 0⟩ = Real.pi / 2 :=
  C81_quaternion_angle ⟨1, 0, 0⟩ (by simp [Vec3.sqNorm]) _ (by positivity) (by linarith [Real.pi_pos])

end Vio
