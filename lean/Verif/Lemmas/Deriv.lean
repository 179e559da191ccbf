/-
Derivatives of rotations, camera projections and of the quaternion correction.
-/
import Verif.Lemmas.Quat
import Mathlib.Analysis.Calculus.Deriv.Inv
import Mathlib.Analysis.Calculus.Deriv.Add
import Mathlib.Analysis.Calculus.Deriv.Mul

namespace Vio

/-- A curve of vectors is differentiable with the given derivative. -/
structure HasDeriv3 (f : ℝ → Vec3 ℝ) (d : Vec3 ℝ) (a : ℝ) : Prop where
  x : HasDerivAt (fun e => (f e).x) d.x a
  y : HasDerivAt (fun e => (f e).y) d.y a
  z : HasDerivAt (fun e => (f e).z) d.z a

/-- A curve of 2-vectors is differentiable with the given derivative. -/
structure HasDeriv2 (f : ℝ → Vec2 ℝ) (d : Vec2 ℝ) (a : ℝ) : Prop where
  x : HasDerivAt (fun e => (f e).x) d.x a
  y : HasDerivAt (fun e => (f e).y) d.y a

namespace HasDeriv3

variable {f g : ℝ → Vec3 ℝ} {d d' : Vec3 ℝ} {a : ℝ}

theorem const (v : Vec3 ℝ) (a : ℝ) : HasDeriv3 (fun _ => v) 0 a :=
  ⟨hasDerivAt_const _ _, hasDerivAt_const _ _, hasDerivAt_const _ _⟩

theorem add (h : HasDeriv3 f d a) (h' : HasDeriv3 g d' a) : HasDeriv3 (fun e => f e + g e) (d + d') a :=
  ⟨h.x.add h'.x, h.y.add h'.y, h.z.add h'.z⟩

theorem sub (h : HasDeriv3 f d a) (h' : HasDeriv3 g d' a) : HasDeriv3 (fun e => f e - g e) (d - d') a :=
  ⟨h.x.sub h'.x, h.y.sub h'.y, h.z.sub h'.z⟩

theorem congr (h : HasDeriv3 f d a) (e : d = d') : HasDeriv3 f d' a := e ▸ h

/-- The straight line. -/
theorem line (v : Vec3 ℝ) (a : ℝ) : HasDeriv3 (fun e => .smul e v) v a := by
  refine ⟨?_, ?_, ?_⟩
  · simpa using (hasDerivAt_id a).mul_const v.x
  · simpa using (hasDerivAt_id a).mul_const v.y
  · simpa using (hasDerivAt_id a).mul_const v.z

theorem mulVec (m : Mat3 ℝ) (h : HasDeriv3 f d a) : HasDeriv3 (fun e => m.mulVec (f e)) (m.mulVec d) a :=
  ⟨((h.x.const_mul _).add (h.y.const_mul _)).add (h.z.const_mul _),
   ((h.x.const_mul _).add (h.y.const_mul _)).add (h.z.const_mul _),
   ((h.x.const_mul _).add (h.y.const_mul _)).add (h.z.const_mul _)⟩

theorem rotate (q : Quat ℝ) (h : HasDeriv3 f d a) : HasDeriv3 (fun e => q.rotate (f e)) (q.rotate d) a := by
  have := h.mulVec q.toMat
  simpa only [Quat.toMat_mulVec] using this

/-- The pinhole projection. -/
theorem proj (h : HasDeriv3 f d a) (hz : (f a).z ≠ 0) :
    HasDeriv2 (fun e => ⟨(f e).x / (f e).z, (f e).y / (f e).z⟩)
      ⟨(d.x * (f a).z - (f a).x * d.z) / (f a).z ^ 2, (d.y * (f a).z - (f a).y * d.z) / (f a).z ^ 2⟩ a :=
  ⟨h.x.div h.z hz, h.y.div h.z hz⟩

/-- The pinhole projection, with the value at the base point named. -/
theorem proj_at (h : HasDeriv3 f d a) (c : Vec3 ℝ) (e : f a = c) (hz : c.z ≠ 0) :
    HasDeriv2 (fun e => ⟨(f e).x / (f e).z, (f e).y / (f e).z⟩) ⟨(d.x * c.z - c.x * d.z) / c.z ^ 2, (d.y * c.z - c.y * d.z) / c.z ^ 2⟩ a := by
  subst e
  exact h.proj hz

end HasDeriv3

theorem HasDeriv2.congr {f : ℝ → Vec2 ℝ} {d d' : Vec2 ℝ} {a : ℝ} (h : HasDeriv2 f d a) (e : d = d') : HasDeriv2 f d' a := e ▸ h

theorem HasDeriv2.sub_const {f : ℝ → Vec2 ℝ} {d : Vec2 ℝ} {a : ℝ} (h : HasDeriv2 f d a) (n : Vec2 ℝ) :
    HasDeriv2 (fun e => f e - n) d a := ⟨h.x.sub_const _, h.y.sub_const _⟩

theorem HasDeriv2.const_sub {f : ℝ → Vec2 ℝ} {d : Vec2 ℝ} {a : ℝ} (h : HasDeriv2 f d a) (n : Vec2 ℝ) :
    HasDeriv2 (fun e => n - f e) ⟨-d.x, -d.y⟩ a := ⟨h.x.const_sub _, h.y.const_sub _⟩

namespace Quat

theorem mul_normalized_of_unit (q d : Quat ℝ) (hq : q.sqNorm = 1) : (q.mul d).normalized = q.mul d.normalized := by
  by_cases h : 0 < d.sqNorm
  · have h' : 0 < (q.mul d).sqNorm := by rw [sqNorm_mul, hq, one_mul]; exact h
    rw [normalized_of_pos _ h', normalized_of_pos _ h, sqNorm_mul, hq, one_mul]
    have h0 : √d.sqNorm ≠ 0 := (Real.sqrt_pos.2 h).ne'
    apply Quat.ext <;> simp only [mul] <;> field_simp
  · have h' : ¬ 0 < (q.mul d).sqNorm := by rw [sqNorm_mul, hq, one_mul]; exact h
    simp [normalized, h, h']

theorem inverse_mul (a b : Quat ℝ) (ha : a.sqNorm = 1) (hb : b.sqNorm = 1) : (a.mul b).inverse = b.inverse.mul a.inverse := by
  rw [inverse_of_unit _ (by rw [sqNorm_mul, ha, hb, one_mul]), inverse_of_unit a ha, inverse_of_unit b hb]
  apply Quat.ext <;> simp only [mul] <;> ring

theorem rotate_scaled (u v : Vec3 ℝ) (r : ℝ) (h0 : r ≠ 0) (hr : r ^ 2 = 1 + u.sqNorm) :
    (⟨1 / r, -(u.x / r), -(u.y / r), -(u.z / r)⟩ : Quat ℝ).rotate v =
    (Vec3.smul (1 - u.sqNorm) v + .smul (2 * u.dot v) u - .smul 2 (u.cross v)).sdiv (1 + u.sqNorm) := by
  have hw : u.x * u.x + u.y * u.y + u.z * u.z = r ^ 2 - 1 := by rw [hr]; simp only [Vec3.sqNorm]; ring
  rw [← hr]
  have hn : 1 - u.sqNorm = 2 - r ^ 2 := by rw [hr]; ring
  rw [hn]
  apply Vec3.ext <;>
    simp only [rotate, vec, Vec3.cross, Vec3.smul, Vec3.sdiv, Vec3.dot, Vec3.add_x, Vec3.add_y, Vec3.add_z, Vec3.sub_x, Vec3.sub_y, Vec3.sub_z] <;>
    field_simp
  · linear_combination (-2 * v.x) * hw
  · linear_combination (-2 * v.y) * hw
  · linear_combination (-2 * v.z) * hw

/-- Inverse rotation by a normalised `(1, u)`. -/
theorem deltaQ_inverse_rotate (t v : Vec3 ℝ) : (Utility.deltaQ t).normalized.inverse.rotate v =
    (Vec3.smul (1 - (t.sdiv 2).sqNorm) v + .smul (2 * (t.sdiv 2).dot v) (t.sdiv 2) - .smul 2 ((t.sdiv 2).cross v)).sdiv (1 + (t.sdiv 2).sqNorm) := by
  have h1 : 0 < (Utility.deltaQ t).sqNorm := lt_of_lt_of_le one_pos (sqNorm_deltaQ_pos t)
  rw [inverse_of_unit _ (sqNorm_normalized _ h1), normalized_of_pos _ h1]
  have e : (Utility.deltaQ t).sqNorm = 1 + (t.sdiv 2).sqNorm := by
    simp only [Utility.deltaQ, sqNorm, Vec3.sqNorm, ScalarFn.lit_real]; push_cast; ring
  have h0 : √(Utility.deltaQ t).sqNorm ≠ 0 := (Real.sqrt_pos.2 h1).ne'
  have := rotate_scaled (t.sdiv 2) v (√(Utility.deltaQ t).sqNorm) h0 (by rw [Real.sq_sqrt h1.le, e])
  rw [← this]
  simp [Utility.deltaQ]

end Quat

/-- A quaternion correction `(1, e*t/2)`, normalised, applied inversely to a moving vector: derivative at `e = 0`. -/
theorem HasDeriv3.correction {f : ℝ → Vec3 ℝ} {d : Vec3 ℝ} (t : Vec3 ℝ) (h : HasDeriv3 f d 0) :
    HasDeriv3 (fun e => (Utility.deltaQ (.smul e t)).normalized.inverse.rotate (f e)) (d + (f 0).cross t) 0 := by
  have hu : HasDeriv3 (fun e => (Vec3.smul e t).sdiv 2) (t.sdiv 2) 0 := by
    have := HasDeriv3.line t 0
    exact ⟨this.x.div_const 2, this.y.div_const 2, this.z.div_const 2⟩
  have hN : HasDerivAt (fun e => ((Vec3.smul e t).sdiv 2).sqNorm) 0 0 := by
    have := ((hu.x.mul hu.x).add (hu.y.mul hu.y)).add (hu.z.mul hu.z)
    refine HasDerivAt.congr_deriv this ?_
    simp [Vec3.smul, Vec3.sdiv]
  have hN' : HasDerivAt (fun e => 1 - ((Vec3.smul e t).sdiv 2).sqNorm) 0 0 := by simpa using hN.const_sub 1
  have hD : HasDerivAt (fun e => 1 + ((Vec3.smul e t).sdiv 2).sqNorm) 0 0 := by simpa using hN.const_add 1
  have hdot : HasDerivAt (fun e => 2 * ((Vec3.smul e t).sdiv 2).dot (f e)) (t.dot (f 0)) 0 := by
    have := (((hu.x.mul h.x).add (hu.y.mul h.y)).add (hu.z.mul h.z)).const_mul 2
    refine HasDerivAt.congr_deriv this ?_
    simp [Vec3.dot, Vec3.smul, Vec3.sdiv]; ring
  have h0 : 1 + ((Vec3.smul 0 t).sdiv 2).sqNorm ≠ 0 := by simp [Vec3.sqNorm, Vec3.smul, Vec3.sdiv]
  simp only [Quat.deltaQ_inverse_rotate]
  refine ⟨?_, ?_, ?_⟩
  · refine HasDerivAt.congr_deriv ((((hN'.mul h.x).add (hdot.mul hu.x)).sub (((hu.y.mul h.z).sub (hu.z.mul h.y)).const_mul 2)).div hD h0) ?_
    simp [Vec3.sqNorm, Vec3.smul, Vec3.sdiv, Vec3.dot]; ring
  · refine HasDerivAt.congr_deriv ((((hN'.mul h.y).add (hdot.mul hu.y)).sub (((hu.z.mul h.x).sub (hu.x.mul h.z)).const_mul 2)).div hD h0) ?_
    simp [Vec3.sqNorm, Vec3.smul, Vec3.sdiv, Vec3.dot]; ring
  · refine HasDerivAt.congr_deriv ((((hN'.mul h.z).add (hdot.mul hu.z)).sub (((hu.x.mul h.y).sub (hu.y.mul h.x)).const_mul 2)).div hD h0) ?_
    simp [Vec3.sqNorm, Vec3.smul, Vec3.sdiv, Vec3.dot]; ring

end Vio
