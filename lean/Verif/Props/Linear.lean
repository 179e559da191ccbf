/-
C89: the transition matrix of the covariance propagation is, to first order in the time step, the derivative of the nominal propagation with respect to the error that the filter corrects.
-/
import Verif.Props.Motion
import Verif.Props.UpdateJac
import Verif.Spec.ErrState
import Mathlib.Analysis.Asymptotics.Lemmas
import Mathlib.Analysis.Calculus.Deriv.Pow

set_option linter.unusedSectionVars false

namespace Vio
open PropSpec PropQueue Reckon ErrSpec

/-! ### Quaternions near the identity -/

namespace Quat

/-- Rotation by a normalised quaternion. -/
theorem normalized_rotate (a : Quat ℝ) (h : 0 < a.sqNorm) (v : Vec3 ℝ) : a.normalized.rotate v =
    (Vec3.smul (a.w ^ 2 - a.vec.sqNorm) v + .smul (2 * a.vec.dot v) a.vec + .smul (2 * a.w) (a.vec.cross v)).sdiv a.sqNorm := by
  rw [normalized_of_pos a h]
  have h0 : √a.sqNorm ≠ 0 := (Real.sqrt_pos.2 h).ne'
  have hr : a.sqNorm = √a.sqNorm ^ 2 := (Real.sq_sqrt h.le).symm
  generalize √a.sqNorm = r at *
  have hw : a.w * a.w + a.x * a.x + a.y * a.y + a.z * a.z = r ^ 2 := hr
  rw [hr]
  apply Vec3.ext <;>
    simp only [rotate, vec, Vec3.cross, Vec3.smul, Vec3.sdiv, Vec3.dot, Vec3.sqNorm, Vec3.add_x, Vec3.add_y, Vec3.add_z] <;>
    field_simp
  · linear_combination (-v.x) * hw
  · linear_combination (-v.y) * hw
  · linear_combination (-v.z) * hw

theorem normalized_mul (a b : Quat ℝ) (ha : 0 < a.sqNorm) (hb : 0 < b.sqNorm) : a.normalized.mul b.normalized = (a.mul b).normalized := by
  have hab : 0 < (a.mul b).sqNorm := by rw [sqNorm_mul]; positivity
  rw [normalized_of_pos a ha, normalized_of_pos b hb, normalized_of_pos _ hab, sqNorm_mul, Real.sqrt_mul ha.le]
  have h1 : √a.sqNorm ≠ 0 := (Real.sqrt_pos.2 ha).ne'
  have h2 : √b.sqNorm ≠ 0 := (Real.sqrt_pos.2 hb).ne'
  apply Quat.ext <;> simp only [mul] <;> field_simp

theorem normalized_inverse (a : Quat ℝ) (ha : 0 < a.sqNorm) : a.normalized.inverse = (conjQ a).normalized := by
  rw [inverse_of_unit _ (sqNorm_normalized a ha), normalized_conj]
  rfl

end Quat

theorem angle_normalized (a : Quat ℝ) (h : 0 < a.sqNorm) : angle a.normalized = angle a := by
  rw [Quat.normalized_of_pos a h]
  have h0 : √a.sqNorm ≠ 0 := (Real.sqrt_pos.2 h).ne'
  unfold angle
  simp only [div_div_div_cancel_right₀ h0]

theorem hasDerivAt_quadratic (a b c : ℝ) : HasDerivAt (fun e => a + b * e + c * e ^ 2) b 0 := by
  have := (((hasDerivAt_id (0 : ℝ)).const_mul b).const_add a).add (((hasDerivAt_id (0 : ℝ)).pow 2).const_mul c)
  refine this.congr_deriv ?_
  simp

/-- The error angle of a curve of quaternions through a real one. -/
theorem hasDeriv3_angle {y : ℝ → Quat ℝ} {w' : ℝ} {u : Vec3 ℝ} (hw : HasDerivAt (fun e => (y e).w) w' 0) (hu : HasDeriv3 (fun e => (y e).vec) u 0) (h0 : (y 0).vec = 0) (hn : (y 0).w ≠ 0) :
    HasDeriv3 (fun e => angle (y e)) (.smul (2 / (y 0).w) u) 0 := by
  have hx : (y 0).x = 0 := congrArg Vec3.x h0
  have hy : (y 0).y = 0 := congrArg Vec3.y h0
  have hz : (y 0).z = 0 := congrArg Vec3.z h0
  refine ⟨?_, ?_, ?_⟩
  · refine ((hu.x.div hw hn).const_mul 2).congr_deriv ?_
    simp [Quat.vec, hx]; field_simp
  · refine ((hu.y.div hw hn).const_mul 2).congr_deriv ?_
    simp [Quat.vec, hy]; field_simp
  · refine ((hu.z.div hw hn).const_mul 2).congr_deriv ?_
    simp [Quat.vec, hz]; field_simp

/-- Rotation of a moving vector along such a curve. -/
theorem hasDeriv3_rotate {y : ℝ → Quat ℝ} {w' : ℝ} {u : Vec3 ℝ} {f : ℝ → Vec3 ℝ} {d : Vec3 ℝ} (hw : HasDerivAt (fun e => (y e).w) w' 0) (hu : HasDeriv3 (fun e => (y e).vec) u 0)
    (h0 : (y 0).vec = 0) (hn : (y 0).w ≠ 0) (hp : ∀ e, 0 < (y e).sqNorm) (hf : HasDeriv3 f d 0) :
    HasDeriv3 (fun e => (y e).normalized.rotate (f e)) (d + (Vec3.smul (2 / (y 0).w) u).cross (f 0)) 0 := by
  have hx : (y 0).x = 0 := congrArg Vec3.x h0
  have hy : (y 0).y = 0 := congrArg Vec3.y h0
  have hz : (y 0).z = 0 := congrArg Vec3.z h0
  have ux : HasDerivAt (fun e => (y e).x) u.x 0 := hu.x
  have uy : HasDerivAt (fun e => (y e).y) u.y 0 := hu.y
  have uz : HasDerivAt (fun e => (y e).z) u.z 0 := hu.z
  have hq : HasDerivAt (fun e => (y e).vec.sqNorm) 0 0 := by
    refine (((ux.mul ux).add (uy.mul uy)).add (uz.mul uz)).congr_deriv ?_
    simp [hx, hy, hz]
  have hs : HasDerivAt (fun e => (y e).sqNorm) (2 * (y 0).w * w') 0 := by
    refine ((((hw.mul hw).add (ux.mul ux)).add (uy.mul uy)).add (uz.mul uz)).congr_deriv ?_
    simp [hx, hy, hz]; ring
  have hs0 : (y 0).sqNorm = (y 0).w ^ 2 := by simp [Quat.sqNorm, hx, hy, hz]; ring
  have hd : HasDerivAt (fun e => 2 * (y e).vec.dot (f e)) (2 * u.dot (f 0)) 0 := by
    refine (((((ux.mul hf.x).add (uy.mul hf.y)).add (uz.mul hf.z))).const_mul 2).congr_deriv ?_
    simp [hx, hy, hz, Vec3.dot]
  have hc := hw.const_mul 2
  have hm : HasDerivAt (fun e => (y e).w ^ 2 - (y e).vec.sqNorm) (2 * (y 0).w * w') 0 := by
    refine ((hw.pow 2).sub hq).congr_deriv ?_
    simp
  have e : ∀ e, (y e).normalized.rotate (f e) = _ := fun e => Quat.normalized_rotate (y e) (hp e) (f e)
  simp only [e]
  have hne := (hp 0).ne'
  refine ⟨?_, ?_, ?_⟩
  · refine HasDerivAt.congr_deriv ((((hm.mul hf.x).add (hd.mul ux)).add (hc.mul ((uy.mul hf.z).sub (uz.mul hf.y)))).div hs hne) ?_
    rw [hs0]
    simp [hx, hy, hz, Quat.vec, Vec3.dot, Vec3.sqNorm]
    field_simp
    ring
  · refine HasDerivAt.congr_deriv ((((hm.mul hf.y).add (hd.mul uy)).add (hc.mul ((uz.mul hf.x).sub (ux.mul hf.z)))).div hs hne) ?_
    rw [hs0]
    simp [hx, hy, hz, Quat.vec, Vec3.dot, Vec3.sqNorm]
    field_simp
    ring
  · refine HasDerivAt.congr_deriv ((((hm.mul hf.z).add (hd.mul uz)).add (hc.mul ((ux.mul hf.y).sub (uy.mul hf.x)))).div hs hne) ?_
    rw [hs0]
    simp [hx, hy, hz, Quat.vec, Vec3.dot, Vec3.sqNorm]
    field_simp
    ring

/-! ### The attitude after a step -/

/-- The rotation between the attitudes reached with rotation increments `u` and `u'`, the second from an attitude with error `t`. -/
noncomputable def spin (u t u' : Vec3 ℝ) : Quat ℝ := ((conjQ (Utility.deltaQ u)).mul (Utility.deltaQ t)).mul (Utility.deltaQ u')

theorem deltaQ_pos (u : Vec3 ℝ) : 0 < (Utility.deltaQ u).sqNorm := lt_of_lt_of_le one_pos (Quat.sqNorm_deltaQ_pos u)

theorem conj_pos (a : Quat ℝ) (h : 0 < a.sqNorm) : 0 < (conjQ a).sqNorm := by
  have : (conjQ a).sqNorm = a.sqNorm := by simp [Quat.sqNorm, conjQ]
  rw [this]; exact h

theorem spin_pos (u t u' : Vec3 ℝ) : 0 < (spin u t u').sqNorm := by
  unfold spin
  rw [Quat.sqNorm_mul, Quat.sqNorm_mul]
  have := conj_pos _ (deltaQ_pos u)
  have := deltaQ_pos t
  have := deltaQ_pos u'
  positivity

theorem spin_normalized (q : Quat ℝ) (hq : q.sqNorm = 1) (u t u' : Vec3 ℝ) :
    (q.mul (Utility.deltaQ u)).normalized.inverse.mul ((((q.mul (Utility.deltaQ t)).normalized).mul (Utility.deltaQ u')).normalized) = (spin u t u').normalized := by
  have h1 := Quat.sqNorm_normalized _ (deltaQ_pos u)
  have h2 := Quat.sqNorm_normalized _ (deltaQ_pos t)
  rw [Quat.mul_normalized_of_unit q _ hq, Quat.mul_normalized_of_unit q _ hq, Quat.mul_normalized_of_unit _ (Utility.deltaQ u') (by rw [Quat.sqNorm_mul, hq, h2, one_mul]), Quat.inverse_mul _ _ hq h1,
    Quat.mul_assoc', Quat.mul_assoc', ← Quat.mul_assoc' q.inverse, Quat.inverse_mul_of_unit q hq, Quat.one_mul', Quat.normalized_inverse _ (deltaQ_pos u), ← Quat.mul_assoc',
    Quat.normalized_mul _ _ (conj_pos _ (deltaQ_pos u)) (deltaQ_pos t),
    Quat.normalized_mul _ _ (by rw [Quat.sqNorm_mul]; exact mul_pos (conj_pos _ (deltaQ_pos u)) (deltaQ_pos t)) (deltaQ_pos u')]
  rfl

/-- The derivative of the vector part of `spin` along the errors `e t` and `u' = u - e b`. -/
noncomputable def spinRate (u t b : Vec3 ℝ) : Vec3 ℝ :=
  Vec3.smul (1 / 2 - u.sqNorm / 8) t - .smul (1 / 2) (u.cross t) + .smul (u.dot t / 4) u - .smul (1 / 2) b + .smul (1 / 4) (u.cross b)

theorem sqNorm_nonneg (u : Vec3 ℝ) : 0 ≤ u.sqNorm := add_nonneg (add_nonneg (mul_self_nonneg _) (mul_self_nonneg _)) (mul_self_nonneg _)

theorem spin_zero (u : Vec3 ℝ) : spin u 0 u = ⟨1 + u.sqNorm / 4, 0, 0, 0⟩ := by
  apply Quat.ext <;> simp [spin, Quat.mul, conjQ, Utility.deltaQ, Vec3.sqNorm] <;> ring

/-- The second order of the vector part. -/
noncomputable def spinBend (u t b : Vec3 ℝ) : Vec3 ℝ :=
  Vec3.smul (-(u.dot t / 8)) b - .smul (1 / 2) ((Vec3.smul (1 / 2) t - .smul (1 / 4) (u.cross t)).cross b)

theorem spin_vec (u t b : Vec3 ℝ) : HasDeriv3 (fun e => (spin u (.smul e t) (u - .smul e b)).vec) (spinRate u t b) 0 := by
  refine ⟨?_, ?_, ?_⟩
  · refine (hasDerivAt_quadratic 0 (spinRate u t b).x (spinBend u t b).x).congr_of_eventuallyEq (Filter.Eventually.of_forall fun e => ?_)
    simp [spin, spinRate, spinBend, Quat.mul, conjQ, Quat.vec, Utility.deltaQ, Vec3.sqNorm, Vec3.dot]
    ring
  · refine (hasDerivAt_quadratic 0 (spinRate u t b).y (spinBend u t b).y).congr_of_eventuallyEq (Filter.Eventually.of_forall fun e => ?_)
    simp [spin, spinRate, spinBend, Quat.mul, conjQ, Quat.vec, Utility.deltaQ, Vec3.sqNorm, Vec3.dot]
    ring
  · refine (hasDerivAt_quadratic 0 (spinRate u t b).z (spinBend u t b).z).congr_of_eventuallyEq (Filter.Eventually.of_forall fun e => ?_)
    simp [spin, spinRate, spinBend, Quat.mul, conjQ, Quat.vec, Utility.deltaQ, Vec3.sqNorm, Vec3.dot]
    ring

theorem spin_w (u t b : Vec3 ℝ) : HasDerivAt (fun e => (spin u (.smul e t) (u - .smul e b)).w) (-(u.dot b / 4)) 0 := by
  refine (hasDerivAt_quadratic (1 + u.sqNorm / 4) (-(u.dot b / 4)) ((Vec3.smul (1 / 2) t - .smul (1 / 4) (u.cross t)).dot b / 2)).congr_of_eventuallyEq (Filter.Eventually.of_forall fun e => ?_)
  simp [spin, Quat.mul, conjQ, Utility.deltaQ, Vec3.sqNorm, Vec3.dot]
  ring

/-! ### The derivative of a step -/

/-- The increment of rotation of a step. -/
noncomputable def turnOf (x : Full) (s0 s1 : Sample ℝ ℝ) : Vec3 ℝ := during (half (s0.2.1 + s1.2.1) - x.bg) (gap s0 s1)

/-- The derivative of the attitude error after a step. -/
noncomputable def rateTheta (u t b : Vec3 ℝ) : Vec3 ℝ := .smul (2 / (1 + u.sqNorm / 4)) (spinRate u t b)

/-- The derivative of the error after a step with respect to the error before it. -/
noncomputable def rateErr (g : Vec3 ℝ) (s0 s1 : Sample ℝ ℝ) (x : Full) (δ : ErrState ℝ) : ErrState ℝ :=
  let d := gap s0 s1
  let w := rateTheta (turnOf x s0 s1) δ.theta (during δ.bg d)
  let v := δ.v + during (half (x.m.q.rotate (δ.theta.cross (s0.1 - x.ba) - δ.ba) + (advance g s0 s1 x).m.q.rotate (w.cross (s1.1 - x.ba) - δ.ba))) d
  { p := δ.p + during (half (δ.v + v)) d, v := v, theta := w, ba := δ.ba, bg := δ.bg }

/-- A curve of errors is differentiable with the given derivative. -/
structure HasDerivErr (f : ℝ → ErrState ℝ) (d : ErrState ℝ) (a : ℝ) : Prop where
  p : HasDeriv3 (fun e => (f e).p) d.p a
  v : HasDeriv3 (fun e => (f e).v) d.v a
  theta : HasDeriv3 (fun e => (f e).theta) d.theta a
  ba : HasDeriv3 (fun e => (f e).ba) d.ba a
  bg : HasDeriv3 (fun e => (f e).bg) d.bg a

theorem HasDeriv3.during {f : ℝ → Vec3 ℝ} {d : Vec3 ℝ} {a : ℝ} (h : HasDeriv3 f d a) (k : ℝ) : HasDeriv3 (fun e => Reckon.during (f e) k) (Reckon.during d k) a :=
  ⟨h.x.mul_const k, h.y.mul_const k, h.z.mul_const k⟩

theorem HasDeriv3.half {f : ℝ → Vec3 ℝ} {d : Vec3 ℝ} {a : ℝ} (h : HasDeriv3 f d a) : HasDeriv3 (fun e => Reckon.half (f e)) (Reckon.half d) a :=
  ⟨h.x.const_mul _, h.y.const_mul _, h.z.const_mul _⟩

theorem HasDeriv3.of_eq {f f' : ℝ → Vec3 ℝ} {d : Vec3 ℝ} {a : ℝ} (h : HasDeriv3 f d a) (e : ∀ x, f' x = f x) : HasDeriv3 f' d a := by
  rw [show f' = f from funext e]; exact h

/-- `error` inverts `inject`: errors are a chart of the states with unit attitude. -/
theorem error_inject (x : Full) (hq : x.m.q.sqNorm = 1) (δ : ErrState ℝ) : error x (inject x δ) = δ := by
  have ht : angle (x.m.q.inverse.mul (x.m.q.mul (Utility.deltaQ δ.theta)).normalized) = δ.theta := by
    rw [Quat.mul_normalized_of_unit _ _ hq, ← Quat.mul_assoc', Quat.inverse_mul_of_unit _ hq, Quat.one_mul', angle_normalized _ (deltaQ_pos _)]
    apply Vec3.ext <;> simp [angle, Utility.deltaQ] <;> ring
  unfold error inject
  simp only [ht]
  have h3 : ∀ a b : Vec3 ℝ, a + b - a = b := fun a b => by apply Vec3.ext <;> simp
  simp only [h3]

/-- The attitudes reached from a state and from one with an error. -/
theorem advance_q (g : Vec3 ℝ) (s0 s1 : Sample ℝ ℝ) (x : Full) (hq : x.m.q.sqNorm = 1) (δ : ErrState ℝ) :
    (advance g s0 s1 x).m.q.inverse.mul (advance g s0 s1 (inject x δ)).m.q = (spin (turnOf x s0 s1) δ.theta (turnOf x s0 s1 - during δ.bg (gap s0 s1))).normalized := by
  rw [← spin_normalized x.m.q hq]
  have : turnOf x s0 s1 - during δ.bg (gap s0 s1) = during (half (s0.2.1 + s1.2.1) - (x.bg + δ.bg)) (gap s0 s1) := by
    apply Vec3.ext <;> simp [turnOf, during] <;> ring
  rw [this]
  rfl

theorem rateErr_hasDeriv (g : Vec3 ℝ) (s0 s1 : Sample ℝ ℝ) (x : Full) (hq : x.m.q.sqNorm = 1) (δ : ErrState ℝ) :
    HasDerivErr (fun e => error (advance g s0 s1 x) (advance g s0 s1 (inject x (scale e δ)))) (rateErr g s0 s1 x δ) 0 := by
  set d := gap s0 s1 with hd
  set u := turnOf x s0 s1 with hu
  set b := during δ.bg d with hb
  have hbe : ∀ e, during (scale e δ).bg d = .smul e b := fun e => by apply Vec3.ext <;> simp [scale, hb, during] <;> ring
  have hw := spin_w u δ.theta b
  have hv := spin_vec u δ.theta b
  have h00 : spin u (Vec3.smul 0 δ.theta) (u - .smul 0 b) = spin u 0 u := by
    congr 1 <;> apply Vec3.ext <;> simp
  have hz : (spin u (Vec3.smul 0 δ.theta) (u - .smul 0 b)).vec = 0 := by rw [h00, spin_zero]; rfl
  have hn0 : (spin u (Vec3.smul 0 δ.theta) (u - .smul 0 b)).w = 1 + u.sqNorm / 4 := by rw [h00, spin_zero]
  have hn : (spin u (Vec3.smul 0 δ.theta) (u - .smul 0 b)).w ≠ 0 := by
    rw [hn0]
    have := sqNorm_nonneg u
    positivity
  have hq1 : (advance g s0 s1 x).m.q.sqNorm = 1 := Reckon.step_unit g x.ba x.bg x.m s0 s1 hq
  have hrel : ∀ e, (advance g s0 s1 (inject x (scale e δ))).m.q = (advance g s0 s1 x).m.q.mul (spin u (.smul e δ.theta) (u - .smul e b)).normalized := by
    intro e
    have := advance_q g s0 s1 x hq (scale e δ)
    rw [← hd, hbe, ← hu] at this
    have h2 := congrArg (Quat.mul (advance g s0 s1 x).m.q) this
    rw [← Quat.mul_assoc', Quat.mul_inverse_of_unit _ hq1, Quat.one_mul'] at h2
    exact h2
  have hth : HasDeriv3 (fun e => (error (advance g s0 s1 x) (advance g s0 s1 (inject x (scale e δ)))).theta) (rateErr g s0 s1 x δ).theta 0 := by
    refine ((hasDeriv3_angle hw hv hz hn).of_eq fun e => ?_).congr ?_
    · show angle ((advance g s0 s1 x).m.q.inverse.mul (advance g s0 s1 (inject x (scale e δ))).m.q) = _
      rw [hrel e, ← Quat.mul_assoc', Quat.inverse_mul_of_unit _ hq1, Quat.one_mul', angle_normalized _ (spin_pos _ _ _)]
    · rw [hn0]; rfl
  have hf : ∀ f : Vec3 ℝ, HasDeriv3 (fun e => f - (x.ba + (scale e δ).ba)) (0 - δ.ba) 0 := fun f => by
    refine ((HasDeriv3.const (f - x.ba) 0).sub (HasDeriv3.line δ.ba 0)).of_eq fun e => ?_
    apply Vec3.ext <;> simp [scale] <;> ring
  have hf0 : ∀ f : Vec3 ℝ, f - (x.ba + (scale 0 δ).ba) = f - x.ba := fun f => by apply Vec3.ext <;> simp [scale]
  -- rotation of the specific force by the two attitudes
  have hr1 : HasDeriv3 (fun e => (advance g s0 s1 (inject x (scale e δ))).m.q.rotate (s1.1 - (x.ba + (scale e δ).ba)))
      ((advance g s0 s1 x).m.q.rotate ((rateTheta u δ.theta b).cross (s1.1 - x.ba) - δ.ba)) 0 := by
    refine (((hasDeriv3_rotate hw hv hz hn (fun e => spin_pos _ _ _) (hf s1.1)).rotate (advance g s0 s1 x).m.q).of_eq fun e => ?_).congr ?_
    · rw [hrel e, Quat.rotate_mul _ _ hq1 (Quat.sqNorm_normalized _ (spin_pos _ _ _))]
    · rw [hn0, hf0]
      congr 1
      apply Vec3.ext <;> simp [rateTheta] <;> ring
  have hr0 : HasDeriv3 (fun e => (inject x (scale e δ)).m.q.rotate (s0.1 - (x.ba + (scale e δ).ba))) (x.m.q.rotate (δ.theta.cross (s0.1 - x.ba) - δ.ba)) 0 := by
    have kw : HasDerivAt (fun e => (Utility.deltaQ (.smul e δ.theta : Vec3 ℝ)).w) 0 0 := hasDerivAt_const _ _
    have kv : HasDeriv3 (fun e => (Utility.deltaQ (.smul e δ.theta : Vec3 ℝ)).vec) (half δ.theta) 0 := by
      refine ((HasDeriv3.line δ.theta 0).half).of_eq fun e => ?_
      apply Vec3.ext <;> simp [Utility.deltaQ, Quat.vec, half] <;> ring
    have kz : (Utility.deltaQ (.smul 0 δ.theta : Vec3 ℝ)).vec = 0 := by apply Vec3.ext <;> simp [Utility.deltaQ, Quat.vec]
    have kn0 : (Utility.deltaQ (.smul 0 δ.theta : Vec3 ℝ)).w = 1 := rfl
    refine (((hasDeriv3_rotate kw kv kz (by rw [kn0]; exact one_ne_zero) (fun e => deltaQ_pos _) (hf s0.1)).rotate x.m.q).of_eq fun e => ?_).congr ?_
    · show (x.m.q.mul (Utility.deltaQ (.smul e δ.theta))).normalized.rotate _ = _
      rw [Quat.mul_normalized_of_unit _ _ hq, Quat.rotate_mul _ _ hq (Quat.sqNorm_normalized _ (deltaQ_pos _))]
    · rw [kn0, hf0]
      congr 1
      apply Vec3.ext <;> simp [half] <;> ring
  have hv1 : HasDeriv3 (fun e => (advance g s0 s1 (inject x (scale e δ))).m.v) (rateErr g s0 s1 x δ).v 0 := by
    have h := (((HasDeriv3.const x.m.v 0).add (HasDeriv3.line δ.v 0)).add ((((hr0.add hr1).half).sub (HasDeriv3.const g 0)).during d))
    refine (h.of_eq fun e => rfl).congr ?_
    apply Vec3.ext <;> simp [rateErr, during, hd, hu, hb]
  have hp1 : HasDeriv3 (fun e => (advance g s0 s1 (inject x (scale e δ))).m.p) (rateErr g s0 s1 x δ).p 0 := by
    have h := (((HasDeriv3.const x.m.p 0).add (HasDeriv3.line δ.p 0)).add ((((HasDeriv3.const x.m.v 0).add (HasDeriv3.line δ.v 0)).add hv1).half.during d))
    refine (h.of_eq fun e => rfl).congr ?_
    apply Vec3.ext <;> simp [rateErr, during, hd, half]
  refine ⟨?_, ?_, hth, ?_, ?_⟩
  · refine ((hp1.sub (HasDeriv3.const (advance g s0 s1 x).m.p 0)).of_eq fun e => rfl).congr ?_
    apply Vec3.ext <;> simp
  · refine ((hv1.sub (HasDeriv3.const (advance g s0 s1 x).m.v 0)).of_eq fun e => rfl).congr ?_
    apply Vec3.ext <;> simp
  · refine (HasDeriv3.line δ.ba 0).of_eq fun e => ?_
    apply Vec3.ext <;> simp [error, advance, inject, scale]
  · refine (HasDeriv3.line δ.bg 0).of_eq fun e => ?_
    apply Vec3.ext <;> simp [error, advance, inject, scale]

/-! ### Order of magnitude in the time step -/

open Asymptotics Topology

/-- Differentiable at time step zero. -/
structure Diff3 (f : ℝ → Vec3 ℝ) : Prop where
  x : DifferentiableAt ℝ (fun e => (f e).x) 0
  y : DifferentiableAt ℝ (fun e => (f e).y) 0
  z : DifferentiableAt ℝ (fun e => (f e).z) 0

namespace Diff3

variable {f g : ℝ → Vec3 ℝ}

theorem const (v : Vec3 ℝ) : Diff3 fun _ => v := ⟨differentiableAt_const _, differentiableAt_const _, differentiableAt_const _⟩

theorem add (h : Diff3 f) (h' : Diff3 g) : Diff3 fun e => f e + g e := ⟨h.x.add h'.x, h.y.add h'.y, h.z.add h'.z⟩

theorem sub (h : Diff3 f) (h' : Diff3 g) : Diff3 fun e => f e - g e := ⟨h.x.sub h'.x, h.y.sub h'.y, h.z.sub h'.z⟩

theorem smul {k : ℝ → ℝ} (hk : DifferentiableAt ℝ k 0) (h : Diff3 f) : Diff3 fun e => Vec3.smul (k e) (f e) := ⟨hk.mul h.x, hk.mul h.y, hk.mul h.z⟩

theorem cross (h : Diff3 f) (h' : Diff3 g) : Diff3 fun e => (f e).cross (g e) :=
  ⟨(h.y.mul h'.z).sub (h.z.mul h'.y), (h.z.mul h'.x).sub (h.x.mul h'.z), (h.x.mul h'.y).sub (h.y.mul h'.x)⟩

theorem dot (h : Diff3 f) (h' : Diff3 g) : DifferentiableAt ℝ (fun e => (f e).dot (g e)) 0 := ((h.x.mul h'.x).add (h.y.mul h'.y)).add (h.z.mul h'.z)

theorem rotate (q : Quat ℝ) (h : Diff3 f) : Diff3 fun e => q.rotate (f e) := by
  have := h
  have hm : Diff3 fun e => q.toMat.mulVec (f e) :=
    ⟨((h.x.const_mul _).add (h.y.const_mul _)).add (h.z.const_mul _), ((h.x.const_mul _).add (h.y.const_mul _)).add (h.z.const_mul _), ((h.x.const_mul _).add (h.y.const_mul _)).add (h.z.const_mul _)⟩
  simpa only [Quat.toMat_mulVec] using hm

end Diff3

/-- Of second order in the time step. -/
structure Second (f : ℝ → Vec3 ℝ) : Prop where
  x : (fun e => (f e).x) =O[𝓝 0] fun e => e ^ 2
  y : (fun e => (f e).y) =O[𝓝 0] fun e => e ^ 2
  z : (fun e => (f e).z) =O[𝓝 0] fun e => e ^ 2

theorem second_scalar {h f : ℝ → ℝ} (hd : DifferentiableAt ℝ h 0) (h0 : h 0 = 0) (hf : ∀ d, f d = d * h d) : f =O[𝓝 0] fun e => e ^ 2 := by
  have h1 : h =O[𝓝 0] fun e : ℝ => e := by simpa [h0] using hd.isBigO_sub
  have h2 := (isBigO_refl (fun e : ℝ => e) (𝓝 0)).mul h1
  rw [show f = fun d => d * h d from funext hf]
  simpa only [sq] using h2

theorem second_of {h f : ℝ → Vec3 ℝ} (hd : Diff3 h) (h0 : h 0 = 0) (hf : ∀ d, f d = .smul d (h d)) : Second f :=
  ⟨second_scalar hd.x (by rw [h0]; rfl) fun d => by rw [hf]; rfl, second_scalar hd.y (by rw [h0]; rfl) fun d => by rw [hf]; rfl, second_scalar hd.z (by rw [h0]; rfl) fun d => by rw [hf]; rfl⟩

/-- The remainder of the attitude error. -/
noncomputable def remTheta (m t b : Vec3 ℝ) (d : ℝ) : Vec3 ℝ :=
  .smul ((1 + m.sqNorm * d ^ 2 / 4)⁻¹) (Vec3.smul (m.dot t / 2) m - .smul (m.sqNorm / 2) t + .smul (1 / 2) (m.cross b) + .smul (m.sqNorm * d / 4) (m.cross t + b))

theorem den_ne (m : Vec3 ℝ) (d : ℝ) : 1 + m.sqNorm * d ^ 2 / 4 ≠ 0 := by
  have := sqNorm_nonneg m
  positivity

theorem during_sqNorm (m : Vec3 ℝ) (d : ℝ) : 1 + (during m d).sqNorm / 4 = 1 + m.sqNorm * d ^ 2 / 4 := by
  simp only [Vec3.sqNorm, during]; ring

theorem rateTheta_eq (m t b : Vec3 ℝ) (d : ℝ) :
    rateTheta (during m d) t (during b d) = t - .smul d (m.cross t) - .smul d b + .smul d (.smul d (remTheta m t b d)) := by
  have hne := den_ne m d
  unfold rateTheta remTheta
  rw [during_sqNorm]
  have hM : m.sqNorm = m.x * m.x + m.y * m.y + m.z * m.z := rfl
  have hS : (during m d).sqNorm = m.sqNorm * d ^ 2 := by simp only [Vec3.sqNorm, during]; ring
  unfold spinRate
  rw [hS]
  generalize m.sqNorm = M at *
  have hi : (1 + M * d ^ 2 / 4)⁻¹ * (1 + M * d ^ 2 / 4) = 1 := inv_mul_cancel₀ hne
  rw [div_eq_mul_inv]
  generalize (1 + M * d ^ 2 / 4)⁻¹ = N at *
  apply Vec3.ext <;> simp [during, Vec3.dot]
  · linear_combination (t.x - d * (m.y * t.z - m.z * t.y) - d * b.x) * hi
  · linear_combination (t.y - d * (m.z * t.x - m.x * t.z) - d * b.y) * hi
  · linear_combination (t.z - d * (m.x * t.y - m.y * t.x) - d * b.z) * hi

theorem remTheta_diff (m t b : Vec3 ℝ) : Diff3 (remTheta m t b) := by
  have hi : DifferentiableAt ℝ (fun d : ℝ => (1 + m.sqNorm * d ^ 2 / 4)⁻¹) 0 := DifferentiableAt.inv (by fun_prop) (den_ne m 0)
  exact Diff3.smul hi ((Diff3.const _).add (Diff3.smul (by fun_prop) (Diff3.const _)))

theorem rateTheta_diff (m t b : Vec3 ℝ) : Diff3 fun d => rateTheta (during m d) t (during b d) := by
  simp only [rateTheta_eq]
  have hid : DifferentiableAt ℝ (fun d : ℝ => d) 0 := differentiableAt_id
  exact (((Diff3.const t).sub (Diff3.smul hid (Diff3.const _))).sub (Diff3.smul hid (Diff3.const _))).add (Diff3.smul hid (Diff3.smul hid (remTheta_diff m t b)))

/-- Rotation by a small increment. -/
theorem deltaQ_during_rotate (m : Vec3 ℝ) (d : ℝ) (v : Vec3 ℝ) : (Utility.deltaQ (during m d)).normalized.rotate v =
    .smul ((1 + m.sqNorm * d ^ 2 / 4)⁻¹) (Vec3.smul (1 - m.sqNorm * d ^ 2 / 4) v + .smul (d ^ 2 / 2) (.smul (m.dot v) m) + .smul d (m.cross v)) := by
  rw [Quat.normalized_rotate _ (deltaQ_pos _)]
  have : (Utility.deltaQ (during m d)).sqNorm = 1 + m.sqNorm * d ^ 2 / 4 := by
    simp [Quat.sqNorm, Utility.deltaQ, during, Vec3.sqNorm]; ring
  rw [this]
  have hN := den_ne m d
  apply Vec3.ext <;> simp only [Vec3.sdiv, Vec3.smul, div_eq_inv_mul] <;> congr 1 <;> simp [Utility.deltaQ, during, Vec3.sqNorm, Vec3.dot, Quat.vec] <;> ring

theorem deltaQ_during_diff (m : Vec3 ℝ) {f : ℝ → Vec3 ℝ} (hf : Diff3 f) : Diff3 fun d => (Utility.deltaQ (during m d)).normalized.rotate (f d) := by
  simp only [deltaQ_during_rotate]
  have hi : DifferentiableAt ℝ (fun d : ℝ => (1 + m.sqNorm * d ^ 2 / 4)⁻¹) 0 := DifferentiableAt.inv (by fun_prop) (den_ne m 0)
  exact Diff3.smul hi (((Diff3.smul (by fun_prop) hf).add (Diff3.smul (by fun_prop) (Diff3.smul ((Diff3.const m).dot hf) (Diff3.const m)))).add (Diff3.smul (by fun_prop) ((Diff3.const m).cross hf)))

theorem rateErr_second (g a0 w0 a1 w1 : Vec3 ℝ) (t0 : ℝ) (x : Full) (hq : x.m.q.sqNorm = 1) (δ : ErrState ℝ) (i : Fin 15) :
    (fun d => ev (rateErr g (a0, w0, t0) (a1, w1, t0 + d) x δ) i - ev (fmap d x.m.q.toMat (midAccel x.ba a0 a1) (midGyro x.bg w0 w1) δ) i) =O[𝓝 0] fun d => d ^ 2 := by
  set m := midGyro x.bg w0 w1 with hm
  have hgap : ∀ d, (gap (a0, w0, t0) (a1, w1, t0 + d) : ℝ) = d := fun d => by
    show t0 + d - t0 = d
    ring
  have hturn : ∀ d, turnOf x (a0, w0, t0) (a1, w1, t0 + d) = during m d := fun d => by unfold turnOf; rw [hgap]; rfl
  set W : ℝ → Vec3 ℝ := fun d => rateTheta (during m d) δ.theta (during δ.bg d) with hW
  have hWd : Diff3 W := rateTheta_diff m δ.theta δ.bg
  have hW0 : W 0 = δ.theta := by
    show rateTheta (during m 0) δ.theta (during δ.bg 0) = _
    rw [rateTheta_eq]; apply Vec3.ext <;> simp
  have hq1 : ∀ d f, (advance g (a0, w0, t0) (a1, w1, t0 + d) x).m.q.rotate f = x.m.q.rotate ((Utility.deltaQ (during m d)).normalized.rotate f) := fun d f => by
    have : (advance g (a0, w0, t0) (a1, w1, t0 + d) x).m.q = (x.m.q.mul (Utility.deltaQ (during m d))).normalized := by
      rw [← hturn]; rfl
    rw [this, Quat.mul_normalized_of_unit _ _ hq, Quat.rotate_mul _ _ hq (Quat.sqNorm_normalized _ (deltaQ_pos _))]
  -- the change of velocity
  set V : ℝ → Vec3 ℝ := fun d => .smul (1 / 2) (x.m.q.rotate (δ.theta.cross (a0 - x.ba) - δ.ba) +
    x.m.q.rotate ((Utility.deltaQ (during m d)).normalized.rotate ((W d).cross (a1 - x.ba) - δ.ba))) with hV
  have hVd : Diff3 V := Diff3.smul (differentiableAt_const _) ((Diff3.const _).add (Diff3.rotate _ (deltaQ_during_diff m ((hWd.cross (Diff3.const _)).sub (Diff3.const _)))))
  have hrv : ∀ d, (rateErr g (a0, w0, t0) (a1, w1, t0 + d) x δ).v = δ.v + .smul d (V d) := fun d => by
    have : (rateErr g (a0, w0, t0) (a1, w1, t0 + d) x δ).v = δ.v + during (half (x.m.q.rotate (δ.theta.cross (a0 - x.ba) - δ.ba) + (advance g (a0, w0, t0) (a1, w1, t0 + d) x).m.q.rotate ((W d).cross (a1 - x.ba) - δ.ba))) d := by
      simp only [rateErr, hgap, hturn, hW]
    rw [this, hq1]
    apply Vec3.ext <;> simp [hV, during, half] <;> ring
  have hV0 : V 0 = .smul (-1) (x.m.q.rotate ((midAccel x.ba a0 a1).cross δ.theta + δ.ba)) := by
    have h1 : ∀ f, (Utility.deltaQ (during m 0)).normalized.rotate f = f := fun f => by
      rw [deltaQ_during_rotate]; apply Vec3.ext <;> simp
    simp only [hV, h1, hW0]
    rw [← Quat.rotate_add, ← Quat.rotate_smul, ← Quat.rotate_smul]
    congr 1
    apply Vec3.ext <;> simp [midAccel] <;> ring
  have sv : Second fun d => (rateErr g (a0, w0, t0) (a1, w1, t0 + d) x δ).v - (fmap d x.m.q.toMat (midAccel x.ba a0 a1) m δ).v := by
    refine second_of (h := fun d => V d - V 0) (hVd.sub (Diff3.const _)) (by apply Vec3.ext <;> simp) fun d => ?_
    rw [hrv, hV0]
    simp only [fmap, Quat.toMat_mulVec, Quat.rotate_add]
    apply Vec3.ext <;> simp <;> ring
  have sp : Second fun d => (rateErr g (a0, w0, t0) (a1, w1, t0 + d) x δ).p - (fmap d x.m.q.toMat (midAccel x.ba a0 a1) m δ).p := by
    refine second_of (h := fun d => .smul (d / 2) (V d)) (Diff3.smul (by fun_prop) hVd) (by apply Vec3.ext <;> simp) fun d => ?_
    have : (rateErr g (a0, w0, t0) (a1, w1, t0 + d) x δ).p = δ.p + during (half (δ.v + (rateErr g (a0, w0, t0) (a1, w1, t0 + d) x δ).v)) d := by
      simp only [rateErr, hgap]
    rw [this, hrv]
    apply Vec3.ext <;> simp [fmap, during, half] <;> ring
  have st : Second fun d => (rateErr g (a0, w0, t0) (a1, w1, t0 + d) x δ).theta - (fmap d x.m.q.toMat (midAccel x.ba a0 a1) m δ).theta := by
    refine second_of (h := fun d => .smul d (remTheta m δ.theta δ.bg d)) (Diff3.smul differentiableAt_id (remTheta_diff _ _ _)) (by apply Vec3.ext <;> simp) fun d => ?_
    have : (rateErr g (a0, w0, t0) (a1, w1, t0 + d) x δ).theta = rateTheta (during m d) δ.theta (during δ.bg d) := by simp only [rateErr, hgap, hturn]
    rw [this, rateTheta_eq]
    apply Vec3.ext <;> simp [fmap]
  have z0 : (fun _ : ℝ => (0 : ℝ)) =O[𝓝 0] fun e : ℝ => e ^ 2 := isBigO_zero _ _
  have key : ∀ (a b : ErrState ℝ) (n : Nat), errToVec (fun _ => (0 : ℝ)) a n - errToVec (fun _ => 0) b n = if n < 3 then (a.p - b.p).get n else if n < 6 then (a.v - b.v).get (n - 3)
      else if n < 9 then (a.theta - b.theta).get (n - 6) else if n < 12 then (a.ba - b.ba).get (n - 9) else if n < 15 then (a.bg - b.bg).get (n - 12) else 0 := fun a b n => by
    rw [errToVec_eq, errToVec_eq]
    have hg : ∀ (u v : Vec3 ℝ) k, u.get k - v.get k = (u - v).get k := fun u v k => by
      unfold Vec3.get; split_ifs <;> rfl
    split_ifs <;> first | exact hg _ _ _ | simp
  have hg : ∀ (f : ℝ → Vec3 ℝ) (k : Nat), Second f → (fun d => (f d).get k) =O[𝓝 0] fun e : ℝ => e ^ 2 := fun f k h => by
    unfold Vec3.get
    split_ifs
    · exact h.x
    · exact h.y
    · exact h.z
  show (fun d => errToVec (fun _ => (0 : ℝ)) _ (i : Nat) - errToVec (fun _ => (0 : ℝ)) _ (i : Nat)) =O[𝓝 0] _
  simp only [key]
  split_ifs
  · exact hg _ _ sp
  · exact hg _ _ sv
  · exact hg _ _ st
  · refine hg _ _ ⟨?_, ?_, ?_⟩ <;> · simp only [rateErr, fmap, Vec3.sub_x, Vec3.sub_y, Vec3.sub_z, sub_self]; exact z0
  · refine hg _ _ ⟨?_, ?_, ?_⟩ <;> · simp only [rateErr, fmap, Vec3.sub_x, Vec3.sub_y, Vec3.sub_z, sub_self]; exact z0
  · exact z0

/-- The state after a step of the propagator with the samples `a`, `w` at time `t`, from an item whose motion and whose biases are those of `x`. -/
noncomputable def after (s : PropQueue ℝ ℝ) (g : Vec3 ℝ) (i0 : PropItem ℝ ℝ) (a w : Vec3 ℝ) (t : ℝ) (x : Full) : Full :=
  ⟨{ s with biasA := x.ba, biasG := x.bg }.nominal g { i0 with st := x.m } a w t, x.ba, x.bg⟩

theorem after_eq (s : PropQueue ℝ ℝ) (g : Vec3 ℝ) (i0 : PropItem ℝ ℝ) (a w : Vec3 ℝ) (t : ℝ) (x : Full) :
    after s g i0 a w t x = advance g (i0.accel, i0.gyro, i0.ts) (a, w, t) x := rfl

/-- C89: errors are a chart: injecting an error into a state gives a state with that error. -/
theorem C89_chart (x : Full) (hq : x.m.q.sqNorm = 1) (δ : ErrState ℝ) : error x (inject x δ) = δ := error_inject x hq δ

/-- C89: the error after a step of the nominal propagation is differentiable in the error before it, and the derivative is `F` times the error up to the second order in the time step. -/
theorem C89_first_order (s : PropQueue ℝ ℝ) (hs : Clean s) (g : Vec3 ℝ) (i0 : PropItem ℝ ℝ) (hq : i0.st.q.sqNorm = 1) (a w : Vec3 ℝ) (δ : ErrState ℝ) :
    ∃ J : ℝ → ErrState ℝ,
      (∀ d, HasDerivErr (fun e => error (after s g i0 a w (i0.ts + d) ⟨i0.st, s.biasA, s.biasG⟩) (after s g i0 a w (i0.ts + d) (inject ⟨i0.st, s.biasA, s.biasG⟩ (scale e δ)))) (J d) 0) ∧
      ∀ i, (fun d => ev (J d) i - ((s.stepF i0 a w (i0.ts + d)).toM 15 15).mulVec (ev δ) i) =O[𝓝 0] fun d => d ^ 2 := by
  refine ⟨fun d => rateErr g (i0.accel, i0.gyro, i0.ts) (a, w, i0.ts + d) ⟨i0.st, s.biasA, s.biasG⟩ δ, fun d => ?_, fun i => ?_⟩
  · simp only [after_eq]
    exact rateErr_hasDeriv g _ _ ⟨i0.st, s.biasA, s.biasG⟩ hq δ
  · have h := rateErr_second g i0.accel i0.gyro a w i0.ts ⟨i0.st, s.biasA, s.biasG⟩ hq δ i
    have hd : ∀ d, (dt i0.ts (i0.ts + d) : ℝ) = d := fun d => by
      show i0.ts + d - i0.ts = d
      ring
    simp only [(clean_stepF s hs i0 a w _).1, fM_ev, hd]
    exact h

/-- The matrix is not the derivative itself: with a rotation rate of two about the vertical, an attitude error about the same axis and a step of one second, the derivative of the attitude error
is the error itself but a horizontal error is turned by ninety degrees, while `F` stretches it. -/
theorem C89_not_exact : rateTheta (during ⟨0, 0, 2⟩ 1) ⟨1, 0, 0⟩ 0 = ⟨0, -1, 0⟩ ∧ (fmap 1 .one 0 ⟨0, 0, 2⟩ ⟨0, 0, ⟨1, 0, 0⟩, 0, 0⟩).theta = ⟨1, -2, 0⟩ := by
  refine ⟨?_, ?_⟩
  · apply Vec3.ext <;> simp [rateTheta, spinRate, during, Vec3.sqNorm, Vec3.dot] <;> norm_num
  · apply Vec3.ext <;> simp [fmap]

/-- A clean queue whose newest item has unit attitude. -/
example : Clean (PropQueue.init ⟨0, 0, .one⟩ : PropQueue ℝ ℝ) ∧ (⟨⟨0, 0, .one⟩, .zero 15 15, .zero 15 6, ⟨0, 0, 10⟩, ⟨0, 0, 2⟩, 3⟩ : PropItem ℝ ℝ).st.q.sqNorm = 1 := by
  refine ⟨?_, by simp [Quat.sqNorm, Quat.one]⟩
  constructor <;> intros <;> rfl

end Vio
