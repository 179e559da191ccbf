/-
C129: the newest published state is as close to the true motion as the updated one, apart from the drift of dead reckoning since then.
-/
import Verif.Props.Converge
import Verif.Props.Reckon

set_option linter.unusedSectionVars false

namespace Vio

open Quaternion Conv

namespace Drift

/-- Normalising is 1-Lipschitz outside the unit ball. -/
theorem unit_lipschitz (x y : ℍ[ℝ]) (hx : 1 ≤ ‖x‖) (hy : 1 ≤ ‖y‖) : ‖(‖x‖⁻¹ : ℝ) • x - (‖y‖⁻¹ : ℝ) • y‖ ≤ ‖x - y‖ := by
  have hx0 : (0 : ℝ) < ‖x‖ := by linarith
  have hy0 : (0 : ℝ) < ‖y‖ := by linarith
  refine le_of_sq_le_sq ?_ (_root_.norm_nonneg _)
  rw [norm_sub_sq_real, norm_sub_sq_real, norm_smul, norm_smul, norm_inv, norm_inv, norm_norm, norm_norm, inv_mul_cancel₀ hx0.ne', inv_mul_cancel₀ hy0.ne', real_inner_smul_left, real_inner_smul_right]
  have hc := real_inner_le_norm x y
  generalize ‖x‖ = a at *
  generalize ‖y‖ = b at *
  generalize (inner ℝ x y : ℝ) = c at *
  have hab : 1 ≤ a * b := by nlinarith
  have e : a ^ 2 - 2 * c + b ^ 2 - (1 ^ 2 - 2 * (a⁻¹ * (b⁻¹ * c)) + 1 ^ 2) = (a - b) ^ 2 + 2 * (a * b - 1) * (1 - c / (a * b)) := by field_simp; ring
  have h1 : c / (a * b) ≤ 1 := by rw [div_le_one (by positivity)]; exact hc
  have : 0 ≤ (a - b) ^ 2 + 2 * (a * b - 1) * (1 - c / (a * b)) := by
    have := mul_nonneg (by linarith : 0 ≤ a * b - 1) (by linarith : 0 ≤ 1 - c / (a * b))
    nlinarith [sq_nonneg (a - b)]
  linarith

/-- The attitude of a step on Mathlib quaternions. -/
theorem mul_delta (q : Quat ℝ) (hq : q.sqNorm = 1) (θ : Vec3 ℝ) :
    1 ≤ ‖1 + (1 / 2 : ℝ) • θ.toH‖ ∧ (q.mul (Utility.deltaQ θ)).normalized.toH = q.toH * ((‖1 + (1 / 2 : ℝ) • θ.toH‖⁻¹ : ℝ) • (1 + (1 / 2 : ℝ) • θ.toH)) ∧
    (q.mul (Utility.deltaQ θ)).normalized.sqNorm = 1 := by
  have hu := (norm_unit ((1 / 2 : ℝ) • θ.toH) (by simp)).1
  have hd : (Utility.deltaQ θ).toH = 1 + (1 / 2 : ℝ) • θ.toH := deltaQ_toH θ
  have hm : ‖(q.mul (Utility.deltaQ θ)).toH‖ = ‖1 + (1 / 2 : ℝ) • θ.toH‖ := by rw [Quat.toH_mul, norm_mul, Quat.norm_toH_unit _ hq, one_mul, hd]
  have hp : 0 < (q.mul (Utility.deltaQ θ)).sqNorm := by
    rw [← Quat.norm_sq_toH, hm]
    have : 0 < ‖1 + (1 / 2 : ℝ) • θ.toH‖ := by linarith
    positivity
  refine ⟨hu, ?_, Quat.sqNorm_normalized _ hp⟩
  rw [Quat.toH_normalized _ hp, hm, Quat.toH_mul, hd, mul_smul_comm]

/-- What an IMU with the biases `ba` and `bg` reads at the time `t`. -/
def reading (w a : ℝ → Vec3 ℝ) (ba bg : Vec3 ℝ) (t : ℝ) : Reckon.Sample ℝ ℝ := (a t + ba, w t + bg, t)

/-- A sample at time `t` that, with the biases `ba` and `bg` removed, is off the true specific force by at most `εa` and off the true rate by at most `εg`. -/
structure Reads (w a : ℝ → Vec3 ℝ) (ba bg : Vec3 ℝ) (εa εg : ℝ) (s : Reckon.Sample ℝ ℝ) (t : ℝ) : Prop where
  time : s.2.2 = t
  force : ((s.1 - ba) - a t).norm ≤ εa
  rate : ((s.2.1 - bg) - w t).norm ≤ εg

theorem during_toH (v : Vec3 ℝ) (d : ℝ) : (Reckon.during v d).toH = d • v.toH := by ext <;> simp [Reckon.during, mul_comm]
theorem half_toH (v : Vec3 ℝ) : (Reckon.half v).toH = (1 / 2 : ℝ) • v.toH := by ext <;> simp [Reckon.half]

variable {q : ℝ → Quat ℝ} {v p w a : ℝ → Vec3 ℝ} {g : Vec3 ℝ} {lo hi W L A M : ℝ}

/-- One step with imperfect samples. -/
theorem noisy_step (h : Flight q v p w a g lo hi W L A M) (ba bg : Vec3 ℝ) (εa εg t0 t1 : ℝ) (s0 s1 : Reckon.Sample ℝ ℝ) (r0 : Reads w a ba bg εa εg s0 t0) (r1 : Reads w a ba bg εa εg s1 t1) (h0 : lo ≤ t0)
    (ht : t0 ≤ t1) (h1 : t1 ≤ hi) (m : Motion ℝ) (hq : m.q.sqNorm = 1) (x : Motion ℝ) (hx : x = Reckon.step g ba bg m s0 s1) (EQ EV : ℝ)
    (hEQ : errQ q t0 m + ((W ^ 2 + L) * (t1 - t0) + εg / 2) * (t1 - t0) ≤ EQ) (hEV : errV v t0 m + (A * (errQ q t0 m + EQ) + (A * W + M) / 2 * (t1 - t0) + εa) * (t1 - t0) ≤ EV) :
    x.q.sqNorm = 1 ∧ errQ q t1 x ≤ EQ ∧ errV v t1 x ≤ EV ∧ errP p t1 x ≤ errP p t0 m + ((errV v t0 m + EV) / 2 + (A + ‖g.toH‖) / 2 * (t1 - t0)) * (t1 - t0) := by
  obtain ⟨y, hy⟩ : ∃ y, y = Reckon.step g ba bg m (reading w a ba bg t0) (reading w a ba bg t1) := ⟨_, rfl⟩
  obtain ⟨d, hd⟩ : ∃ d, d = t1 - t0 := ⟨_, rfl⟩
  have hd0 : 0 ≤ d := by rw [hd]; linarith
  have m1 : t1 ∈ Set.Icc lo hi := ⟨h0.trans ht, h1⟩
  have hA : 0 ≤ A := (_root_.norm_nonneg _).trans (h.force t1 m1)
  obtain ⟨s, hs⟩ : ∃ s : PropQueue ℝ ℝ, s = { (PropQueue.init m : PropQueue ℝ ℝ) with biasA := ba, biasG := bg } := ⟨_, rfl⟩
  obtain ⟨b1, b2, b3, b4⟩ := h.step s ⟨m, DMat.ident 0, DMat.ident 0, a t0 + ba, w t0 + bg, t0⟩ t1 h0 ht h1 hq (by rw [hs]) (by rw [hs]) y (by rw [hy, hs]; rfl)
  dsimp only at b2 b3 b4
  have g0 : Reckon.gap s0 s1 = d := by
    show s1.2.2 - s0.2.2 = d
    rw [r0.time, r1.time, hd]
  have g1 : Reckon.gap (reading w a ba bg t0) (reading w a ba bg t1) = d := hd.symm
  -- attitude
  obtain ⟨k1, k2, k3⟩ := mul_delta m.q hq (Reckon.during (Reckon.half (s0.2.1 + s1.2.1) - bg) d)
  obtain ⟨l1, l2, l3⟩ := mul_delta m.q hq (Reckon.during (Reckon.half ((w t0 + bg) + (w t1 + bg)) - bg) d)
  have xq : x.q = (m.q.mul (Utility.deltaQ (Reckon.during (Reckon.half (s0.2.1 + s1.2.1) - bg) d))).normalized := by rw [hx, Reckon.step, g0]
  have yq : y.q = (m.q.mul (Utility.deltaQ (Reckon.during (Reckon.half ((w t0 + bg) + (w t1 + bg)) - bg) d))).normalized := by rw [hy, Reckon.step, g1]; rfl
  rw [← xq] at k2 k3
  rw [← yq] at l2
  have dq : ‖x.q.toH - y.q.toH‖ ≤ εg / 2 * d := by
    rw [k2, l2, ← mul_sub, norm_mul, Quat.norm_toH_unit _ hq, one_mul]
    refine (unit_lipschitz _ _ k1 l1).trans ?_
    have e : (1 + (1 / 2 : ℝ) • (Reckon.during (Reckon.half (s0.2.1 + s1.2.1) - bg) d).toH) - (1 + (1 / 2 : ℝ) • (Reckon.during (Reckon.half ((w t0 + bg) + (w t1 + bg)) - bg) d).toH) =
        (d / 4) • (((s0.2.1 - bg) - w t0).toH + ((s1.2.1 - bg) - w t1).toH) := by
      simp only [during_toH, half_toH, Vec3.toH_sub, Vec3.toH_add]
      module
    rw [e, norm_smul, Real.norm_of_nonneg (by positivity)]
    have n := norm_add_le ((s0.2.1 - bg) - w t0).toH ((s1.2.1 - bg) - w t1).toH
    have n0 := r0.rate
    have n1 := r1.rate
    rw [← Vec3.norm_toH] at n0 n1
    have := mul_le_mul_of_nonneg_left (n.trans (add_le_add n0 n1)) (by positivity : 0 ≤ d / 4)
    linarith
  have tq : errQ q t1 x ≤ errQ q t1 y + ‖x.q.toH - y.q.toH‖ := by
    unfold errQ
    rw [show x.q.toH - (q t1).toH = (y.q.toH - (q t1).toH) + (x.q.toH - y.q.toH) by abel]
    exact norm_add_le _ _
  rw [← hd] at b2 b3 b4 hEQ hEV ⊢
  have bq : errQ q t1 y + ‖x.q.toH - y.q.toH‖ ≤ EQ := by
    refine le_trans ?_ hEQ
    have r4 : ((W ^ 2 + L) * d + εg / 2) * d = (W ^ 2 + L) * d ^ 2 + εg / 2 * d := by ring
    linarith
  -- velocity
  have xv : x.v = m.v + Reckon.during (Reckon.half (m.q.rotate (s0.1 - ba) + x.q.rotate (s1.1 - ba)) - g) d := by rw [xq, hx, Reckon.step, g0]
  have yv : y.v = m.v + Reckon.during (Reckon.half (m.q.rotate ((a t0 + ba) - ba) + y.q.rotate ((a t1 + ba) - ba)) - g) d := by rw [yq, hy, Reckon.step, g1]; rfl
  have c0 : (a t0 + ba) - ba = a t0 := by apply Vec3.ext <;> simp
  have c1 : (a t1 + ba) - ba = a t1 := by apply Vec3.ext <;> simp
  rw [c0, c1] at yv
  have dv : ‖x.v.toH - y.v.toH‖ ≤ (εa + A * ‖x.q.toH - y.q.toH‖) * d := by
    have e : x.v.toH - y.v.toH = (d / 2) • ((m.q.toH * (s0.1 - ba).toH * star m.q.toH - m.q.toH * (a t0).toH * star m.q.toH)
        + ((x.q.toH * (s1.1 - ba).toH * star x.q.toH - x.q.toH * (a t1).toH * star x.q.toH) + (x.q.toH * (a t1).toH * star x.q.toH - y.q.toH * (a t1).toH * star y.q.toH))) := by
      rw [xv, yv]
      simp only [during_toH, half_toH, Vec3.toH_sub, Vec3.toH_add, Quat.toH_rotate _ _ hq, Quat.toH_rotate _ _ k3, Quat.toH_rotate _ _ b1]
      module
    rw [e, norm_smul, Real.norm_of_nonneg (by positivity)]
    have n0 := r0.force
    have n1 := r1.force
    rw [← Vec3.norm_toH, Vec3.toH_sub _ (a _)] at n0 n1
    have f0 := rot_sub m.q.toH (s0.1 - ba).toH (a t0).toH (Quat.norm_toH_unit _ hq)
    have f1 := rot_sub x.q.toH (s1.1 - ba).toH (a t1).toH (Quat.norm_toH_unit _ k3)
    have f2 := rot_diff x.q.toH y.q.toH (a t1).toH (Quat.norm_toH_unit _ k3) (Quat.norm_toH_unit _ b1)
    have f3 := h.force t1 m1
    have f4 : 2 * ‖(a t1).toH‖ * ‖x.q.toH - y.q.toH‖ ≤ 2 * A * ‖x.q.toH - y.q.toH‖ := mul_le_mul_of_nonneg_right (by linarith) (_root_.norm_nonneg _)
    have f5 := (norm_add_le (m.q.toH * (s0.1 - ba).toH * star m.q.toH - m.q.toH * (a t0).toH * star m.q.toH)
      ((x.q.toH * (s1.1 - ba).toH * star x.q.toH - x.q.toH * (a t1).toH * star x.q.toH) + (x.q.toH * (a t1).toH * star x.q.toH - y.q.toH * (a t1).toH * star y.q.toH)))
    have f6 := norm_add_le (x.q.toH * (s1.1 - ba).toH * star x.q.toH - x.q.toH * (a t1).toH * star x.q.toH) (x.q.toH * (a t1).toH * star x.q.toH - y.q.toH * (a t1).toH * star y.q.toH)
    rw [f0] at f5
    rw [f1] at f6
    have f7 := f5.trans (by linarith : _ ≤ εa + (εa + 2 * A * ‖x.q.toH - y.q.toH‖))
    have f8 := mul_le_mul_of_nonneg_left f7 (by positivity : 0 ≤ d / 2)
    have r4 : d / 2 * (εa + (εa + 2 * A * ‖x.q.toH - y.q.toH‖)) = (εa + A * ‖x.q.toH - y.q.toH‖) * d := by ring
    rwa [r4] at f8
  have tv : errV v t1 x ≤ errV v t1 y + ‖x.v.toH - y.v.toH‖ := by
    unfold errV
    rw [show x.v.toH - (v t1).toH = (y.v.toH - (v t1).toH) + (x.v.toH - y.v.toH) by abel]
    exact norm_add_le _ _
  have bv : errV v t1 y + ‖x.v.toH - y.v.toH‖ ≤ EV := by
    refine le_trans ?_ hEV
    have r1 : d * A * (errQ q t1 y + ‖x.q.toH - y.q.toH‖) ≤ d * A * EQ := mul_le_mul_of_nonneg_left bq (by positivity)
    have r4 : (A * (errQ q t0 m + EQ) + (A * W + M) / 2 * d + εa) * d = d * (A * errQ q t0 m) + d * A * EQ + (A * W + M) / 2 * d ^ 2 + εa * d := by ring
    have r5 : d * (A * (errQ q t0 m + errQ q t1 y)) = d * (A * errQ q t0 m) + d * A * errQ q t1 y := by ring
    have r6 : (εa + A * ‖x.q.toH - y.q.toH‖) * d = εa * d + d * A * ‖x.q.toH - y.q.toH‖ := by ring
    have r7 : d * A * (errQ q t1 y + ‖x.q.toH - y.q.toH‖) = d * A * errQ q t1 y + d * A * ‖x.q.toH - y.q.toH‖ := by ring
    linarith
  -- position
  have xp : x.p = m.p + Reckon.during (Reckon.half (m.v + x.v)) d := by rw [xv, xq, hx, Reckon.step, g0]
  have yp : y.p = m.p + Reckon.during (Reckon.half (m.v + y.v)) d := by
    have e : y.v = m.v + Reckon.during (Reckon.half (m.q.rotate ((a t0 + ba) - ba) + y.q.rotate ((a t1 + ba) - ba)) - g) d := by rw [yq, hy, Reckon.step, g1]; rfl
    rw [e, yq, hy, Reckon.step, g1]; rfl
  have dp : ‖x.p.toH - y.p.toH‖ = d / 2 * ‖x.v.toH - y.v.toH‖ := by
    have e : x.p.toH - y.p.toH = (d / 2) • (x.v.toH - y.v.toH) := by
      rw [xp, yp]
      simp only [during_toH, half_toH, Vec3.toH_add]
      module
    rw [e, norm_smul, Real.norm_of_nonneg (by positivity)]
  have tp : errP p t1 x ≤ errP p t1 y + ‖x.p.toH - y.p.toH‖ := by
    unfold errP
    rw [show x.p.toH - (p t1).toH = (y.p.toH - (p t1).toH) + (x.p.toH - y.p.toH) by abel]
    exact norm_add_le _ _
  refine ⟨k3, tq.trans bq, tv.trans bv, ?_⟩
  rw [dp] at tp
  have r1 : d / 2 * (errV v t1 y + ‖x.v.toH - y.v.toH‖) ≤ d / 2 * EV := mul_le_mul_of_nonneg_left bv (by positivity)
  have r2 : d * ((errV v t0 m + errV v t1 y) / 2) + d / 2 * ‖x.v.toH - y.v.toH‖ = d / 2 * errV v t0 m + d / 2 * (errV v t1 y + ‖x.v.toH - y.v.toH‖) := by ring
  have r3 : ((errV v t0 m + EV) / 2 + (A + ‖g.toH‖) / 2 * d) * d = d / 2 * errV v t0 m + d / 2 * EV + (A + ‖g.toH‖) / 2 * d ^ 2 := by ring
  linarith

/-- Samples that follow one at time `t0`, not decreasing in time, at most `δ` apart, each off the truth by at most `εa` and `εg`. -/
def Course (w a : ℝ → Vec3 ℝ) (ba bg : Vec3 ℝ) (εa εg δ : ℝ) : ℝ → List (Reckon.Sample ℝ ℝ) → Prop
  | _, [] => True
  | t0, s :: rest => t0 ≤ s.2.2 ∧ s.2.2 - t0 ≤ δ ∧ Reads w a ba bg εa εg s s.2.2 ∧ Course w a ba bg εa εg δ s.2.2 rest

/-- The time of the last sample. -/
def endTime : ℝ → List (Reckon.Sample ℝ ℝ) → ℝ
  | t, [] => t
  | _, s :: rest => endTime s.2.2 rest

theorem endTime_ge {ba bg : Vec3 ℝ} {εa εg δ : ℝ} (l : List (Reckon.Sample ℝ ℝ)) : ∀ t, Course w a ba bg εa εg δ t l → t ≤ endTime t l := by
  induction l with
  | nil => intro t _; exact le_refl _
  | cons s l ih => intro t h; exact h.1.trans (ih _ h.2.2.2)

/-- The invariant along the samples: bounds that grow with the time since `o`. -/
theorem noisy_along (h : Flight q v p w a g lo hi W L A M) (hL : 0 ≤ L) (hM : 0 ≤ M) (ba bg : Vec3 ℝ) (εa εg δ o Q0 V0 P0 EQ EV : ℝ) (rest : List (Reckon.Sample ℝ ℝ)) :
    ∀ (t0 : ℝ) (s0 : Reckon.Sample ℝ ℝ) (m : Motion ℝ), Reads w a ba bg εa εg s0 t0 → Course w a ba bg εa εg δ t0 rest → lo ≤ t0 → endTime t0 rest ≤ hi → m.q.sqNorm = 1 →
    (∀ t ≤ endTime t0 rest, Q0 + ((W ^ 2 + L) * δ + εg / 2) * (t - o) ≤ EQ) → (∀ t ≤ endTime t0 rest, V0 + (2 * A * EQ + (A * W + M) / 2 * δ + εa) * (t - o) ≤ EV) →
    errQ q t0 m ≤ Q0 + ((W ^ 2 + L) * δ + εg / 2) * (t0 - o) → errV v t0 m ≤ V0 + (2 * A * EQ + (A * W + M) / 2 * δ + εa) * (t0 - o) →
    errP p t0 m ≤ P0 + (EV + (A + ‖g.toH‖) / 2 * δ) * (t0 - o) → ∀ x, x = Reckon.along g ba bg m s0 rest →
    errQ q (endTime t0 rest) x ≤ Q0 + ((W ^ 2 + L) * δ + εg / 2) * (endTime t0 rest - o) ∧
    errV v (endTime t0 rest) x ≤ V0 + (2 * A * EQ + (A * W + M) / 2 * δ + εa) * (endTime t0 rest - o) ∧
    errP p (endTime t0 rest) x ≤ P0 + (EV + (A + ‖g.toH‖) / 2 * δ) * (endTime t0 rest - o) := by
  induction rest with
  | nil => intro t0 s0 m _ _ _ _ _ _ _ b1 b2 b3 x hx; subst hx; exact ⟨b1, b2, b3⟩
  | cons s rest ih =>
    intro t0 s0 m r0 hT hlo hhi hq c1 c2 b1 b2 b3 x hx
    obtain ⟨T1, T2, T3, T4⟩ := hT
    have htl : s.2.2 ≤ endTime s.2.2 rest := endTime_ge rest _ T4
    have hth : s.2.2 ≤ hi := htl.trans hhi
    have hmem : s.2.2 ∈ Set.Icc lo hi := ⟨hlo.trans T1, hth⟩
    have hA : 0 ≤ A := (_root_.norm_nonneg _).trans (h.force _ hmem)
    have hW : 0 ≤ W := (_root_.norm_nonneg _).trans (h.turn.bound _ hmem)
    have hd : 0 ≤ s.2.2 - t0 := by linarith
    obtain ⟨y, hy⟩ : ∃ y, y = Reckon.step g ba bg m s0 s := ⟨_, rfl⟩
    have w1 : (W ^ 2 + L) * (s.2.2 - t0) ≤ (W ^ 2 + L) * δ := mul_le_mul_of_nonneg_left T2 (by positivity)
    have w2 : (A * W + M) / 2 * (s.2.2 - t0) ≤ (A * W + M) / 2 * δ := mul_le_mul_of_nonneg_left T2 (by positivity)
    have w3 : (A + ‖g.toH‖) / 2 * (s.2.2 - t0) ≤ (A + ‖g.toH‖) / 2 * δ := mul_le_mul_of_nonneg_left T2 (by have := _root_.norm_nonneg g.toH; positivity)
    have q1 := c1 s.2.2 htl
    have q0 := c1 t0 (T1.trans htl)
    have v1 := c2 s.2.2 htl
    have v0 := c2 t0 (T1.trans htl)
    have hb1 : errQ q t0 m + ((W ^ 2 + L) * (s.2.2 - t0) + εg / 2) * (s.2.2 - t0) ≤ Q0 + ((W ^ 2 + L) * δ + εg / 2) * (s.2.2 - o) := by
      have := mul_le_mul_of_nonneg_right (by linarith : (W ^ 2 + L) * (s.2.2 - t0) + εg / 2 ≤ (W ^ 2 + L) * δ + εg / 2) hd
      have r4 : ((W ^ 2 + L) * δ + εg / 2) * (s.2.2 - o) = ((W ^ 2 + L) * δ + εg / 2) * (t0 - o) + ((W ^ 2 + L) * δ + εg / 2) * (s.2.2 - t0) := by ring
      linarith
    have hb2 : errV v t0 m + (A * (errQ q t0 m + (Q0 + ((W ^ 2 + L) * δ + εg / 2) * (s.2.2 - o))) + (A * W + M) / 2 * (s.2.2 - t0) + εa) * (s.2.2 - t0) ≤
        V0 + (2 * A * EQ + (A * W + M) / 2 * δ + εa) * (s.2.2 - o) := by
      have k1 : A * (errQ q t0 m + (Q0 + ((W ^ 2 + L) * δ + εg / 2) * (s.2.2 - o))) ≤ A * (EQ + EQ) := mul_le_mul_of_nonneg_left (by linarith) hA
      have k2 : A * (errQ q t0 m + (Q0 + ((W ^ 2 + L) * δ + εg / 2) * (s.2.2 - o))) + (A * W + M) / 2 * (s.2.2 - t0) + εa ≤ 2 * A * EQ + (A * W + M) / 2 * δ + εa := by linarith
      have := mul_le_mul_of_nonneg_right k2 hd
      have r4 : (2 * A * EQ + (A * W + M) / 2 * δ + εa) * (s.2.2 - o) = (2 * A * EQ + (A * W + M) / 2 * δ + εa) * (t0 - o) + (2 * A * EQ + (A * W + M) / 2 * δ + εa) * (s.2.2 - t0) := by ring
      linarith
    obtain ⟨j1, j2, j3, j4⟩ := noisy_step h ba bg εa εg t0 s.2.2 s0 s r0 T3 hlo T1 hth m hq y hy _ _ hb1 hb2
    refine ih s.2.2 s y T3 T4 (hlo.trans T1) hhi j1 c1 c2 j2 j3 ?_ x (by rw [hx, hy]; rfl)
    refine j4.trans ?_
    have k2 : (errV v t0 m + (V0 + (2 * A * EQ + (A * W + M) / 2 * δ + εa) * (s.2.2 - o))) / 2 + (A + ‖g.toH‖) / 2 * (s.2.2 - t0) ≤ EV + (A + ‖g.toH‖) / 2 * δ := by linarith
    have := mul_le_mul_of_nonneg_right k2 hd
    have r4 : (EV + (A + ‖g.toH‖) / 2 * δ) * (s.2.2 - o) = (EV + (A + ‖g.toH‖) / 2 * δ) * (t0 - o) + (EV + (A + ‖g.toH‖) / 2 * δ) * (s.2.2 - t0) := by ring
    linarith

/-- Dead reckoning along imperfect samples. -/
theorem along_bounds (h : Flight q v p w a g lo hi W L A M) (hL : 0 ≤ L) (hM : 0 ≤ M) (ba bg : Vec3 ℝ) (εa εg δ : ℝ) (hεa : 0 ≤ εa) (hεg : 0 ≤ εg) (hδ : 0 ≤ δ) (s0 : Reckon.Sample ℝ ℝ)
    (rest : List (Reckon.Sample ℝ ℝ)) (r0 : Reads w a ba bg εa εg s0 lo) (hT : Course w a ba bg εa εg δ lo rest) (hhi : endTime lo rest ≤ hi) (m x : Motion ℝ) (hq : m.q.sqNorm = 1)
    (hx : x = Reckon.along g ba bg m s0 rest) (τ EQ EV : ℝ) (hτ : τ = endTime lo rest - lo) (hEQ : EQ = errQ q lo m + ((W ^ 2 + L) * δ + εg / 2) * τ)
    (hEV : EV = errV v lo m + (2 * A * EQ + (A * W + M) / 2 * δ + εa) * τ) :
    errQ q (endTime lo rest) x ≤ EQ ∧ errV v (endTime lo rest) x ≤ EV ∧ errP p (endTime lo rest) x ≤ errP p lo m + (EV + (A + ‖g.toH‖) / 2 * δ) * τ := by
  have hge := endTime_ge rest lo hT
  have hmem : lo ∈ Set.Icc lo hi := ⟨le_refl _, hge.trans hhi⟩
  have hA : 0 ≤ A := (_root_.norm_nonneg _).trans (h.force _ hmem)
  have hW : 0 ≤ W := (_root_.norm_nonneg _).trans (h.turn.bound _ hmem)
  have hτ0 : 0 ≤ τ := by linarith
  have hq0 : 0 ≤ errQ q lo m := _root_.norm_nonneg _
  have p1 : 0 ≤ (W ^ 2 + L) * δ + εg / 2 := by positivity
  have p2 : 0 ≤ EQ := by rw [hEQ]; positivity
  have p3 : 0 ≤ 2 * A * EQ + (A * W + M) / 2 * δ + εa := by positivity
  have := noisy_along h hL hM ba bg εa εg δ lo (errQ q lo m) (errV v lo m) (errP p lo m) EQ EV rest lo s0 m r0 hT (le_refl _) hhi hq
    (fun t ht => by rw [hEQ]; exact add_le_add le_rfl (mul_le_mul_of_nonneg_left (by linarith) p1))
    (fun t ht => by rw [hEV]; exact add_le_add le_rfl (mul_le_mul_of_nonneg_left (by linarith) p3)) (by simp) (by simp) (by simp) x hx
  rw [← hτ, ← hEQ, ← hEV] at this
  exact this

end Drift
open Drift Update

namespace Backend

variable {q : ℝ → Quat ℝ} {v p w a : ℝ → Vec3 ℝ} {g : Vec3 ℝ} {hi W L A M : ℝ}

/-- C129.  After every defined history of calls of a backend whose queue is dead reckoning along its samples, as the empty one is: let the device have moved in any way with bounded rate and specific
force that change at bounded speed; let the samples in the queue be at most `δ` apart and, with the published biases removed, off the truth by at most `εa` and `εg`; and let the updated attitude be a unit
quaternion.  Then the newest published state has errors that are at most those of the updated state, carried on over the time `τ` between the two, plus constants times `δ`, `εa` and `εg`. -/
theorem C129_published (P P' : BProc ℝ ℝ) (ops : List (BOp ℝ ℝ)) (outs : List (BOut ℝ ℝ)) (hok : Reckon.Ok P.g P.b.u.q) (hr : P.run ops = .ok (P', outs)) (u x : Published ℝ ℝ)
    (hu : P'.b.publishUpdate = .ok (some u)) (hx : P'.b.publishPropagate = .ok (some x)) (h : Flight q v p w a P.g u.ts hi W L A M) (hL : 0 ≤ L) (hM : 0 ≤ M) (εa εg δ : ℝ) (hεa : 0 ≤ εa) (hεg : 0 ≤ εg)
    (hδ : 0 ≤ δ) (hs : ∀ s0 rest, P'.b.u.q.items.map sample = s0 :: rest → Reads w a u.biasA u.biasG εa εg s0 u.ts ∧ Course w a u.biasA u.biasG εa εg δ u.ts rest) (hq : u.st.q.sqNorm = 1)
    (hhi : x.ts ≤ hi) (τ EQ EV : ℝ) (hτ : τ = x.ts - u.ts) (hEQ : EQ = errQ q u.ts u.st + ((W ^ 2 + L) * δ + εg / 2) * τ)
    (hEV : EV = errV v u.ts u.st + (2 * A * EQ + (A * W + M) / 2 * δ + εa) * τ) :
    errQ q x.ts x.st ≤ EQ ∧ errV v x.ts x.st ≤ EV ∧ errP p x.ts x.st ≤ errP p u.ts u.st + (EV + (A + P.g.norm) / 2 * δ) * τ := by
  obtain ⟨hg, hc⟩ := Reckon.run_ok ops P P' outs hok hr
  obtain ⟨ou, u1, -, u3⟩ := C72_update P'.b
  obtain ⟨ov, v1, -, v3⟩ := C72_propagate P'.b
  rw [hu] at u1
  rw [hx] at v1
  cases u1
  cases v1
  obtain ⟨l1, i, a1, a2, a3, a4, a5⟩ := u3 u rfl
  obtain ⟨l2, z, b1, b2, b3, b4, b5⟩ := v3 x rfl
  unfold Reckon.Ok at hc
  rw [a1] at hc hs
  have hz : (i :: l1).getLast? = some z := by rw [← a1, b1]; simp
  have hst := Reckon.chained_last _ _ _ l1 i z hc hz
  rw [← b2, ← a2, ← a4, ← a5] at hst
  obtain ⟨R0, hT⟩ := hs _ _ List.map_cons
  have hlast : ∀ (l : List (PropItem ℝ ℝ)) (i z : PropItem ℝ ℝ), (i :: l).getLast? = some z → endTime i.ts (l.map sample) = z.ts := by
    intro l
    induction l with
    | nil => intro i z hz; simp at hz; rw [← hz]; rfl
    | cons j l ih => intro i z hz; rw [List.getLast?_cons_cons] at hz; exact ih j z hz
  have hlt : endTime u.ts (l1.map sample) = x.ts := by rw [b3, a3]; exact hlast l1 i z hz
  have := along_bounds h hL hM u.biasA u.biasG εa εg δ hεa hεg hδ (sample i) (l1.map sample) R0 hT (by rw [hlt]; exact hhi) u.st x.st hq hst τ EQ EV (by rw [hlt, hτ]) hEQ hEV
  rw [hlt, Vec3.norm_toH] at this
  exact this

/-- An initialised backend with the true state of a device on a circle in its queue, and a gyroscope that is a little off. -/
noncomputable def circleBackend : Backend ℝ ℝ :=
  let b : Backend ℝ ℝ := init ⟨0, 0, .one⟩
  { b with
    status := .initialized
    mounted := true
    loader := { b.loader with imuMeas := [⟨⟨1 / 20, 0, 1⟩, ⟨-1, 0, 10⟩, 1 / 10⟩] }
    u := { b.u with q := (PropQueue.init ⟨⟨1, 0, 0⟩, ⟨0, 1, 0⟩, .one⟩).propagate 0 ⟨0, 0, 10⟩ ⟨-1, 0, 10⟩ ⟨1 / 20, 0, 1⟩ 0 } }

/-- The same backend with the next sample in the queue. -/
noncomputable def circleNext : Backend ℝ ℝ :=
  { circleBackend with
    loader := { circleBackend.loader with imuMeas := [] }
    att := (circleBackend.att.propagate ⟨0, 0, 10⟩ ⟨-1, 0, 10⟩ ⟨1 / 20, 0, 1⟩ (1 / 10)).1
    u := { circleBackend.u with q := circleBackend.u.q.propagate 0 ⟨0, 0, 10⟩ ⟨-1, 0, 10⟩ ⟨1 / 20, 0, 1⟩ (1 / 10) } }

/-- C129: the waiting sample is processed; the hypotheses are met. -/
example (env : Env ℝ) : ∃ P' outs u x, (⟨{}, ⟨0, 0, 10⟩, circleBackend⟩ : BProc ℝ ℝ).run [.run env] = .ok (P', outs) ∧ P'.b.publishUpdate = .ok (some u) ∧
    P'.b.publishPropagate = .ok (some x) ∧ x.ts = 1 / 10 ∧ errQ circQ (1 / 10) x.st ≤ 3 / 20 * (1 / 10) := by
  have hrun : (⟨{}, ⟨0, 0, 10⟩, circleBackend⟩ : BProc ℝ ℝ).run [.run env] = .ok (⟨{}, ⟨0, 0, 10⟩, circleNext⟩, [.ret true]) := rfl
  refine ⟨_, _, _, _, hrun, rfl, rfl, rfl, ?_⟩
  have e1 : (⟨-1, 0, 10⟩ - 0 - ⟨-1, 0, 10⟩ : Vec3 ℝ).norm = 0 := by simp [Vec3.norm, Vec3.sqNorm]
  have e2 : (⟨1 / 20, 0, 1⟩ - 0 - ⟨0, 0, 1⟩ : Vec3 ℝ).norm ≤ 1 / 10 := by
    have e : (⟨1 / 20, 0, 1⟩ - 0 - ⟨0, 0, 1⟩ : Vec3 ℝ) = ⟨1 / 20, 0, 0⟩ := by apply Vec3.ext <;> simp
    have h := Vec3.norm_sq_toH ⟨1 / 20, 0, 0⟩
    rw [e, ← Vec3.norm_toH]
    simp only [Vec3.sqNorm] at h
    nlinarith [_root_.norm_nonneg (⟨1 / 20, 0, 0⟩ : Vec3 ℝ).toH]
  have h := C129_published (q := circQ) (v := circV) (p := circP) (hi := 1 / 10) (δ := 1 / 10) (εa := 0) (εg := 1 / 10) (P := ⟨{}, ⟨0, 0, 10⟩, circleBackend⟩) _ _ _ trivial hrun _ _ rfl rfl (circle _ _) le_rfl le_rfl
    le_rfl (by norm_num) (by norm_num) ?_ ?_ le_rfl _ _ _ rfl rfl rfl
  · have e : errQ circQ 0 ⟨⟨1, 0, 0⟩, ⟨0, 1, 0⟩, .one⟩ = 0 := by simp [errQ, circQ, Quat.one]
    refine h.1.trans (le_of_eq ?_)
    show errQ circQ 0 ⟨⟨1, 0, 0⟩, ⟨0, 1, 0⟩, .one⟩ + (((1 : ℝ) ^ 2 + 0) * (1 / 10) + 1 / 10 / 2) * (1 / 10 - 0) = _
    rw [e]; norm_num
  · intro s0 rest hs
    have hs' : [(⟨-1, 0, 10⟩, ⟨1 / 20, 0, 1⟩, 0), (⟨-1, 0, 10⟩, ⟨1 / 20, 0, 1⟩, 1 / 10)] = s0 :: rest := hs
    rw [List.cons.injEq] at hs'
    obtain ⟨rfl, rfl⟩ := hs'
    refine ⟨⟨rfl, le_of_eq e1, e2⟩, ?_, ?_, ⟨rfl, le_of_eq e1, e2⟩, trivial⟩
    · show (0 : ℝ) ≤ 1 / 10; norm_num
    · show (1 / 10 : ℝ) - 0 ≤ 1 / 10; norm_num
  · show (Quat.one : Quat ℝ).sqNorm = 1
    simp [Quat.sqNorm, Quat.one]

end Backend
end Vio
