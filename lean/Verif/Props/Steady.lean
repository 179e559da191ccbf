/-
Property C127: how far a steady turn is integrated.
-/
import Verif.Props.Motion
import Mathlib.Analysis.SpecialFunctions.Trigonometric.ArctanDeriv
import Mathlib.Analysis.Calculus.Deriv.MeanValue
import Mathlib.Tactic.FieldSimp
import Mathlib.Tactic.LinearCombination

set_option linter.unusedSectionVars false

namespace Vio

open PropSpec PropQueue

variable {T : Type} [TimeOps T] [TimeCast T ℝ]

namespace Steady

/-- The turn by the angle `φ` about the axis `u`. -/
noncomputable def spin (u : Vec3 ℝ) (φ : ℝ) : Quat ℝ := ⟨Real.cos (φ / 2), Real.sin (φ / 2) * u.x, Real.sin (φ / 2) * u.y, Real.sin (φ / 2) * u.z⟩

theorem spin_zero (u : Vec3 ℝ) : spin u 0 = .one := by simp [spin, Quat.one]

theorem spin_unit (u : Vec3 ℝ) (hu : u.sqNorm = 1) (φ : ℝ) : (spin u φ).sqNorm = 1 := by
  simp only [Vec3.sqNorm] at hu
  simp only [Quat.sqNorm, spin]
  linear_combination Real.sin (φ / 2) ^ 2 * hu + Real.sin_sq_add_cos_sq (φ / 2)

theorem spin_add (u : Vec3 ℝ) (hu : u.sqNorm = 1) (φ ψ : ℝ) : (spin u φ).mul (spin u ψ) = spin u (φ + ψ) := by
  simp only [Vec3.sqNorm] at hu
  have e : (φ + ψ) / 2 = φ / 2 + ψ / 2 := by ring
  unfold spin
  rw [e, Real.cos_add, Real.sin_add]
  apply Quat.ext <;> simp only [Quat.mul]
  · linear_combination (-Real.sin (φ / 2) * Real.sin (ψ / 2)) * hu
  all_goals ring

/-- What the code makes of the angle `θ` of one step: the increment `1 + θ u / 2`, normalised, is the turn by `2 atan (θ / 2)`. -/
theorem step_spin (q : Quat ℝ) (hq : q.sqNorm = 1) (u : Vec3 ℝ) (hu : u.sqNorm = 1) (θ : ℝ) :
    (q.mul (Utility.deltaQ (Vec3.smul θ u))).normalized = q.mul (spin u (2 * Real.arctan (θ / 2))) := by
  obtain ⟨c, hc⟩ : ∃ c, c = Real.cos (Real.arctan (θ / 2)) := ⟨_, rfl⟩
  have hc0 : 0 < c := by rw [hc]; exact Real.cos_arctan_pos _
  have hs : Real.sin (Real.arctan (θ / 2)) = c * (θ / 2) := by
    have := Real.tan_arctan (θ / 2)
    rw [Real.tan_eq_sin_div_cos, ← hc, div_eq_iff hc0.ne'] at this
    rw [this]; ring
  have ht : spin u (2 * Real.arctan (θ / 2)) = ⟨c * 1, c * (θ / 2 * u.x), c * (θ / 2 * u.y), c * (θ / 2 * u.z)⟩ := by
    unfold spin
    rw [show 2 * Real.arctan (θ / 2) / 2 = Real.arctan (θ / 2) by ring, hs, ← hc]
    apply Quat.ext <;> simp only <;> ring
  have hn : (q.mul (Utility.deltaQ (Vec3.smul θ u))).sqNorm = (1 / c) ^ 2 := by
    rw [Quat.sqNorm_mul, hq, one_mul]
    have h1 := spin_unit u hu (2 * Real.arctan (θ / 2))
    rw [ht] at h1
    simp only [Quat.sqNorm] at h1
    simp only [Quat.sqNorm, Utility.deltaQ, Vec3.sdiv, Vec3.smul_x, Vec3.smul_y, Vec3.smul_z, ScalarFn.lit_real]
    rw [div_pow, one_pow, eq_div_iff (by positivity)]
    push_cast
    linear_combination h1
  have hpos : ScalarFn.lt 0 (q.mul (Utility.deltaQ (Vec3.smul θ u))).sqNorm = true := by
    rw [hn]; simp; positivity
  unfold Quat.normalized
  simp only [hpos, if_true]
  have hsq : ScalarFn.sqrt (q.mul (Utility.deltaQ (Vec3.smul θ u))).sqNorm = 1 / c := by
    rw [hn]; exact Real.sqrt_sq (by positivity)
  rw [hsq, ht]
  apply Quat.ext <;> simp only [Quat.mul, Utility.deltaQ, Vec3.sdiv, Vec3.smul_x, Vec3.smul_y, Vec3.smul_z, ScalarFn.lit_real] <;> push_cast <;> field_simp

/-- Bounds of the arc tangent. -/
theorem arctan_bounds (x : ℝ) (hx : 0 ≤ x) : Real.arctan x ≤ x ∧ x - x ^ 3 / 3 ≤ Real.arctan x ∧ (0 < x → Real.arctan x < x) := by
  have h0 : ∀ y : ℝ, 0 ≤ y → Real.arctan y ≤ y ∧ y - y ^ 3 / 3 ≤ Real.arctan y := by
    intro y hy
    constructor
    · have hm : MonotoneOn (fun y : ℝ => y - Real.arctan y) (Set.Ici 0) := by
        refine monotoneOn_of_deriv_nonneg (convex_Ici 0) (by fun_prop) (differentiable_id.sub Real.differentiable_arctan).differentiableOn (fun z _ => ?_)
        have : HasDerivAt (fun y : ℝ => y - Real.arctan y) (1 - 1 / (1 + z ^ 2)) z := (hasDerivAt_id z).sub (Real.hasDerivAt_arctan z)
        rw [this.deriv, sub_nonneg, div_le_one (by positivity)]
        nlinarith [sq_nonneg z]
      have := hm (Set.mem_Ici.2 (le_refl 0)) (Set.mem_Ici.2 hy) hy
      simp at this
      linarith
    · have hm : MonotoneOn (fun y : ℝ => Real.arctan y - (y - y ^ 3 / 3)) (Set.Ici 0) := by
        refine monotoneOn_of_deriv_nonneg (convex_Ici 0) (by fun_prop)
          (Real.differentiable_arctan.sub (by fun_prop : Differentiable ℝ (fun y : ℝ => y - y ^ 3 / 3))).differentiableOn (fun z _ => ?_)
        have : HasDerivAt (fun y : ℝ => Real.arctan y - (y - y ^ 3 / 3)) (1 / (1 + z ^ 2) - (1 - (3 * z ^ 2) / 3)) z := by
          have h3 : HasDerivAt (fun y : ℝ => y ^ 3 / 3) ((3 * z ^ 2) / 3) z := by simpa using (hasDerivAt_pow 3 z).div_const 3
          exact (Real.hasDerivAt_arctan z).sub ((hasDerivAt_id z).sub h3)
        rw [this.deriv]
        have e : 1 / (1 + z ^ 2) - (1 - (3 * z ^ 2) / 3) = z ^ 4 / (1 + z ^ 2) := by field_simp; ring
        rw [e]; positivity
      have := hm (Set.mem_Ici.2 (le_refl 0)) (Set.mem_Ici.2 hy) hy
      simp at this
      linarith
  refine ⟨(h0 x hx).1, (h0 x hx).2, fun h => ?_⟩
  have h1 := Real.lt_tan (Real.arctan_pos.2 h) (Real.arctan_lt_pi_div_two x)
  rwa [Real.tan_arctan] at h1

/-- The angle that the code turns by in steps of the angles `θ`. -/
noncomputable def angle (θ : List ℝ) : ℝ := (θ.map (fun x => 2 * Real.arctan (x / 2))).sum

/-- One step of the attitude for a device that turns about `u`, at the rates `r0` and then `r1`. -/
noncomputable def mid (r0 r1 d : ℝ) : ℝ := (r0 + r1) / 2 * d

/-- The angles of the steps: the mean rate times the time. -/
noncomputable def angles : ℝ → T → List (ℝ × T) → List ℝ
  | _, _, [] => []
  | r0, t0, x :: l => mid r0 x.1 (dt t0 x.2) :: angles x.1 x.2 l

end Steady

open Steady

/-- C127, what the code does: while a device turns about an axis `u` that is fixed in the device, at rates that may change, the propagated attitude is the one of the start turned about `u` by
the sum of `2 atan (θ / 2)` over the angles `θ` of the steps, for all samples of the accelerometer, biases and sampling times. -/
theorem C127_turn (nExt : Nat) (g u : Vec3 ℝ) (hu : u.sqNorm = 1) (s : PropQueue ℝ T) (i0 : PropItem ℝ T) (hl : s.items.getLast? = some i0) (hq : i0.st.q.sqNorm = 1) (r0 : ℝ)
    (hg : i0.gyro = Vec3.smul r0 u + s.biasG) (acc : ℝ × T → Vec3 ℝ) (l : List (ℝ × T)) :
    ∃ it, (l.foldl (fun s' x => s'.propagate nExt g (acc x) (Vec3.smul x.1 u + s.biasG) x.2) s).items.getLast? = some it ∧
      it.st.q = i0.st.q.mul (spin u (angle (angles r0 i0.ts l))) := by
  induction l generalizing s i0 r0 with
  | nil => exact ⟨i0, hl, by simp [angles, angle, spin_zero, Quat.mul_one']⟩
  | cons x l ih =>
    have e : s.propagate nExt g (acc x) (Vec3.smul x.1 u + s.biasG) x.2 = { s with items := s.items ++ [s.stepItem g i0 (acc x) (Vec3.smul x.1 u + s.biasG) x.2], F := s.stepF i0 (acc x) (Vec3.smul x.1 u + s.biasG) x.2, G := s.stepG i0 x.2 } := by
      unfold propagate
      rw [hl]
    have hw : vscale (midGyro s.biasG i0.gyro (Vec3.smul x.1 u + s.biasG)) (dt i0.ts x.2) = Vec3.smul (mid r0 x.1 (dt i0.ts x.2)) u := by
      rw [hg]
      unfold midGyro mid vscale
      apply Vec3.ext <;> simp <;> ring
    have hst : (s.stepItem g i0 (acc x) (Vec3.smul x.1 u + s.biasG) x.2).st.q = i0.st.q.mul (spin u (2 * Real.arctan (mid r0 x.1 (dt i0.ts x.2) / 2))) := by
      rw [← step_spin _ hq u hu, ← hw]; rfl
    have hqu : (s.stepItem g i0 (acc x) (Vec3.smul x.1 u + s.biasG) x.2).st.q.sqNorm = 1 := by rw [hst, Quat.sqNorm_mul, hq, spin_unit u hu, one_mul]
    obtain ⟨it, h1, h2⟩ := ih (s.propagate nExt g (acc x) (Vec3.smul x.1 u + s.biasG) x.2) (s.stepItem g i0 (acc x) (Vec3.smul x.1 u + s.biasG) x.2) (by rw [e]; exact List.getLast?_concat)
      hqu x.1 (by rw [e]; rfl)
    have eb : (s.propagate nExt g (acc x) (Vec3.smul x.1 u + s.biasG) x.2).biasG = s.biasG := by rw [e]
    rw [eb] at h1
    refine ⟨it, h1, ?_⟩
    rw [h2, hst, Quat.mul_assoc', spin_add u hu]
    rfl

/-- C127, too little: at rates that are not negative the code never turns further than the device, falls short of it by at most the sum of the cubes of the steps over twelve, and falls short
whenever the device turns at all. -/
theorem C127_short (θ : List ℝ) (h : ∀ x ∈ θ, 0 ≤ x) : angle θ ≤ θ.sum ∧ θ.sum - (θ.map (fun x => x ^ 3 / 12)).sum ≤ angle θ ∧ ((∃ x ∈ θ, 0 < x) → angle θ < θ.sum) ∧
    angle θ ≤ θ.length * Real.pi := by
  induction θ with
  | nil => simp [angle]
  | cons x θ ih =>
    obtain ⟨i1, i2, i3, i4⟩ := ih (fun y hy => h y (List.mem_cons_of_mem _ hy))
    obtain ⟨b1, b2, b3⟩ := arctan_bounds (x / 2) (by have := h x List.mem_cons_self; linarith)
    have e : angle (x :: θ) = 2 * Real.arctan (x / 2) + angle θ := by simp [angle]
    have hp := Real.arctan_lt_pi_div_two (x / 2)
    rw [e]
    simp only [List.sum_cons, List.map_cons, List.length_cons]
    push_cast
    refine ⟨by linarith, by nlinarith, fun ⟨y, hy, hy0⟩ => ?_, by linarith⟩
    rcases List.mem_cons.1 hy with rfl | hy
    · have := b3 (by linarith); linarith
    · have := i3 ⟨y, hy, hy0⟩; linarith

/-- C127: at 200 samples per second and one radian per second, ten seconds of turning are short by less than 1/40000 radian, but they are short. -/
example : Steady.angle (List.replicate 2000 (1 / 200 : ℝ)) < 10 ∧ 10 - 1 / 40000 < Steady.angle (List.replicate 2000 (1 / 200 : ℝ)) := by
  obtain ⟨-, h2, h3, -⟩ := C127_short (List.replicate 2000 (1 / 200 : ℝ)) (fun x hx => by rw [List.eq_of_mem_replicate hx]; norm_num)
  have e1 : (List.replicate 2000 (1 / 200 : ℝ)).sum = 10 := by rw [List.sum_replicate]; norm_num
  have e2 : ((List.replicate 2000 (1 / 200 : ℝ)).map (fun x => x ^ 3 / 12)).sum = 1 / 48000 := by rw [List.map_replicate, List.sum_replicate]; norm_num
  rw [e1] at h2 h3
  rw [e2] at h2
  exact ⟨h3 ⟨1 / 200, List.mem_replicate.2 ⟨by norm_num, rfl⟩, by norm_num⟩, by linarith⟩

/-- C127: the queue after a first sample with the rate 1 about the vertical axis meets the conditions; a step of four radians turns the attitude by `2 atan 2`. -/
example : ∃ it, ([((1 : ℝ), (4 : ℝ))].foldl (fun s' x => s'.propagate 1 ⟨0, 0, 10⟩ ⟨0, 0, 10⟩ (Vec3.smul x.1 ⟨0, 0, 1⟩ + 0) x.2)
      ((PropQueue.init ⟨0, 0, .one⟩ : PropQueue ℝ ℝ).propagate 1 ⟨0, 0, 10⟩ ⟨0, 0, 10⟩ ⟨0, 0, 1⟩ 0)).items.getLast? = some it ∧
    it.st.q = spin ⟨0, 0, 1⟩ (2 * Real.arctan 2) := by
  obtain ⟨it, h1, h2⟩ := C127_turn 1 ⟨0, 0, 10⟩ ⟨0, 0, 1⟩ (by simp [Vec3.sqNorm]) ((PropQueue.init ⟨0, 0, .one⟩ : PropQueue ℝ ℝ).propagate 1 ⟨0, 0, 10⟩ ⟨0, 0, 10⟩ ⟨0, 0, 1⟩ 0) _ rfl
    (by simp [PropQueue.init, Quat.one, Quat.sqNorm]) 1 (by apply Vec3.ext <;> simp [PropQueue.init, propagate]) (fun _ => ⟨0, 0, 10⟩) [(1, 4)]
  refine ⟨it, h1, ?_⟩
  rw [h2]
  have e : Steady.angle (Steady.angles (1 : ℝ) (0 : ℝ) [(1, 4)]) = 2 * Real.arctan 2 := by
    simp [Steady.angle, Steady.angles, Steady.mid, PropQueue.dt]; norm_num
  show Quat.mul .one (spin ⟨0, 0, 1⟩ (Steady.angle (Steady.angles (1 : ℝ) (0 : ℝ) [(1, 4)]))) = _
  rw [e]
  apply Quat.ext <;> simp [Quat.mul, Quat.one]

end Vio
