/-
Lemmas for the numeric attitude properties: the estimator over partial reals agrees with the one over reals as long as nothing is divided by zero.
-/
import Verif.Spec.Attitude
import Verif.Lemmas.Quat
import Verif.PReal
import Mathlib.Analysis.SpecialFunctions.Trigonometric.ArctanDeriv
import Mathlib.Analysis.SpecialFunctions.Trigonometric.Bounds
import Mathlib.Analysis.Calculus.Deriv.MeanValue
import Mathlib.Analysis.Calculus.Deriv.Pow

namespace Vio

open AttSpec PReal

/-- A finite item. -/
def AttItem.emb (i : AttItem ℝ ℝ) : AttItem PReal PReal := ⟨i.q.emb, i.accel.emb, i.gyro.emb, .of i.ts⟩
/-- A finite estimator state. -/
def Att.emb (s : Att ℝ ℝ) : Att PReal PReal :=
  ⟨s.items.map AttItem.emb, s.biasA.emb, s.biasG.emb, .of s.kp, .of s.ki, s.errInt.emb⟩
/-- A call with finite arguments. -/
def AOp.emb : AOp ℝ ℝ → AOp PReal PReal
  | .sample g a w t => .sample g.emb a.emb w.emb (.of t)
  | .clean t thr => .clean (.of t) (.of thr)
  | .setBias ba bg => .setBias ba.emb bg.emb

theorem Att.emb_init : (Att.init : Att PReal PReal) = (Att.init : Att ℝ ℝ).emb := rfl

namespace Vec3
theorem norm_real (a : Vec3 ℝ) : a.norm = √a.sqNorm := rfl
theorem norm_nonneg (a : Vec3 ℝ) : 0 ≤ a.norm := Real.sqrt_nonneg _
theorem norm_sq (a : Vec3 ℝ) : a.norm ^ 2 = a.sqNorm := Real.sq_sqrt a.sqNorm_nonneg
theorem sqNorm_eq_zero (a : Vec3 ℝ) : a.sqNorm = 0 ↔ a = 0 := by
  constructor
  · intro h
    unfold sqNorm at h
    have hx := mul_self_nonneg a.x
    have hy := mul_self_nonneg a.y
    have hz := mul_self_nonneg a.z
    apply Vec3.ext
    · exact mul_self_eq_zero.1 (by linarith)
    · exact mul_self_eq_zero.1 (by linarith)
    · exact mul_self_eq_zero.1 (by linarith)
  · rintro rfl; simp [sqNorm]
theorem norm_eq_zero (a : Vec3 ℝ) : a.norm = 0 ↔ a = 0 := by
  rw [norm_real, Real.sqrt_eq_zero a.sqNorm_nonneg, sqNorm_eq_zero]
theorem norm_pos (a : Vec3 ℝ) (h : a ≠ 0) : 0 < a.norm :=
  lt_of_le_of_ne a.norm_nonneg (fun e => h ((norm_eq_zero a).1 e.symm))
/-- Lagrange's identity -/
theorem sqNorm_cross (a b : Vec3 ℝ) : (a.cross b).sqNorm + a.dot b ^ 2 = a.sqNorm * b.sqNorm := by
  simp only [sqNorm, cross, dot]; ring
end Vec3

theorem Att.emb_initQuat (a g : Vec3 ℝ) (h : a.cross g ≠ 0) : Att.initQuat a.emb g.emb = (Att.initQuat a g).emb := by
  have hn : (a.cross g).norm ≠ 0 := fun e => h ((Vec3.norm_eq_zero _).1 e)
  unfold Att.initQuat
  simp only [Vec3.emb_cross, Vec3.emb_norm, Vec3.emb_sdiv _ _ hn, Vec3.emb_dot, of_atan2]
  have : (⟨((a.cross g).sdiv (a.cross g).norm).emb.x * of (ScalarFn.atan2 (a.cross g).norm (a.dot g)),
      ((a.cross g).sdiv (a.cross g).norm).emb.y * of (ScalarFn.atan2 (a.cross g).norm (a.dot g)),
      ((a.cross g).sdiv (a.cross g).norm).emb.z * of (ScalarFn.atan2 (a.cross g).norm (a.dot g))⟩ : Vec3 PReal) =
    Vec3.emb ⟨((a.cross g).sdiv (a.cross g).norm).x * ScalarFn.atan2 (a.cross g).norm (a.dot g),
      ((a.cross g).sdiv (a.cross g).norm).y * ScalarFn.atan2 (a.cross g).norm (a.dot g),
      ((a.cross g).sdiv (a.cross g).norm).z * ScalarFn.atan2 (a.cross g).norm (a.dot g)⟩ := rfl
  rw [this, Utility.emb_deltaQ, Quat.emb_normalized, Quat.emb_normalized]

theorem Att.emb_gravErr (g a : Vec3 ℝ) (q : Quat ℝ) (hg : g ≠ 0) (ha : a ≠ 0) : Att.gravErr g.emb q.emb a.emb = (Att.gravErr g q a).emb := by
  have hg' : g.norm ≠ 0 := fun e => hg ((Vec3.norm_eq_zero _).1 e)
  have ha' : a.norm ≠ 0 := fun e => ha ((Vec3.norm_eq_zero _).1 e)
  unfold Att.gravErr
  rw [Vec3.emb_norm, Vec3.emb_norm, Vec3.emb_sdiv _ _ ha', Quat.emb_inverse, Quat.emb_rotate, Vec3.emb_sdiv _ _ hg', Vec3.emb_cross]

theorem Att.emb_stepQuat (s : Att ℝ ℝ) (g a w : Vec3 ℝ) (t : ℝ) (i : AttItem ℝ ℝ) (hg : g ≠ 0) (ha : a ≠ 0) :
    s.emb.stepQuat g.emb i.emb a.emb w.emb (.of t) = ((s.stepQuat g i a w t).1.emb, (s.stepQuat g i a w t).2.emb) := by
  unfold Att.stepQuat
  have e : Att.gravErr g.emb i.emb.q a.emb = (Att.gravErr g i.q a).emb := Att.emb_gravErr g a i.q hg ha
  simp only [e]
  generalize Att.gravErr g i.q a = err
  have e2 : s.emb.errInt + ⟨err.emb.x * s.emb.ki, err.emb.y * s.emb.ki, err.emb.z * s.emb.ki⟩ =
    (s.errInt + ⟨err.x * s.ki, err.y * s.ki, err.z * s.ki⟩ : Vec3 ℝ).emb := rfl
  rw [e2]
  generalize (s.errInt + ⟨err.x * s.ki, err.y * s.ki, err.z * s.ki⟩ : Vec3 ℝ) = ei
  have e3 : Vec3.smul (lit (1/2)) (i.emb.gyro + w.emb) + ⟨err.emb.x * s.emb.kp, err.emb.y * s.emb.kp, err.emb.z * s.emb.kp⟩ + ei.emb =
    (Vec3.smul (lit (1/2)) (i.gyro + w) + ⟨err.x * s.kp, err.y * s.kp, err.z * s.kp⟩ + ei : Vec3 ℝ).emb := rfl
  rw [e3]
  generalize (Vec3.smul (lit (1/2)) (i.gyro + w) + ⟨err.x * s.kp, err.y * s.kp, err.z * s.kp⟩ + ei : Vec3 ℝ) = gc
  rw [Vec3.emb_neg]
  have e4 : (⟨(-gc).emb.x * TimeCast.toK (TimeOps.sub (of t) i.emb.ts), (-gc).emb.y * TimeCast.toK (TimeOps.sub (of t) i.emb.ts),
      (-gc).emb.z * TimeCast.toK (TimeOps.sub (of t) i.emb.ts)⟩ : Vec3 PReal) =
    Vec3.emb ⟨(-gc).x * TimeCast.toK (TimeOps.sub t i.ts), (-gc).y * TimeCast.toK (TimeOps.sub t i.ts), (-gc).z * TimeCast.toK (TimeOps.sub t i.ts)⟩ := rfl
  rw [e4, Utility.emb_deltaQ]
  have e5 : i.emb.q = i.q.emb := rfl
  rw [e5, Quat.emb_mul, Quat.emb_normalized]

theorem Att.emb_getLast (s : Att ℝ ℝ) : s.emb.items.getLast? = s.items.getLast?.map AttItem.emb := by
  simp [Att.emb]

/-- No division by zero happens in this call: an accepted first sample is not parallel to gravity, a later one is not zero. -/
def NoDivZero (s : Att ℝ ℝ) : AOp ℝ ℝ → Prop
  | .sample g a _ _ => if s.items = [] then (a - s.biasA).cross g ≠ 0 else g ≠ 0 ∧ a ≠ 0
  | _ => True

theorem Att.emb_propagate (s : Att ℝ ℝ) (g a w : Vec3 ℝ) (t : ℝ) (h : NoDivZero s (.sample g a w t)) :
    s.emb.propagate g.emb a.emb w.emb (.of t) = ((s.propagate g a w t).1.emb, (s.propagate g a w t).2) := by
  simp only [NoDivZero] at h
  unfold Att.propagate
  rw [Att.emb_getLast]
  have eA : s.emb.biasA = s.biasA.emb := rfl
  have eG : s.emb.biasG = s.biasG.emb := rfl
  cases hl : s.items.getLast? with
  | none =>
    have he := List.getLast?_eq_none_iff.1 hl
    rw [if_pos he] at h
    simp only [Option.map_none, eA, eG, Vec3.emb_sub, Vec3.emb_norm, of_sub, of_fabs, of_ofK, of_tlit, of_tlt]
    rw [Att.emb_initQuat _ _ h]
    split <;> rfl
  | some i =>
    have he : s.items ≠ [] := by rintro e; simp [e] at hl
    rw [if_neg he] at h
    simp only [Option.map_some, eA, eG, Vec3.emb_sub]
    rw [Att.emb_stepQuat s g a _ t i h.1 h.2]
    have : TimeOps.lt (of t) i.emb.ts = TimeOps.lt t i.ts := rfl
    rw [this]
    split
    · rfl
    · simp [Att.emb, AttItem.emb]

theorem Att.emb_cleanLoop (t thr : ℝ) (l : List (AttItem ℝ ℝ)) :
    Att.cleanLoop (of t) (of thr) (l.map AttItem.emb) = (Att.cleanLoop t thr l).bind (fun l => .ok (l.map AttItem.emb)) := by
  induction l with
  | nil => rfl
  | cons i l ih =>
    have : ScalarFn.lt (of thr) (TimeCast.toK (TimeOps.sub (of t) i.emb.ts) : PReal) = ScalarFn.lt thr (TimeCast.toK (TimeOps.sub t i.ts) : ℝ) := rfl
    simp only [List.map_cons, Att.cleanLoop, this]
    split
    · exact ih
    · rfl

theorem Att.emb_step (s : Att ℝ ℝ) (op : AOp ℝ ℝ) (h : NoDivZero s op) : step s.emb op.emb = (step s op).bind (fun s => .ok s.emb) := by
  cases op with
  | sample g a w t =>
    simp only [AOp.emb, step, Att.emb_propagate s g a w t h]
    rfl
  | clean t thr =>
    simp only [AOp.emb, step, Att.cleanOldItems]
    have : s.emb.items = s.items.map AttItem.emb := rfl
    rw [this, List.isEmpty_map, Att.emb_cleanLoop]
    split
    · rfl
    · cases Att.cleanLoop t thr s.items <;> rfl
  | setBias ba bg => rfl

/-- A unit quaternion with finite components. -/
def UnitQ (q : Quat PReal) : Prop := ∃ r : Quat ℝ, q = r.emb ∧ r.sqNorm = 1

theorem Att.initQuat_unit (a g : Vec3 ℝ) : (Att.initQuat a g).sqNorm = 1 := by
  unfold Att.initQuat
  have h1 := Quat.sqNorm_deltaQ_pos
  rw [Quat.normalized_of_unit _ (Quat.sqNorm_normalized _ (lt_of_lt_of_le one_pos (h1 _)))]
  exact Quat.sqNorm_normalized _ (lt_of_lt_of_le one_pos (h1 _))

theorem Att.stepQuat_unit (s : Att ℝ ℝ) (g a w : Vec3 ℝ) (t : ℝ) (i : AttItem ℝ ℝ) (h : i.q.sqNorm = 1) : (s.stepQuat g i a w t).1.sqNorm = 1 := by
  unfold Att.stepQuat
  apply Quat.sqNorm_normalized
  rw [Quat.sqNorm_mul, h, one_mul]
  exact lt_of_lt_of_le one_pos (Quat.sqNorm_deltaQ_pos _)

theorem Att.step_unit (s s' : Att ℝ ℝ) (op : AOp ℝ ℝ) (h : ∀ i ∈ s.items, i.q.sqNorm = 1) (hs : step s op = .ok s') : ∀ i ∈ s'.items, i.q.sqNorm = 1 := by
  cases op with
  | sample g a w t =>
    cases hs
    unfold Att.propagate
    split
    · dsimp only
      split
      · exact h
      · intro i hi
        simp only [List.mem_singleton] at hi
        subst hi
        exact Att.initQuat_unit _ _
    · next i0 hl =>
      dsimp only
      split
      · exact h
      · intro i hi
        simp only [List.mem_append, List.mem_singleton] at hi
        rcases hi with hi | rfl
        · exact h i hi
        · exact Att.stepQuat_unit s g a _ t i0 (h i0 (List.mem_of_getLast? hl))
  | clean t thr =>
    simp only [step, Att.cleanOldItems] at hs
    split at hs
    · cases hs; exact h
    · have key : ∀ (l l' : List (AttItem ℝ ℝ)), Att.cleanLoop t thr l = .ok l' → ∀ i ∈ l', i ∈ l := by
        intro l
        induction l with
        | nil => intro l' h; cases h
        | cons x l ih =>
          intro l' h i hi
          simp only [Att.cleanLoop] at h
          split at h
          · exact List.mem_cons_of_mem _ (ih l' h i hi)
          · cases h; exact hi
      cases hc : Att.cleanLoop t thr s.items with
      | ok l => rw [hc] at hs; cases hs; exact fun i hi => h i (key _ _ hc i hi)
      | ub u => rw [hc] at hs; cases hs
  | setBias ba bg => cases hs; exact h

/-! ### The arc tangent -/

theorem arctan_lt_self {x : ℝ} (h : 0 < x) : Real.arctan x < x := by
  have h0 : 0 < Real.arctan x := Real.arctan_pos.2 h
  have := Real.lt_tan h0 (Real.arctan_lt_pi_div_two x)
  rwa [Real.tan_arctan] at this

theorem arctan_ge {x : ℝ} (h : 0 ≤ x) : x - x ^ 3 / 3 ≤ Real.arctan x := by
  have hm : MonotoneOn (fun y : ℝ => Real.arctan y - (y - y ^ 3 / 3)) (Set.Ici 0) := by
    have hd : ∀ y : ℝ, HasDerivAt (fun y : ℝ => Real.arctan y - (y - y ^ 3 / 3)) (1 / (1 + y ^ 2) - (1 - 3 * y ^ 2 / 3)) y := by
      intro y
      refine (Real.hasDerivAt_arctan y).sub ((hasDerivAt_id' y).sub ?_)
      have := (hasDerivAt_pow 3 y).div_const 3
      simpa using this
    apply monotoneOn_of_deriv_nonneg (convex_Ici 0)
    · exact fun y _ => (hd y).continuousAt.continuousWithinAt
    · exact fun y _ => (hd y).differentiableAt.differentiableWithinAt
    · intro y _
      rw [(hd y).deriv]
      have hp : 0 < 1 + y ^ 2 := by positivity
      have : 1 / (1 + y ^ 2) - (1 - 3 * y ^ 2 / 3) = y ^ 4 / (1 + y ^ 2) := by field_simp; ring
      rw [this]
      positivity
  have := hm (Set.mem_Ici.2 le_rfl) (Set.mem_Ici.2 h) h
  simp at this
  linarith

/-! ### The starting rotation -/

/-- Angle between two vectors. -/
noncomputable def angleBetween (a b : Vec3 ℝ) : ℝ := Real.arccos (a.dot b / (a.norm * b.norm))

section Start
variable (a g : Vec3 ℝ) (h : a.cross g ≠ 0)
include h

theorem ne_zero_of_cross : a ≠ 0 ∧ g ≠ 0 := by
  constructor
  · rintro rfl; exact h (by apply Vec3.ext <;> simp [Vec3.cross])
  · rintro rfl; exact h (by apply Vec3.ext <;> simp [Vec3.cross])

omit h in
theorem norm_arg : ‖(⟨a.dot g, (a.cross g).norm⟩ : ℂ)‖ = a.norm * g.norm := by
  have h1 : ‖(⟨a.dot g, (a.cross g).norm⟩ : ℂ)‖ ^ 2 = (a.norm * g.norm) ^ 2 := by
    rw [Complex.sq_norm, Complex.normSq_mk, mul_pow, Vec3.norm_sq, Vec3.norm_sq, ← Vec3.sqNorm_cross, ← Vec3.norm_sq]
    ring
  exact (sq_eq_sq₀ (norm_nonneg _) (mul_nonneg a.norm_nonneg g.norm_nonneg)).1 h1

theorem atan2_eq : ScalarFn.atan2 (a.cross g).norm (a.dot g) = angleBetween a g := by
  rw [ScalarFn.atan2_real, Complex.arg_of_im_pos (Vec3.norm_pos _ h), norm_arg a g, angleBetween]

theorem cos_angle : Real.cos (angleBetween a g) * (a.norm * g.norm) = a.dot g := by
  obtain ⟨ha, hg⟩ := ne_zero_of_cross a g h
  have hp : 0 < a.norm * g.norm := mul_pos (a.norm_pos ha) (g.norm_pos hg)
  have hne : (⟨a.dot g, (a.cross g).norm⟩ : ℂ) ≠ 0 := by
    rw [← norm_pos_iff, norm_arg a g]; exact hp
  rw [← atan2_eq a g h, ScalarFn.atan2_real, Complex.cos_arg hne, norm_arg a g]
  exact div_mul_cancel₀ _ hp.ne'

theorem sin_angle : Real.sin (angleBetween a g) * (a.norm * g.norm) = (a.cross g).norm := by
  obtain ⟨ha, hg⟩ := ne_zero_of_cross a g h
  have hp : 0 < a.norm * g.norm := mul_pos (a.norm_pos ha) (g.norm_pos hg)
  rw [← atan2_eq a g h, ScalarFn.atan2_real, Complex.sin_arg, norm_arg a g]
  exact div_mul_cancel₀ _ hp.ne'

theorem angle_pos : 0 < angleBetween a g := by
  rw [← atan2_eq a g h, ScalarFn.atan2_real]
  refine lt_of_le_of_ne (Complex.arg_nonneg_iff.2 (Vec3.norm_nonneg _)) fun e => ?_
  have h1 := sin_angle a g h
  rw [← atan2_eq a g h, ScalarFn.atan2_real, ← e] at h1
  simp at h1
  exact h ((Vec3.norm_eq_zero _).1 h1.symm)

omit h in
theorem angle_le_pi : angleBetween a g ≤ Real.pi := Real.arccos_le_pi _

theorem initQuat_eq : ∃ r : ℝ, 0 < r ∧ r ^ 2 = 1 + (angleBetween a g / 2) ^ 2 ∧
    Att.initQuat a g = ⟨1 / r, angleBetween a g / 2 / (a.cross g).norm * (a.cross g).x / r, angleBetween a g / 2 / (a.cross g).norm * (a.cross g).y / r,
      angleBetween a g / 2 / (a.cross g).norm * (a.cross g).z / r⟩ := by
  have hn := Vec3.norm_pos _ h
  have hdq : Att.initQuat a g = (⟨1, angleBetween a g / 2 / (a.cross g).norm * (a.cross g).x, angleBetween a g / 2 / (a.cross g).norm * (a.cross g).y,
      angleBetween a g / 2 / (a.cross g).norm * (a.cross g).z⟩ : Quat ℝ).normalized := by
    unfold Att.initQuat
    have h1 := Quat.sqNorm_deltaQ_pos
    rw [Quat.normalized_of_unit _ (Quat.sqNorm_normalized _ (lt_of_lt_of_le one_pos (h1 _)))]
    congr 1
    simp only [atan2_eq a g h, Utility.deltaQ, Vec3.sdiv, ScalarFn.lit_real]
    apply Quat.ext <;> simp only <;> push_cast <;> ring
  have hsq : (⟨1, angleBetween a g / 2 / (a.cross g).norm * (a.cross g).x, angleBetween a g / 2 / (a.cross g).norm * (a.cross g).y,
      angleBetween a g / 2 / (a.cross g).norm * (a.cross g).z⟩ : Quat ℝ).sqNorm = 1 + (angleBetween a g / 2) ^ 2 := by
    have h2 := Vec3.norm_sq (a.cross g)
    generalize (a.cross g).norm = n at *
    generalize a.cross g = c at *
    simp only [Vec3.sqNorm] at h2
    simp only [Quat.sqNorm]
    field_simp
    linear_combination (- angleBetween a g ^ 2 ) * h2
  have hp : 0 < 1 + (angleBetween a g / 2) ^ 2 := by positivity
  refine ⟨√(1 + (angleBetween a g / 2) ^ 2), Real.sqrt_pos.2 hp, Real.sq_sqrt hp.le, ?_⟩
  rw [hdq, Quat.normalized_of_pos _ (by rw [hsq]; exact hp), hsq]

/-- The starting attitude turns the measured specific force, in its plane with gravity, by `2 arctan(theta/2)` instead of `theta`. -/
theorem initQuat_rotate : (Att.initQuat a g).rotate a =
    Vec3.smul (Real.cos (2 * Real.arctan (angleBetween a g / 2))) a +
      Vec3.smul (Real.sin (2 * Real.arctan (angleBetween a g / 2)) / (a.cross g).norm) ((a.cross g).cross a) := by
  obtain ⟨r, hr, hr2, hq⟩ := initQuat_eq a g h
  have hn := Vec3.norm_pos _ h
  have h2 := Vec3.norm_sq (a.cross g)
  rw [hq]
  have hp : 0 < 1 + (angleBetween a g / 2) ^ 2 := by positivity
  have hc : Real.cos (2 * Real.arctan (angleBetween a g / 2)) = (1 - (angleBetween a g / 2) ^ 2) / r ^ 2 := by
    rw [Real.cos_two_mul, Real.cos_sq_arctan, hr2]; field_simp; ring
  have hsq : √(1 + (angleBetween a g / 2) ^ 2) = r := by rw [← hr2, Real.sqrt_sq hr.le]
  have hs : Real.sin (2 * Real.arctan (angleBetween a g / 2)) = 2 * (angleBetween a g / 2) / r ^ 2 := by
    rw [Real.sin_two_mul, Real.sin_arctan, Real.cos_arctan, hsq]; field_simp
  rw [hc, hs]
  generalize angleBetween a g / 2 = t at *
  generalize (a.cross g).norm = n at *
  simp only [Vec3.sqNorm, Vec3.cross] at h2
  have h2x : ∀ k : ℝ, k * n ^ 2 = k * _ := fun k => by rw [h2]
  apply Vec3.ext <;>
    simp only [Quat.rotate, Quat.vec, Vec3.cross, Vec3.add_x, Vec3.add_y, Vec3.add_z, Vec3.smul_x, Vec3.smul_y, Vec3.smul_z]
  · field_simp
    linear_combination n ^ 2 * a.x * hr2 + 2 * t ^ 2 * a.x * h2
  · field_simp
    linear_combination n ^ 2 * a.y * hr2 + 2 * t ^ 2 * a.y * h2
  · field_simp
    linear_combination n ^ 2 * a.z * hr2 + 2 * t ^ 2 * a.z * h2

theorem initQuat_dot : ((Att.initQuat a g).rotate a).dot g =
    a.norm * g.norm * Real.cos (angleBetween a g - 2 * Real.arctan (angleBetween a g / 2)) := by
  have hn := Vec3.norm_pos _ h
  have h2 := Vec3.norm_sq (a.cross g)
  rw [initQuat_rotate a g h, Real.cos_sub]
  have hc := cos_angle a g h
  have hs := sin_angle a g h
  generalize Real.cos (2 * Real.arctan (angleBetween a g / 2)) = C
  generalize Real.sin (2 * Real.arctan (angleBetween a g / 2)) = S
  have e : (Vec3.smul C a + Vec3.smul (S / (a.cross g).norm) ((a.cross g).cross a)).dot g = C * a.dot g + S / (a.cross g).norm * (a.cross g).sqNorm := by
    simp only [Vec3.dot, Vec3.add_x, Vec3.add_y, Vec3.add_z, Vec3.smul_x, Vec3.smul_y, Vec3.smul_z, Vec3.cross, Vec3.sqNorm]
    ring
  rw [e, ← h2, ← hc]
  have : S / (a.cross g).norm * (a.cross g).norm ^ 2 = S * (a.cross g).norm := by field_simp
  rw [this, ← hs]
  ring

end Start

end Vio
