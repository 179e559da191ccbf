/-
Property C126: dead reckoning follows the true motion as closely as the IMU rate is high.
-/
import Verif.Lemmas.Converge
import Verif.Props.Motion
import Mathlib.Analysis.SpecialFunctions.Trigonometric.Deriv
import Mathlib.Analysis.SpecificLimits.Basic
import Mathlib.Tactic.FieldSimp
import Mathlib.Tactic.Choose

set_option linter.unusedSectionVars false

namespace Vio

open Quaternion PropSpec PropQueue Conv

/-- A quaternion of the code as one of Mathlib. -/
def Quat.toH (q : Quat ℝ) : ℍ[ℝ] := ⟨q.w, q.x, q.y, q.z⟩

/-- A vector as a quaternion without real part. -/
def Vec3.toH (v : Vec3 ℝ) : ℍ[ℝ] := ⟨0, v.x, v.y, v.z⟩

@[simp] theorem Quat.toH_re (q : Quat ℝ) : q.toH.re = q.w := rfl
@[simp] theorem Quat.toH_imI (q : Quat ℝ) : q.toH.imI = q.x := rfl
@[simp] theorem Quat.toH_imJ (q : Quat ℝ) : q.toH.imJ = q.y := rfl
@[simp] theorem Quat.toH_imK (q : Quat ℝ) : q.toH.imK = q.z := rfl
@[simp] theorem Vec3.toH_re (v : Vec3 ℝ) : v.toH.re = 0 := rfl
@[simp] theorem Vec3.toH_imI (v : Vec3 ℝ) : v.toH.imI = v.x := rfl
@[simp] theorem Vec3.toH_imJ (v : Vec3 ℝ) : v.toH.imJ = v.y := rfl
@[simp] theorem Vec3.toH_imK (v : Vec3 ℝ) : v.toH.imK = v.z := rfl

theorem Quat.toH_mul (q r : Quat ℝ) : (q.mul r).toH = q.toH * r.toH := by
  ext <;> simp [Quat.mul] <;> ring

theorem Quat.norm_sq_toH (q : Quat ℝ) : ‖q.toH‖ ^ 2 = q.sqNorm := by
  rw [sq, ← Quaternion.normSq_eq_norm_mul_self, Quaternion.normSq_def']
  simp [Quat.sqNorm]; ring

theorem Vec3.norm_sq_toH (v : Vec3 ℝ) : ‖v.toH‖ ^ 2 = v.sqNorm := by
  rw [sq, ← Quaternion.normSq_eq_norm_mul_self, Quaternion.normSq_def']
  simp [Vec3.sqNorm]; ring

/-- The distances below are the lengths of the code. -/
theorem Vec3.norm_toH (v : Vec3 ℝ) : ‖v.toH‖ = v.norm := by
  have : v.norm = Real.sqrt v.sqNorm := rfl
  rw [this, ← Vec3.norm_sq_toH, Real.sqrt_sq (_root_.norm_nonneg _)]

theorem Quat.norm_toH (q : Quat ℝ) : ‖q.toH‖ = Real.sqrt q.sqNorm := by
  rw [← Quat.norm_sq_toH]
  exact (Real.sqrt_sq (norm_nonneg _)).symm

theorem Quat.norm_toH_unit (q : Quat ℝ) (h : q.sqNorm = 1) : ‖q.toH‖ = 1 := by rw [Quat.norm_toH, h, Real.sqrt_one]

@[simp] theorem Vec3.toH_add (a b : Vec3 ℝ) : (a + b).toH = a.toH + b.toH := by ext <;> simp
@[simp] theorem Vec3.toH_sub (a b : Vec3 ℝ) : (a - b).toH = a.toH - b.toH := by ext <;> simp
@[simp] theorem Vec3.toH_smul (k : ℝ) (a : Vec3 ℝ) : (Vec3.smul k a).toH = k • a.toH := by ext <;> simp
@[simp] theorem Vec3.toH_vscale (k : ℝ) (a : Vec3 ℝ) : (vscale a k).toH = k • a.toH := by ext <;> simp [vscale, mul_comm]

/-- Rotation of a vector. -/
theorem Quat.toH_rotate (q : Quat ℝ) (v : Vec3 ℝ) (h : q.sqNorm = 1) : (q.rotate v).toH = q.toH * v.toH * star q.toH := by
  unfold Quat.sqNorm at h
  ext
  · simp; ring
  all_goals
    simp [Quat.rotate, Quat.vec]
  · linear_combination (-v.x) * h
  · linear_combination (-v.y) * h
  · linear_combination (-v.z) * h

theorem Quat.toH_normalized (q : Quat ℝ) (h : 0 < q.sqNorm) : q.normalized.toH = (‖q.toH‖⁻¹ : ℝ) • q.toH := by
  have e : ScalarFn.lt 0 q.sqNorm = true := by simpa using h
  rw [Quat.norm_toH]
  unfold Quat.normalized
  simp only [e, if_true]
  ext <;> simp [div_eq_inv_mul]

theorem deltaQ_toH (θ : Vec3 ℝ) : (Utility.deltaQ θ).toH = 1 + (1 / 2 : ℝ) • θ.toH := by
  ext <;> simp [Utility.deltaQ, Vec3.sdiv, div_eq_inv_mul]

namespace Conv

/-- A motion from `lo` to `hi` with attitude `q`, velocity `v`, position `p`, angular rate `w` and specific force `a` in the device frame, under gravity `g`.  The rate is at most `W` and
changes by at most `L` per second; the specific force is at most `A` and changes by at most `M` per second. -/
structure Flight (q : ℝ → Quat ℝ) (v p w a : ℝ → Vec3 ℝ) (g : Vec3 ℝ) (lo hi W L A M : ℝ) : Prop where
  turn : Turning (fun t => (q t).toH) (fun t => (w t).toH) lo hi W L
  vel : ∀ t ∈ Set.Icc lo hi, HasDerivWithinAt (fun t => (v t).toH) ((q t).rotate (a t) - g).toH (Set.Icc lo hi) t
  pos : ∀ t ∈ Set.Icc lo hi, HasDerivWithinAt (fun t => (p t).toH) (v t).toH (Set.Icc lo hi) t
  force : ∀ t ∈ Set.Icc lo hi, ‖(a t).toH‖ ≤ A
  jerk : ∀ s ∈ Set.Icc lo hi, ∀ t ∈ Set.Icc lo hi, ‖(a s).toH - (a t).toH‖ ≤ M * |s - t|

variable {q : ℝ → Quat ℝ} {v p w a : ℝ → Vec3 ℝ} {g : Vec3 ℝ} {lo hi W L A M : ℝ}

theorem Flight.unit (h : Flight q v p w a g lo hi W L A M) (t : ℝ) (ht : t ∈ Set.Icc lo hi) : (q t).sqNorm = 1 := by
  rw [← Quat.norm_sq_toH, h.turn.unit t ht]; norm_num

/-- The errors of a state at time `t`. -/
noncomputable def errQ (q : ℝ → Quat ℝ) (t : ℝ) (x : Motion ℝ) : ℝ := ‖x.q.toH - (q t).toH‖
noncomputable def errV (v : ℝ → Vec3 ℝ) (t : ℝ) (x : Motion ℝ) : ℝ := ‖x.v.toH - (v t).toH‖
noncomputable def errP (p : ℝ → Vec3 ℝ) (t : ℝ) (x : Motion ℝ) : ℝ := ‖x.p.toH - (p t).toH‖

/-- One step of the propagation of the nominal state. -/
theorem Flight.step (h : Flight q v p w a g lo hi W L A M) (s : PropQueue ℝ ℝ) (i0 : PropItem ℝ ℝ) (t1 : ℝ) (h0 : lo ≤ i0.ts) (ht : i0.ts ≤ t1) (h1 : t1 ≤ hi)
    (hq : i0.st.q.sqNorm = 1) (ha : i0.accel = a i0.ts + s.biasA) (hg : i0.gyro = w i0.ts + s.biasG) (x : Motion ℝ)
    (hx : x = s.nominal g i0 (a t1 + s.biasA) (w t1 + s.biasG) t1) :
    x.q.sqNorm = 1 ∧ errQ q t1 x ≤ errQ q i0.ts i0.st + (W ^ 2 + L) * (t1 - i0.ts) ^ 2 ∧
    errV v t1 x ≤ errV v i0.ts i0.st + (t1 - i0.ts) * (A * (errQ q i0.ts i0.st + errQ q t1 x)) + (A * W + M) / 2 * (t1 - i0.ts) ^ 2 ∧
    errP p t1 x ≤ errP p i0.ts i0.st + (t1 - i0.ts) * ((errV v i0.ts i0.st + errV v t1 x) / 2) + (A + ‖g.toH‖) / 2 * (t1 - i0.ts) ^ 2 := by
  obtain ⟨t0, ht0⟩ : ∃ t0, t0 = i0.ts := ⟨_, rfl⟩
  have hd : (dt i0.ts t1 : ℝ) = t1 - t0 := by rw [ht0]; rfl
  rw [← ht0] at h0 ht ha hg ⊢
  have m0 : t0 ∈ Set.Icc lo hi := ⟨h0, ht.trans h1⟩
  have m1 : t1 ∈ Set.Icc lo hi := ⟨h0.trans ht, h1⟩
  have hsub : Set.Icc t0 t1 ⊆ Set.Icc lo hi := Set.Icc_subset_Icc h0 h1
  have hdn : 0 ≤ t1 - t0 := by linarith
  have hA : 0 ≤ A := (norm_nonneg _).trans (h.force t0 m0)
  -- attitude
  obtain ⟨dq, hdq⟩ : ∃ dq, dq = Utility.deltaQ (vscale (midGyro s.biasG i0.gyro (w t1 + s.biasG)) (dt i0.ts t1)) := ⟨_, rfl⟩
  obtain ⟨u, hu⟩ : ∃ u, u = ((t1 - t0) / 4) • ((w t0).toH + (w t1).toH) := ⟨_, rfl⟩
  have hdu : dq.toH = 1 + u := by
    rw [hdq, deltaQ_toH, hu, Vec3.toH_vscale, hd]
    have : (midGyro s.biasG i0.gyro (w t1 + s.biasG)).toH = (1 / 2 : ℝ) • ((w t0).toH + (w t1).toH) := by
      rw [hg]
      unfold midGyro
      ext <;> simp <;> ring
    rw [this]
    congr 1
    module
  have hure : u.re = 0 := by rw [hu]; simp
  have hu1 := (norm_unit u hure).1
  have hdq0 : 0 < dq.sqNorm := by rw [← Quat.norm_sq_toH, hdu]; positivity
  have hq1 : x.q = (i0.st.q.mul dq).normalized := by rw [hx, hdq]; rfl
  have hmul : (i0.st.q.mul dq).sqNorm = dq.sqNorm := by
    rw [← Quat.norm_sq_toH, ← Quat.norm_sq_toH, Quat.toH_mul, norm_mul, Quat.norm_toH_unit _ hq, one_mul]
  have hxq : x.q.toH = i0.st.q.toH * ((‖1 + u‖⁻¹ : ℝ) • (1 + u)) := by
    rw [hq1, Quat.toH_normalized _ (by rw [hmul]; exact hdq0), Quat.toH_mul, norm_mul, Quat.norm_toH_unit _ hq, one_mul, hdu, mul_smul_comm]
  have hxu : x.q.sqNorm = 1 := by
    rw [← Quat.norm_sq_toH, hxq, norm_mul, Quat.norm_toH_unit _ hq, one_mul, norm_smul, norm_inv, norm_norm, inv_mul_cancel₀ (by linarith)]
    norm_num
  have e1 : errQ q t1 x ≤ errQ q t0 i0.st + (W ^ 2 + L) * (t1 - t0) ^ 2 := by
    unfold errQ
    rw [hxq]
    exact h.turn.error (fun t => Vec3.toH_re _) t0 t1 h0 ht h1 u _ hu
  -- velocity
  have hxv : x.v.toH = i0.st.v.toH + (t1 - t0) • ((1 / 2 : ℝ) • ((i0.st.q.rotate (a t0) - g).toH + (x.q.rotate (a t1) - g).toH)) := by
    have e : x.v = i0.st.v + vscale (Vec3.smul (lit (1/2)) (i0.st.q.rotate (i0.accel - s.biasA) + x.q.rotate ((a t1 + s.biasA) - s.biasA)) - g) (dt i0.ts t1) := by rw [hx]; rfl
    have c1 : i0.accel - s.biasA = a t0 := by rw [ha]; apply Vec3.ext <;> simp
    have c2 : (a t1 + s.biasA) - s.biasA = a t1 := by apply Vec3.ext <;> simp
    rw [e, c1, c2, hd]
    simp only [Vec3.toH_add, Vec3.toH_sub, Vec3.toH_smul, Vec3.toH_vscale, ScalarFn.lit_real]
    push_cast
    module
  have hfl : ∀ s' ∈ Set.Icc t0 t1, ∀ t ∈ Set.Icc t0 t1, ‖((q s').rotate (a s') - g).toH - ((q t).rotate (a t) - g).toH‖ ≤ (A * W + M) * |s' - t| := by
    intro s' hs' t ht'
    have k1 := h.turn.move t s' (hsub ht') (hsub hs')
    have k2 := h.jerk s' (hsub hs') t (hsub ht')
    have k3 := h.force s' (hsub hs')
    have e : ((q s').rotate (a s') - g).toH - ((q t).rotate (a t) - g).toH =
        ((q s').toH * (a s').toH * star (q s').toH - (q t).toH * (a s').toH * star (q t).toH) + ((q t).toH * (a s').toH * star (q t).toH - (q t).toH * (a t).toH * star (q t).toH) := by
      rw [Vec3.toH_sub, Vec3.toH_sub, Quat.toH_rotate _ _ (h.unit _ (hsub hs')), Quat.toH_rotate _ _ (h.unit _ (hsub ht'))]; abel
    rw [e]
    refine (norm_add_le _ _).trans ?_
    rw [rot_sub _ _ _ (h.turn.unit t (hsub ht'))]
    have k4 := rot_diff (q s').toH (q t).toH (a s').toH (h.turn.unit s' (hsub hs')) (h.turn.unit t (hsub ht'))
    have k5 : 2 * ‖(a s').toH‖ * ‖(q s').toH - (q t).toH‖ ≤ 2 * A * (W / 2 * |s' - t|) := by
      refine mul_le_mul (by linarith) k1 (norm_nonneg _) (by linarith)
    nlinarith
  have hvt := trapezoid (fun t => (v t).toH) (fun t => ((q t).rotate (a t) - g).toH) (A * W + M) t0 t1 ht (fun t htt => (h.vel t (hsub htt)).mono hsub) hfl
  have e2 : errV v t1 x ≤ errV v t0 i0.st + (t1 - t0) * (A * (errQ q t0 i0.st + errQ q t1 x)) + (A * W + M) / 2 * (t1 - t0) ^ 2 := by
    have r0 := rot_diff i0.st.q.toH (q t0).toH (a t0).toH (Quat.norm_toH_unit _ hq) (h.turn.unit t0 m0)
    have r1 := rot_diff x.q.toH (q t1).toH (a t1).toH (Quat.norm_toH_unit _ hxu) (h.turn.unit t1 m1)
    have k0 := h.force t0 m0
    have k1 := h.force t1 m1
    have e : x.v.toH - (v t1).toH = (i0.st.v.toH - (v t0).toH)
        + (t1 - t0) • ((1 / 2 : ℝ) • ((i0.st.q.toH * (a t0).toH * star i0.st.q.toH - (q t0).toH * (a t0).toH * star (q t0).toH)
          + (x.q.toH * (a t1).toH * star x.q.toH - (q t1).toH * (a t1).toH * star (q t1).toH)))
        + ((v t0).toH + (t1 - t0) • ((1 / 2 : ℝ) • (((q t0).rotate (a t0) - g).toH + ((q t1).rotate (a t1) - g).toH)) - (v t1).toH) := by
      rw [hxv]
      simp only [Vec3.toH_sub, Quat.toH_rotate _ _ hq, Quat.toH_rotate _ _ hxu, Quat.toH_rotate _ _ (h.unit _ m0), Quat.toH_rotate _ _ (h.unit _ m1)]
      module
    unfold errV errQ
    rw [e]
    refine (norm_add_le _ _).trans (add_le_add ((norm_add_le _ _).trans (add_le_add le_rfl ?_)) hvt)
    rw [norm_smul, norm_smul, Real.norm_of_nonneg hdn, Real.norm_of_nonneg (by norm_num : (0 : ℝ) ≤ 1 / 2)]
    refine mul_le_mul_of_nonneg_left ?_ hdn
    have n1 := norm_add_le (i0.st.q.toH * (a t0).toH * star i0.st.q.toH - (q t0).toH * (a t0).toH * star (q t0).toH)
      (x.q.toH * (a t1).toH * star x.q.toH - (q t1).toH * (a t1).toH * star (q t1).toH)
    have l0 : 2 * ‖(a t0).toH‖ * ‖i0.st.q.toH - (q t0).toH‖ ≤ 2 * A * ‖i0.st.q.toH - (q t0).toH‖ := mul_le_mul_of_nonneg_right (by linarith) (norm_nonneg _)
    have l1 : 2 * ‖(a t1).toH‖ * ‖x.q.toH - (q t1).toH‖ ≤ 2 * A * ‖x.q.toH - (q t1).toH‖ := mul_le_mul_of_nonneg_right (by linarith) (norm_nonneg _)
    linarith
  -- position
  have hxp : x.p.toH = i0.st.p.toH + (t1 - t0) • ((1 / 2 : ℝ) • (i0.st.v.toH + x.v.toH)) := by
    have e : x.p = i0.st.p + vscale (Vec3.smul (lit (1/2)) (i0.st.v + x.v)) (dt i0.ts t1) := by rw [hx]; rfl
    rw [e, hd]
    simp only [Vec3.toH_add, Vec3.toH_smul, Vec3.toH_vscale, ScalarFn.lit_real]
    push_cast
    module
  have hvl : ∀ s' ∈ Set.Icc t0 t1, ∀ t ∈ Set.Icc t0 t1, ‖(v s').toH - (v t).toH‖ ≤ (A + ‖g.toH‖) * |s' - t| := by
    intro s' hs' t ht'
    have := Convex.norm_image_sub_le_of_norm_hasDerivWithin_le (f := fun t => (v t).toH) (f' := fun t => ((q t).rotate (a t) - g).toH) (s := Set.Icc t0 t1) (C := A + ‖g.toH‖)
      (x := t) (y := s') (fun t htt => (h.vel t (hsub htt)).mono hsub) (fun t htt => by
        rw [Vec3.toH_sub, Quat.toH_rotate _ _ (h.unit _ (hsub htt))]
        refine (norm_sub_le _ _).trans (add_le_add ?_ le_rfl)
        rw [norm_mul, norm_mul, _root_.norm_star, h.turn.unit t (hsub htt), one_mul, mul_one]
        exact h.force t (hsub htt)) (convex_Icc _ _) ht' hs'
    rwa [Real.norm_eq_abs] at this
  have hpt := trapezoid (fun t => (p t).toH) (fun t => (v t).toH) (A + ‖g.toH‖) t0 t1 ht (fun t htt => (h.pos t (hsub htt)).mono hsub) hvl
  have e3 : errP p t1 x ≤ errP p t0 i0.st + (t1 - t0) * ((errV v t0 i0.st + errV v t1 x) / 2) + (A + ‖g.toH‖) / 2 * (t1 - t0) ^ 2 := by
    have e : x.p.toH - (p t1).toH = (i0.st.p.toH - (p t0).toH) + (t1 - t0) • ((1 / 2 : ℝ) • ((i0.st.v.toH - (v t0).toH) + (x.v.toH - (v t1).toH)))
        + ((p t0).toH + (t1 - t0) • ((1 / 2 : ℝ) • ((v t0).toH + (v t1).toH)) - (p t1).toH) := by
      rw [hxp]; module
    unfold errP errV
    rw [e]
    refine (norm_add_le _ _).trans (add_le_add ((norm_add_le _ _).trans (add_le_add le_rfl ?_)) hpt)
    rw [norm_smul, norm_smul, Real.norm_of_nonneg hdn, Real.norm_of_nonneg (by norm_num : (0 : ℝ) ≤ 1 / 2)]
    refine mul_le_mul_of_nonneg_left ?_ hdn
    have := norm_add_le (i0.st.v.toH - (v t0).toH) (x.v.toH - (v t1).toH)
    linarith
  exact ⟨hxu, e1, e2, e3⟩

/-- Sampling times after `t0`, not decreasing, with steps of at most `h`. -/
def Grid (h : ℝ) : ℝ → List ℝ → Prop
  | _, [] => True
  | s, t :: ts => s ≤ t ∧ t - s ≤ h ∧ Grid h t ts

/-- The time of the last sample. -/
def lastTime : ℝ → List ℝ → ℝ
  | s, [] => s
  | _, t :: ts => lastTime t ts

/-- The queue after the samples that an IMU with constant biases gives during the motion. -/
noncomputable def fly (nExt : Nat) (g : Vec3 ℝ) (w a : ℝ → Vec3 ℝ) (ba bg : Vec3 ℝ) (s : PropQueue ℝ ℝ) (ts : List ℝ) : PropQueue ℝ ℝ :=
  ts.foldl (fun s t => s.propagate nExt g (a t + ba) (w t + bg) t) s

theorem lastTime_ge (h : ℝ) (t0 : ℝ) (ts : List ℝ) (hg : Grid h t0 ts) : t0 ≤ lastTime t0 ts := by
  induction ts generalizing t0 with
  | nil => exact le_refl _
  | cons t ts ih => exact hg.1.trans (ih t hg.2.2)

/-- The invariant of a run: bounds that grow with the time since `o`. -/
theorem fly_bounds (nExt : Nat) (h : Flight q v p w a g lo hi W L A M) (δ EQ EV EP o eq ev : ℝ) (hL : 0 ≤ L) (hM : 0 ≤ M) (s : PropQueue ℝ ℝ) (i0 : PropItem ℝ ℝ)
    (ts : List ℝ) (hl : s.items.getLast? = some i0) (hq : i0.st.q.sqNorm = 1) (ha : i0.accel = a i0.ts + s.biasA) (hg : i0.gyro = w i0.ts + s.biasG) (hgrid : Grid δ i0.ts ts)
    (h0 : lo ≤ i0.ts) (h1 : lastTime i0.ts ts ≤ hi)
    (c1 : ∀ t, t ≤ lastTime i0.ts ts → EQ + (W ^ 2 + L) * δ * (t - o) ≤ eq) (c2 : ∀ t, t ≤ lastTime i0.ts ts → EV + (2 * A * eq + (A * W + M) / 2 * δ) * (t - o) ≤ ev)
    (b1 : errQ q i0.ts i0.st ≤ EQ + (W ^ 2 + L) * δ * (i0.ts - o)) (b2 : errV v i0.ts i0.st ≤ EV + (2 * A * eq + (A * W + M) / 2 * δ) * (i0.ts - o))
    (b3 : errP p i0.ts i0.st ≤ EP + (ev + (A + ‖g.toH‖) / 2 * δ) * (i0.ts - o)) :
    ∃ it, (fly nExt g w a s.biasA s.biasG s ts).items.getLast? = some it ∧ it.ts = lastTime i0.ts ts ∧ it.st.q.sqNorm = 1 ∧
      errQ q it.ts it.st ≤ EQ + (W ^ 2 + L) * δ * (it.ts - o) ∧ errV v it.ts it.st ≤ EV + (2 * A * eq + (A * W + M) / 2 * δ) * (it.ts - o) ∧
      errP p it.ts it.st ≤ EP + (ev + (A + ‖g.toH‖) / 2 * δ) * (it.ts - o) := by
  induction ts generalizing s i0 with
  | nil => exact ⟨i0, hl, rfl, hq, b1, b2, b3⟩
  | cons t ts ih =>
    have e : s.propagate nExt g (a t + s.biasA) (w t + s.biasG) t = { s with items := s.items ++ [s.stepItem g i0 (a t + s.biasA) (w t + s.biasG) t], F := s.stepF i0 (a t + s.biasA) (w t + s.biasG) t, G := s.stepG i0 t } := by
      unfold propagate
      rw [hl]
    obtain ⟨g1, g2, g3⟩ := hgrid
    have htl : t ≤ lastTime t ts := lastTime_ge δ t ts g3
    have hth : t ≤ hi := htl.trans h1
    obtain ⟨x, hx⟩ : ∃ x, x = s.nominal g i0 (a t + s.biasA) (w t + s.biasG) t := ⟨_, rfl⟩
    obtain ⟨s1, s2, s3, s4⟩ := h.step s i0 t h0 g1 hth hq ha hg x hx
    have hst : (s.stepItem g i0 (a t + s.biasA) (w t + s.biasG) t).st = x := hx.symm
    have hA : 0 ≤ A := (norm_nonneg _).trans (h.force t ⟨h0.trans g1, hth⟩)
    have hW : 0 ≤ W := (norm_nonneg _).trans (h.turn.bound t ⟨h0.trans g1, hth⟩)
    have hd : 0 ≤ t - i0.ts := by linarith
    have hdd : (t - i0.ts) ^ 2 ≤ δ * (t - i0.ts) := by nlinarith
    have k1 : errQ q t x ≤ EQ + (W ^ 2 + L) * δ * (t - o) := by
      have : (W ^ 2 + L) * (t - i0.ts) ^ 2 ≤ (W ^ 2 + L) * (δ * (t - i0.ts)) := mul_le_mul_of_nonneg_left hdd (by positivity)
      have r4 : (W ^ 2 + L) * δ * (t - o) = (W ^ 2 + L) * δ * (i0.ts - o) + (W ^ 2 + L) * (δ * (t - i0.ts)) := by ring
      linarith
    have k2 : errV v t x ≤ EV + (2 * A * eq + (A * W + M) / 2 * δ) * (t - o) := by
      have r1 : errQ q i0.ts i0.st + errQ q t x ≤ 2 * eq := by linarith [c1 t htl, c1 i0.ts (g1.trans htl)]
      have r2 : (t - i0.ts) * (A * (errQ q i0.ts i0.st + errQ q t x)) ≤ (t - i0.ts) * (A * (2 * eq)) := mul_le_mul_of_nonneg_left (mul_le_mul_of_nonneg_left r1 hA) hd
      have r3 : (A * W + M) / 2 * (t - i0.ts) ^ 2 ≤ (A * W + M) / 2 * (δ * (t - i0.ts)) := mul_le_mul_of_nonneg_left hdd (by positivity)
      have r4 : (2 * A * eq + (A * W + M) / 2 * δ) * (t - o) = (2 * A * eq + (A * W + M) / 2 * δ) * (i0.ts - o) + (t - i0.ts) * (A * (2 * eq)) + (A * W + M) / 2 * (δ * (t - i0.ts)) := by ring
      linarith
    have k3 : errP p t x ≤ EP + (ev + (A + ‖g.toH‖) / 2 * δ) * (t - o) := by
      have r1 : (errV v i0.ts i0.st + errV v t x) / 2 ≤ ev := by linarith [c2 t htl, c2 i0.ts (g1.trans htl)]
      have r2 : (t - i0.ts) * ((errV v i0.ts i0.st + errV v t x) / 2) ≤ (t - i0.ts) * ev := mul_le_mul_of_nonneg_left r1 hd
      have r3 : (A + ‖g.toH‖) / 2 * (t - i0.ts) ^ 2 ≤ (A + ‖g.toH‖) / 2 * (δ * (t - i0.ts)) := mul_le_mul_of_nonneg_left hdd (by positivity)
      have r4 : (ev + (A + ‖g.toH‖) / 2 * δ) * (t - o) = (ev + (A + ‖g.toH‖) / 2 * δ) * (i0.ts - o) + (t - i0.ts) * ev + (A + ‖g.toH‖) / 2 * (δ * (t - i0.ts)) := by ring
      linarith
    obtain ⟨it, j1, j2, j3⟩ := ih (s.propagate nExt g (a t + s.biasA) (w t + s.biasG) t) (s.stepItem g i0 (a t + s.biasA) (w t + s.biasG) t)
      (by rw [e]; exact List.getLast?_concat) (by rw [hst]; exact s1) (by rw [e]; rfl) (by rw [e]; rfl) g3 (h0.trans g1) h1 c1 c2 (by rw [hst]; exact k1) (by rw [hst]; exact k2)
      (by rw [hst]; exact k3)
    have eb : (s.propagate nExt g (a t + s.biasA) (w t + s.biasG) t).biasA = s.biasA ∧ (s.propagate nExt g (a t + s.biasA) (w t + s.biasG) t).biasG = s.biasG := by rw [e]; exact ⟨rfl, rfl⟩
    rw [eb.1, eb.2] at j1
    exact ⟨it, j1, j2, j3⟩

end Conv

open Conv

variable {q : ℝ → Quat ℝ} {v p w a : ℝ → Vec3 ℝ} {g : Vec3 ℝ} {t0 hi W L A M : ℝ}

/-- C126, bounds: let a device move in any way with bounded rate and specific force that change at bounded speed, and let the propagator know the constant biases.  Fed with samples at most
`δ` apart, it has after the time `τ` errors of attitude, velocity and position that are at most those it started with, carried on for the time `τ`, plus constants times `δ`. -/
theorem C126_bounds (nExt : Nat) (h : Flight q v p w a g t0 hi W L A M) (hL : 0 ≤ L) (hM : 0 ≤ M) (δ : ℝ) (hδ : 0 ≤ δ) (s : PropQueue ℝ ℝ) (i0 : PropItem ℝ ℝ) (ts : List ℝ)
    (hl : s.items.getLast? = some i0) (h0 : i0.ts = t0) (hq : i0.st.q.sqNorm = 1) (ha : i0.accel = a t0 + s.biasA) (hg : i0.gyro = w t0 + s.biasG) (hgrid : Grid δ t0 ts)
    (h1 : lastTime t0 ts ≤ hi) :
    ∃ it, (fly nExt g w a s.biasA s.biasG s ts).items.getLast? = some it ∧ it.ts = lastTime t0 ts ∧ ∀ τ, τ = it.ts - t0 →
      ∀ EQ EV, EQ = errQ q t0 i0.st + (W ^ 2 + L) * δ * τ → EV = errV v t0 i0.st + (2 * A * EQ + (A * W + M) / 2 * δ) * τ →
      errQ q it.ts it.st ≤ EQ ∧ errV v it.ts it.st ≤ EV ∧ errP p it.ts it.st ≤ errP p t0 i0.st + (EV + (A + ‖g.toH‖) / 2 * δ) * τ := by
  subst h0
  have hge := lastTime_ge δ i0.ts ts hgrid
  have hA : 0 ≤ A := (norm_nonneg _).trans (h.force i0.ts ⟨le_refl _, hge.trans h1⟩)
  have hW : 0 ≤ W := (norm_nonneg _).trans (h.turn.bound i0.ts ⟨le_refl _, hge.trans h1⟩)
  obtain ⟨τ, hτ⟩ : ∃ τ, τ = lastTime i0.ts ts - i0.ts := ⟨_, rfl⟩
  have hτ0 : 0 ≤ τ := by linarith
  obtain ⟨EQ, hEQ⟩ : ∃ EQ, EQ = errQ q i0.ts i0.st + (W ^ 2 + L) * δ * τ := ⟨_, rfl⟩
  obtain ⟨EV, hEV⟩ : ∃ EV, EV = errV v i0.ts i0.st + (2 * A * EQ + (A * W + M) / 2 * δ) * τ := ⟨_, rfl⟩
  have hq0 : 0 ≤ errQ q i0.ts i0.st := norm_nonneg _
  have p1 : 0 ≤ (W ^ 2 + L) * δ := by positivity
  have p2 : 0 ≤ EQ := by rw [hEQ]; positivity
  have p3 : 0 ≤ 2 * A * EQ + (A * W + M) / 2 * δ := by positivity
  obtain ⟨it, j1, j2, -, j4, j5, j6⟩ := fly_bounds nExt h δ (errQ q i0.ts i0.st) (errV v i0.ts i0.st) (errP p i0.ts i0.st) i0.ts EQ EV hL hM s i0 ts hl hq ha hg hgrid (le_refl _) h1
    (fun t ht => by rw [hEQ]; exact add_le_add le_rfl (mul_le_mul_of_nonneg_left (by linarith) p1))
    (fun t ht => by rw [hEV]; exact add_le_add le_rfl (mul_le_mul_of_nonneg_left (by linarith) p3)) (by simp) (by simp) (by simp)
  refine ⟨it, j1, j2, fun τ' h2 EQ' EV' h3 h4 => ?_⟩
  have : τ' = τ := by rw [h2, j2, hτ]
  subst this
  have : EQ' = EQ := h3.trans hEQ.symm
  subst this
  have : EV' = EV := h4.trans hEV.symm
  subst this
  rw [← h2] at j4 j5 j6
  exact ⟨j4.trans (le_of_eq hEQ.symm), j5.trans (le_of_eq hEV.symm), j6⟩

/-- `n` samples at equal steps up to `t0 + τ`. -/
noncomputable def Conv.even (t0 τ : ℝ) (n : Nat) : List ℝ := (List.range n).map (fun k : ℕ => t0 + (k + 1) * (τ / n))

theorem Conv.even_grid (t0 τ : ℝ) (hτ : 0 ≤ τ) (n : Nat) (hn : n ≠ 0) : Grid (τ / n) t0 (even t0 τ n) ∧ lastTime t0 (even t0 τ n) = t0 + τ := by
  have hn' : (0 : ℝ) < n := by positivity
  have key : ∀ m k : Nat, Grid (τ / n) (t0 + k * (τ / n)) ((List.range' k m).map (fun k : ℕ => t0 + ((k : ℝ) + 1) * (τ / n))) ∧
      lastTime (t0 + k * (τ / n)) ((List.range' k m).map (fun k : ℕ => t0 + ((k : ℝ) + 1) * (τ / n))) = t0 + (k + m : ℕ) * (τ / n) := by
    intro m
    induction m with
    | zero => intro k; exact ⟨trivial, by simp [lastTime]⟩
    | succ m ih =>
      intro k
      rw [List.range'_succ, List.map_cons]
      have h1 := ih (k + 1)
      push_cast at h1 ⊢
      refine ⟨⟨?_, ?_, h1.1⟩, ?_⟩
      · have : 0 ≤ τ / n := by positivity
        nlinarith
      · nlinarith
      · show lastTime (t0 + (↑k + 1) * (τ / ↑n)) _ = _
        rw [h1.2]; ring
  have := key n 0
  rw [← List.range_eq_range'] at this
  simp only [Nat.cast_zero, zero_mul, add_zero, zero_add] at this
  refine ⟨this.1, this.2.trans ?_⟩
  field_simp

open Filter Topology in
/-- C126: from the true state, dead reckoning over any such motion converges to the true attitude, velocity and position when the IMU rate goes up. -/
theorem C126_converges (nExt : Nat) (τ : ℝ) (hτ : 0 ≤ τ) (h : Flight q v p w a g t0 (t0 + τ) W L A M) (hL : 0 ≤ L) (hM : 0 ≤ M) (s : PropQueue ℝ ℝ) (i0 : PropItem ℝ ℝ)
    (hl : s.items.getLast? = some i0) (h0 : i0.ts = t0) (hst : i0.st = ⟨p t0, v t0, q t0⟩) (ha : i0.accel = a t0 + s.biasA) (hg : i0.gyro = w t0 + s.biasG) :
    ∃ x : ℕ → Motion ℝ, (∀ n, n ≠ 0 → ((fly nExt g w a s.biasA s.biasG s (even t0 τ n)).items.getLast?).map (·.st) = some (x n)) ∧
      Tendsto (fun n => errQ q (t0 + τ) (x n)) atTop (𝓝 0) ∧ Tendsto (fun n => errV v (t0 + τ) (x n)) atTop (𝓝 0) ∧ Tendsto (fun n => errP p (t0 + τ) (x n)) atTop (𝓝 0) := by
  have hz : errQ q t0 i0.st = 0 ∧ errV v t0 i0.st = 0 ∧ errP p t0 i0.st = 0 := by rw [hst]; simp [errQ, errV, errP]
  have hq : i0.st.q.sqNorm = 1 := by rw [hst]; exact h.unit t0 ⟨le_refl _, by linarith⟩
  have key : ∀ n : ℕ, ∃ x : Motion ℝ, n ≠ 0 → ((fly nExt g w a s.biasA s.biasG s (even t0 τ n)).items.getLast?).map (·.st) = some x ∧
      errQ q (t0 + τ) x ≤ (W ^ 2 + L) * τ * τ * (n : ℝ)⁻¹ ∧ errV v (t0 + τ) x ≤ (2 * A * ((W ^ 2 + L) * τ * τ) + (A * W + M) / 2 * τ) * τ * (n : ℝ)⁻¹ ∧
      errP p (t0 + τ) x ≤ ((2 * A * ((W ^ 2 + L) * τ * τ) + (A * W + M) / 2 * τ) * τ + (A + ‖g.toH‖) / 2 * τ) * τ * (n : ℝ)⁻¹ := by
    intro n
    by_cases hn : n = 0
    · exact ⟨i0.st, fun h => absurd hn h⟩
    obtain ⟨g1, g2⟩ := even_grid t0 τ hτ n hn
    obtain ⟨it, j1, j2, j3⟩ := C126_bounds nExt h hL hM (τ / n) (by positivity) s i0 _ hl h0 hq ha hg g1 (le_of_eq g2)
    obtain ⟨k1, k2, k3⟩ := j3 τ (by rw [j2, g2]; ring) _ _ rfl rfl
    rw [j2, g2] at k1 k2 k3
    rw [hz.1] at k1 k2 k3
    rw [hz.2.1] at k2 k3
    rw [hz.2.2] at k3
    refine ⟨it.st, fun _ => ⟨by rw [j1]; rfl, k1.trans (le_of_eq ?_), k2.trans (le_of_eq ?_), k3.trans (le_of_eq ?_)⟩⟩ <;> rw [div_eq_mul_inv] <;> ring
  choose x hx using key
  have lim : ∀ c : ℝ, Tendsto (fun n : ℕ => c * (n : ℝ)⁻¹) atTop (𝓝 0) := fun c => by
    simpa using (tendsto_inv_atTop_nhds_zero_nat (𝕜 := ℝ)).const_mul c
  have fin : ∀ (f : ℕ → ℝ) (c : ℝ), (∀ n, 0 ≤ f n) → (∀ n, n ≠ 0 → f n ≤ c * (n : ℝ)⁻¹) → Tendsto f atTop (𝓝 0) := fun f c p1 p2 =>
    tendsto_of_tendsto_of_tendsto_of_le_of_le' tendsto_const_nhds (lim c) (Eventually.of_forall p1) ((eventually_ne_atTop 0).mono p2)
  exact ⟨x, fun n hn => (hx n hn).1, fin _ _ (fun _ => norm_nonneg _) (fun n hn => (hx n hn).2.1), fin _ _ (fun _ => norm_nonneg _) (fun n hn => (hx n hn).2.2.1),
    fin _ _ (fun _ => norm_nonneg _) (fun n hn => (hx n hn).2.2.2)⟩

/-! ### Example: a circle -/

namespace Conv

/-- Derivative of a quaternion given by its components. -/
theorem hasDeriv_comp (f0 f1 f2 f3 : ℝ → ℝ) (d0 d1 d2 d3 t : ℝ) (h0 : HasDerivAt f0 d0 t) (h1 : HasDerivAt f1 d1 t) (h2 : HasDerivAt f2 d2 t) (h3 : HasDerivAt f3 d3 t) :
    HasDerivAt (fun t => (⟨f0 t, f1 t, f2 t, f3 t⟩ : Quat ℝ).toH) (⟨d0, d1, d2, d3⟩ : Quat ℝ).toH t := by
  have h := (((h0.smul_const (⟨1, 0, 0, 0⟩ : Quat ℝ).toH).add (h1.smul_const (⟨0, 1, 0, 0⟩ : Quat ℝ).toH)).add (h2.smul_const (⟨0, 0, 1, 0⟩ : Quat ℝ).toH)).add
    (h3.smul_const (⟨0, 0, 0, 1⟩ : Quat ℝ).toH)
  have e : ∀ a b c d : ℝ, (⟨a, b, c, d⟩ : Quat ℝ).toH =
      a • (⟨1, 0, 0, 0⟩ : Quat ℝ).toH + b • (⟨0, 1, 0, 0⟩ : Quat ℝ).toH + c • (⟨0, 0, 1, 0⟩ : Quat ℝ).toH + d • (⟨0, 0, 0, 1⟩ : Quat ℝ).toH := by
    intro a b c d
    ext <;> simp
  rw [e]
  simp only [e (f0 _)]
  exact h

noncomputable def circQ (t : ℝ) : Quat ℝ := ⟨Real.cos (t / 2), 0, 0, Real.sin (t / 2)⟩
noncomputable def circV (t : ℝ) : Vec3 ℝ := ⟨-Real.sin t, Real.cos t, 0⟩
noncomputable def circP (t : ℝ) : Vec3 ℝ := ⟨Real.cos t, Real.sin t, 0⟩

/-- A device on a circle of radius one metre at one radian per second, looking along the circle. -/
theorem circle (lo hi : ℝ) : Flight circQ circV circP (fun _ => ⟨0, 0, 1⟩) (fun _ => ⟨-1, 0, 10⟩) ⟨0, 0, 10⟩ lo hi 1 0 11 0 := by
  have n1 : ‖(⟨0, 0, 1⟩ : Vec3 ℝ).toH‖ = 1 := by
    have h := Vec3.norm_sq_toH ⟨0, 0, 1⟩
    simp [Vec3.sqNorm] at h
    rcases h with h | h
    · exact h
    · linarith [norm_nonneg (⟨0, 0, 1⟩ : Vec3 ℝ).toH]
  have n2 : ‖(⟨-1, 0, 10⟩ : Vec3 ℝ).toH‖ ≤ 11 := by
    have h := Vec3.norm_sq_toH ⟨-1, 0, 10⟩
    simp [Vec3.sqNorm] at h
    nlinarith [norm_nonneg (⟨-1, 0, 10⟩ : Vec3 ℝ).toH]
  have hu : ∀ t, (circQ t).sqNorm = 1 := fun t => by
    simp only [Quat.sqNorm, circQ]; nlinarith [Real.sin_sq_add_cos_sq (t / 2)]
  have hc : ∀ t, Real.cos t = Real.cos (t / 2) ^ 2 - Real.sin (t / 2) ^ 2 := fun t => by
    have := Real.cos_two_mul (t / 2); rw [show 2 * (t / 2) = t by ring] at this
    rw [this]; nlinarith [Real.sin_sq_add_cos_sq (t / 2)]
  have hs : ∀ t, Real.sin t = 2 * Real.sin (t / 2) * Real.cos (t / 2) := fun t => by
    have := Real.sin_two_mul (t / 2); rwa [show 2 * (t / 2) = t by ring] at this
  have half : ∀ t : ℝ, HasDerivAt (fun t : ℝ => t / 2) (1 / 2) t := fun t => (hasDerivAt_id t).div_const 2
  refine ⟨⟨fun t _ => ?_, fun t _ => Quat.norm_toH_unit _ (hu t), fun t _ => le_of_eq n1, fun s _ t _ => by simp⟩, fun t _ => ?_, fun t _ => ?_, fun t _ => n2, fun s _ t _ => by simp⟩
  · refine HasDerivAt.hasDerivWithinAt ?_
    have h := hasDeriv_comp (fun t => Real.cos (t / 2)) (fun _ => 0) (fun _ => 0) (fun t => Real.sin (t / 2)) _ _ _ _ t (half t).cos (hasDerivAt_const _ _) (hasDerivAt_const _ _) (half t).sin
    have e : ((⟨0, 0, 1⟩ : Vec3 ℝ).toH : ℍ[ℝ]) = (⟨0, 0, 0, 1⟩ : Quat ℝ).toH := rfl
    have e2 : (1 / 2 : ℝ) • ((circQ t).toH * (⟨0, 0, 1⟩ : Vec3 ℝ).toH) = (⟨-Real.sin (t / 2) * (1 / 2), 0, 0, Real.cos (t / 2) * (1 / 2)⟩ : Quat ℝ).toH := by
      rw [e, ← Quat.toH_mul]
      ext <;> simp [Quat.mul, circQ] <;> ring
    show HasDerivAt _ ((1 / 2 : ℝ) • ((circQ t).toH * (⟨0, 0, 1⟩ : Vec3 ℝ).toH)) t
    rw [e2]
    exact h
  · refine HasDerivAt.hasDerivWithinAt ?_
    have h := hasDeriv_comp (fun _ => 0) (fun t => -Real.sin t) (fun t => Real.cos t) (fun _ => 0) _ _ _ _ t (hasDerivAt_const _ _) (Real.hasDerivAt_sin t).neg (Real.hasDerivAt_cos t) (hasDerivAt_const _ _)
    have hh := Real.sin_sq_add_cos_sq (t / 2)
    have e2 : ((circQ t).rotate ⟨-1, 0, 10⟩ - ⟨0, 0, 10⟩ : Vec3 ℝ).toH = (⟨0, -Real.cos t, -Real.sin t, 0⟩ : Quat ℝ).toH := by
      ext <;> simp [Quat.rotate, Quat.vec, circQ, hc t, hs t] <;> nlinarith
    show HasDerivAt _ (((circQ t).rotate ⟨-1, 0, 10⟩ - ⟨0, 0, 10⟩ : Vec3 ℝ).toH) t
    rw [e2]
    exact h
  · refine HasDerivAt.hasDerivWithinAt ?_
    have h := hasDeriv_comp (fun _ => 0) (fun t => Real.cos t) (fun t => Real.sin t) (fun _ => 0) _ _ _ _ t (hasDerivAt_const _ _) (Real.hasDerivAt_cos t) (Real.hasDerivAt_sin t) (hasDerivAt_const _ _)
    exact h

open Filter Topology in
/-- C126 for the circle: an empty queue with the true initial state, a first sample at time 0, and then `n` samples over ten seconds. -/
example : ∃ x : ℕ → Motion ℝ, (∀ n, n ≠ 0 →
      ((fly 1 ⟨0, 0, 10⟩ (fun _ => ⟨0, 0, 1⟩) (fun _ => ⟨-1, 0, 10⟩) 0 0 ((PropQueue.init ⟨⟨1, 0, 0⟩, ⟨0, 1, 0⟩, .one⟩).propagate 1 ⟨0, 0, 10⟩ ⟨-1, 0, 10⟩ ⟨0, 0, 1⟩ 0)
        (even 0 10 n)).items.getLast?).map (·.st) = some (x n)) ∧
    Tendsto (fun n => errP circP (0 + 10) (x n)) atTop (𝓝 0) := by
  obtain ⟨x, h1, -, -, h4⟩ := C126_converges (t0 := 0) 1 10 (by norm_num) (circle 0 (0 + 10)) (le_refl _) (le_refl _)
    ((PropQueue.init ⟨⟨1, 0, 0⟩, ⟨0, 1, 0⟩, .one⟩).propagate 1 ⟨0, 0, 10⟩ ⟨-1, 0, 10⟩ ⟨0, 0, 1⟩ 0) _ rfl rfl
    (by simp [circP, circV, circQ, PropQueue.init, Quat.one]) (by apply Vec3.ext <;> simp [PropQueue.init, propagate])
    (by apply Vec3.ext <;> simp [PropQueue.init, propagate])
  exact ⟨x, h1, h4⟩

end Conv

end Vio
