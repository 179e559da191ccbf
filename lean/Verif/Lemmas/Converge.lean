/-
Local errors of the integration of the propagator, on Mathlib's quaternions.
-/
import Mathlib.Analysis.Quaternion
import Mathlib.Analysis.Calculus.MeanValue
import Mathlib.Analysis.Calculus.Deriv.Add
import Mathlib.Analysis.Calculus.Deriv.Mul
import Mathlib.Tactic.Linarith
import Mathlib.Tactic.Positivity
import Mathlib.Tactic.Ring
import Mathlib.Tactic.Module
import Mathlib.Tactic.NoncommRing

namespace Vio.Conv

open Quaternion

/-- The attitude `Q` of a device that turns at the rate `w`, in the device frame, from `lo` to `hi`; the rate is bounded by `W` and changes by at most `L` per second. -/
structure Turning (Q w : ℝ → ℍ[ℝ]) (lo hi W L : ℝ) : Prop where
  deriv : ∀ t ∈ Set.Icc lo hi, HasDerivWithinAt Q ((1 / 2 : ℝ) • (Q t * w t)) (Set.Icc lo hi) t
  unit : ∀ t ∈ Set.Icc lo hi, ‖Q t‖ = 1
  bound : ∀ t ∈ Set.Icc lo hi, ‖w t‖ ≤ W
  lip : ∀ s ∈ Set.Icc lo hi, ∀ t ∈ Set.Icc lo hi, ‖w s - w t‖ ≤ L * |s - t|

variable {Q w : ℝ → ℍ[ℝ]} {lo hi W L : ℝ}

/-- A function whose derivative stays within `C` of `c` moves by `c` per second up to `C` per second. -/
theorem mean (f f' : ℝ → ℍ[ℝ]) (c : ℍ[ℝ]) (C t0 t1 : ℝ) (ht : t0 ≤ t1) (hf : ∀ t ∈ Set.Icc t0 t1, HasDerivWithinAt f (f' t) (Set.Icc t0 t1) t)
    (hb : ∀ t ∈ Set.Icc t0 t1, ‖f' t - c‖ ≤ C) : ‖f t1 - f t0 - (t1 - t0) • c‖ ≤ C * (t1 - t0) := by
  have h := Convex.norm_image_sub_le_of_norm_hasDerivWithin_le (f := fun t => f t - t • c) (f' := fun t => f' t - c) (s := Set.Icc t0 t1) (C := C)
    (x := t0) (y := t1) (fun t h => by
      have h2 := (hf t h).sub ((hasDerivWithinAt_id t (Set.Icc t0 t1)).smul_const c)
      simp only [one_smul, id] at h2
      exact h2) hb (convex_Icc _ _) ⟨le_refl _, ht⟩ ⟨ht, le_refl _⟩
  rw [Real.norm_of_nonneg (by linarith)] at h
  have e : f t1 - f t0 - (t1 - t0) • c = (f t1 - t1 • c) - (f t0 - t0 • c) := by rw [sub_smul]; abel
  rw [e]
  exact h

theorem Turning.mono (h : Turning Q w lo hi W L) {a b : ℝ} (ha : lo ≤ a) (hb : b ≤ hi) : Turning Q w a b W L := by
  have hs : Set.Icc a b ⊆ Set.Icc lo hi := Set.Icc_subset_Icc ha hb
  exact ⟨fun t ht => (h.deriv t (hs ht)).mono hs, fun t ht => h.unit t (hs ht), fun t ht => h.bound t (hs ht), fun s h1 t h2 => h.lip s (hs h1) t (hs h2)⟩

/-- The attitude changes by at most half the rate. -/
theorem Turning.move (h : Turning Q w lo hi W L) (s t : ℝ) (hs : s ∈ Set.Icc lo hi) (ht : t ∈ Set.Icc lo hi) : ‖Q t - Q s‖ ≤ W / 2 * |t - s| := by
  have := Convex.norm_image_sub_le_of_norm_hasDerivWithin_le (f := Q) (f' := fun t => (1 / 2 : ℝ) • (Q t * w t)) (s := Set.Icc lo hi) (C := W / 2)
    (x := s) (y := t) h.deriv (fun t ht => by
      rw [norm_smul, norm_mul, h.unit t ht, Real.norm_of_nonneg (by norm_num)]
      have := h.bound t ht
      linarith) (convex_Icc _ _) hs ht
  rwa [Real.norm_eq_abs] at this

/-- Normalising `1 + v` for a pure `v` moves it by at most half the square of `v`. -/
theorem norm_unit (v : ℍ[ℝ]) (hv : v.re = 0) : 1 ≤ ‖1 + v‖ ∧ ‖(‖1 + v‖⁻¹ : ℝ) • (1 + v) - (1 + v)‖ ≤ ‖v‖ ^ 2 / 2 := by
  have e : ‖1 + v‖ ^ 2 = 1 + ‖v‖ ^ 2 := by
    rw [sq, sq, ← Quaternion.normSq_eq_norm_mul_self, ← Quaternion.normSq_eq_norm_mul_self, Quaternion.normSq_def', Quaternion.normSq_def']
    simp [hv]
    ring
  have h0 := norm_nonneg (1 + v)
  have h1 : 1 ≤ ‖1 + v‖ := by nlinarith [sq_nonneg ‖v‖]
  refine ⟨h1, ?_⟩
  have e2 : (‖1 + v‖⁻¹ : ℝ) • (1 + v) - (1 + v) = (‖1 + v‖⁻¹ - 1) • (1 + v) := by rw [sub_smul, one_smul]
  rw [e2, norm_smul, Real.norm_eq_abs, abs_of_nonpos (by have := inv_le_one_of_one_le₀ h1; linarith), neg_sub, sub_mul, inv_mul_cancel₀ (by linarith)]
  nlinarith

/-- One step of the attitude: from the true attitude at `t0`, the attitude that the code computes for `t1` is off by at most `(W² + L)` times the square of the step. -/
theorem Turning.step (h : Turning Q w lo hi W L) (hpure : ∀ t, (w t).re = 0) (t0 t1 : ℝ) (h0 : lo ≤ t0) (ht : t0 ≤ t1) (h1 : t1 ≤ hi) (v : ℍ[ℝ])
    (hv : v = ((t1 - t0) / 4) • (w t0 + w t1)) : ‖Q t0 * ((‖1 + v‖⁻¹ : ℝ) • (1 + v)) - Q t1‖ ≤ (W ^ 2 + L) * (t1 - t0) ^ 2 := by
  have hm := h.mono h0 h1
  have m0 : t0 ∈ Set.Icc t0 t1 := ⟨le_refl _, ht⟩
  have m1 : t1 ∈ Set.Icc t0 t1 := ⟨ht, le_refl _⟩
  have hd : 0 ≤ t1 - t0 := by linarith
  have hL : 0 ≤ L * (t1 - t0) := by
    have := (norm_nonneg _).trans (hm.lip t1 m1 t0 m0)
    rwa [abs_of_nonneg hd] at this
  have hW : 0 ≤ W := (norm_nonneg _).trans (hm.bound t0 m0)
  have a1 : ‖Q t1 - Q t0 - (t1 - t0) • ((1 / 2 : ℝ) • (Q t0 * w t0))‖ ≤ (W ^ 2 / 4 * (t1 - t0) + L * (t1 - t0) / 2) * (t1 - t0) := by
    refine mean Q _ _ _ t0 t1 ht hm.deriv (fun t htt => ?_)
    rw [← smul_sub, norm_smul, Real.norm_of_nonneg (by norm_num)]
    have e : Q t * w t - Q t0 * w t0 = (Q t - Q t0) * w t + Q t0 * (w t - w t0) := by noncomm_ring
    have b1 := hm.move t0 t m0 htt
    have b2 := hm.lip t htt t0 m0
    have b3 := hm.bound t htt
    have b4 : |t - t0| ≤ t1 - t0 := by rw [abs_of_nonneg (by linarith [htt.1])]; linarith [htt.2]
    have b5 : L * |t - t0| ≤ L * (t1 - t0) := by
      rcases eq_or_lt_of_le hd with h3 | h3
      · have : |t - t0| = 0 := le_antisymm (by rw [h3]; exact b4) (abs_nonneg _)
        rw [this, ← h3]
      · exact mul_le_mul_of_nonneg_left b4 (nonneg_of_mul_nonneg_left hL h3)
    have b6 : ‖(Q t - Q t0) * w t + Q t0 * (w t - w t0)‖ ≤ W / 2 * (t1 - t0) * W + L * (t1 - t0) := by
      refine (norm_add_le _ _).trans ?_
      rw [norm_mul, norm_mul, hm.unit t0 m0, one_mul]
      refine add_le_add (mul_le_mul (b1.trans ?_) b3 (norm_nonneg _) ?_) (b2.trans b5)
      · exact mul_le_mul_of_nonneg_left b4 (by positivity)
      · positivity
    rw [e]
    nlinarith
  have a2 : ‖v‖ ≤ W / 2 * (t1 - t0) := by
    rw [hv, norm_smul, Real.norm_of_nonneg (by linarith)]
    have := norm_add_le (w t0) (w t1)
    have b1 := hm.bound t0 m0
    have b2 := hm.bound t1 m1
    nlinarith
  have hre : v.re = 0 := by rw [hv]; simp [hpure]
  have a3 := (norm_unit v hre).2
  have a4 : ‖Q t0 * v - (t1 - t0) • ((1 / 2 : ℝ) • (Q t0 * w t0))‖ ≤ L * (t1 - t0) * (t1 - t0) / 4 := by
    have e : Q t0 * v - (t1 - t0) • ((1 / 2 : ℝ) • (Q t0 * w t0)) = ((t1 - t0) / 4) • (Q t0 * (w t1 - w t0)) := by
      rw [hv, mul_smul_comm, mul_add, mul_sub]
      module
    rw [e, norm_smul, norm_mul, hm.unit t0 m0, one_mul, Real.norm_of_nonneg (by linarith)]
    have := hm.lip t1 m1 t0 m0
    rw [abs_of_nonneg hd] at this
    nlinarith
  have e : Q t0 * ((‖1 + v‖⁻¹ : ℝ) • (1 + v)) - Q t1 = Q t0 * ((‖1 + v‖⁻¹ : ℝ) • (1 + v) - (1 + v)) + (Q t0 * v - (t1 - t0) • ((1 / 2 : ℝ) • (Q t0 * w t0)))
      - (Q t1 - Q t0 - (t1 - t0) • ((1 / 2 : ℝ) • (Q t0 * w t0))) := by
    rw [mul_sub, mul_add (Q t0) 1 v, mul_one]; abel
  rw [e]
  refine (norm_sub_le _ _).trans ((add_le_add (norm_add_le _ _) le_rfl).trans ?_)
  rw [norm_mul, hm.unit t0 m0, one_mul]
  have a5 : ‖v‖ ^ 2 ≤ (W / 2 * (t1 - t0)) ^ 2 := pow_le_pow_left₀ (norm_nonneg _) a2 2
  nlinarith [mul_nonneg hL hd, sq_nonneg (W * (t1 - t0))]

/-- The error of one attitude step from a unit quaternion: that of before plus the local one. -/
theorem Turning.error (h : Turning Q w lo hi W L) (hpure : ∀ t, (w t).re = 0) (t0 t1 : ℝ) (h0 : lo ≤ t0) (ht : t0 ≤ t1) (h1 : t1 ≤ hi) (v q : ℍ[ℝ])
    (hv : v = ((t1 - t0) / 4) • (w t0 + w t1)) : ‖q * ((‖1 + v‖⁻¹ : ℝ) • (1 + v)) - Q t1‖ ≤ ‖q - Q t0‖ + (W ^ 2 + L) * (t1 - t0) ^ 2 := by
  have hre : v.re = 0 := by rw [hv]; simp [hpure]
  have hn := (norm_unit v hre).1
  have e : q * ((‖1 + v‖⁻¹ : ℝ) • (1 + v)) - Q t1 = (q - Q t0) * ((‖1 + v‖⁻¹ : ℝ) • (1 + v)) + (Q t0 * ((‖1 + v‖⁻¹ : ℝ) • (1 + v)) - Q t1) := by
    rw [sub_mul]; abel
  rw [e]
  refine (norm_add_le _ _).trans (add_le_add (le_of_eq ?_) (h.step hpure t0 t1 h0 ht h1 v hv))
  rw [norm_mul, norm_smul, norm_inv, norm_norm, inv_mul_cancel₀ (by linarith), mul_one]

/-! ### Rotated vectors -/

/-- Rotating by two unit quaternions. -/
theorem rot_diff (q r a : ℍ[ℝ]) (hq : ‖q‖ = 1) (hr : ‖r‖ = 1) : ‖q * a * star q - r * a * star r‖ ≤ 2 * ‖a‖ * ‖q - r‖ := by
  have e : q * a * star q - r * a * star r = (q - r) * a * star q + r * a * star (q - r) := by rw [star_sub]; noncomm_ring
  rw [e]
  refine (norm_add_le _ _).trans ?_
  simp only [norm_mul, norm_star, hq, hr]
  linarith

theorem rot_sub (q a b : ℍ[ℝ]) (hq : ‖q‖ = 1) : ‖q * a * star q - q * b * star q‖ = ‖a - b‖ := by
  rw [← sub_mul, ← mul_sub, norm_mul, norm_mul, norm_star, hq, one_mul, mul_one]

/-- A trapezoidal step: if `f` has derivative `f'` that changes by at most `B` per second, the mean of the end slopes is off by at most half of `B` times the square of the step. -/
theorem trapezoid (f f' : ℝ → ℍ[ℝ]) (B t0 t1 : ℝ) (ht : t0 ≤ t1) (hf : ∀ t ∈ Set.Icc t0 t1, HasDerivWithinAt f (f' t) (Set.Icc t0 t1) t)
    (hb : ∀ s ∈ Set.Icc t0 t1, ∀ t ∈ Set.Icc t0 t1, ‖f' s - f' t‖ ≤ B * |s - t|) :
    ‖f t0 + (t1 - t0) • ((1 / 2 : ℝ) • (f' t0 + f' t1)) - f t1‖ ≤ B / 2 * (t1 - t0) ^ 2 := by
  have h := mean f f' ((1 / 2 : ℝ) • (f' t0 + f' t1)) (B / 2 * (t1 - t0)) t0 t1 ht hf (fun t htt => by
    have e : f' t - (1 / 2 : ℝ) • (f' t0 + f' t1) = (1 / 2 : ℝ) • ((f' t - f' t0) + (f' t - f' t1)) := by module
    rw [e, norm_smul, Real.norm_of_nonneg (by norm_num)]
    have b1 := hb t htt t0 ⟨le_refl _, ht⟩
    have b2 := hb t htt t1 ⟨ht, le_refl _⟩
    rw [abs_of_nonneg (by linarith [htt.1])] at b1
    rw [abs_of_nonpos (by linarith [htt.2])] at b2
    have := norm_add_le (f' t - f' t0) (f' t - f' t1)
    linarith)
  have e : f t0 + (t1 - t0) • ((1 / 2 : ℝ) • (f' t0 + f' t1)) - f t1 = -(f t1 - f t0 - (t1 - t0) • ((1 / 2 : ℝ) • (f' t0 + f' t1))) := by abel
  rw [e, norm_neg, sq, ← mul_assoc]
  exact h

end Vio.Conv
