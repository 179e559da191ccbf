/-
Pose estimation: C57-C63.
-/
import Verif.Model.Pnp
import Verif.Lemmas.Deriv
import Verif.PReal
import Mathlib.Tactic.NormNum
import Mathlib.Tactic.FinCases
import Mathlib.Analysis.SpecialFunctions.Exponential
import Mathlib.Analysis.SpecialFunctions.Log.Deriv

set_option linter.unusedSectionVars false

namespace Vio.Pnp

section generic
variable {K : Type} [Add K] [Sub K] [Mul K] [Neg K] [Div K] [Zero K] [One K] [ScalarFn K]

/-! ### C57 -/

/-- `k` Gauss-Newton steps: each applies the solver's answer, which is not NaN, to the normal equation at the current pose. -/
inductive Steps (ext : Ext K) (kernel : Bool) (pts : List (Vec3 K × Vec2 K)) : Nat → Pose K → Pose K → Prop
  | zero (s : Pose K) : Steps ext kernel pts 0 s s
  | succ {k : Nat} {s t : Pose K} (h : ScalarFn.isNaN (ext.ldlt6 (normalEq kernel pts s).1 (normalEq kernel pts s).2).norm = false)
      (r : Steps ext kernel pts k (apply s (ext.ldlt6 (normalEq kernel pts s).1 (normalEq kernel pts s).2)) t) : Steps ext kernel pts (k + 1) s t

theorem loop_steps (ext : Ext K) (prm : PnpParam K) (kernel : Bool) (pts : List (Vec3 K × Vec2 K)) (n : Nat) (s : Pose K) :
    ∃ k ≤ n, Steps ext kernel pts k s (loop ext prm kernel pts n s).2 ∧
      ((loop ext prm kernel pts n s).1 = false → k < n ∧
        ScalarFn.isNaN (ext.ldlt6 (normalEq kernel pts (loop ext prm kernel pts n s).2).1 (normalEq kernel pts (loop ext prm kernel pts n s).2).2).norm = true) ∧
      ((loop ext prm kernel pts n s).1 = true → 0 < n → 0 < k) := by
  induction n generalizing s with
  | zero => exact ⟨0, le_rfl, .zero s, by simp [loop], by simp⟩
  | succ n ih =>
    simp only [loop]
    by_cases hN : ScalarFn.isNaN (ext.ldlt6 (normalEq kernel pts s).1 (normalEq kernel pts s).2).norm = true
    · simp only [hN, ↓reduceIte]
      exact ⟨0, Nat.zero_le _, .zero s, fun _ => ⟨Nat.succ_pos n, trivial⟩, by simp⟩
    · simp only [hN, Bool.false_eq_true, ↓reduceIte]
      have hN' : ScalarFn.isNaN (ext.ldlt6 (normalEq kernel pts s).1 (normalEq kernel pts s).2).norm = false := by simpa using hN
      split
      · exact ⟨1, by omega, .succ hN' (.zero _), by simp, fun _ _ => Nat.one_pos⟩
      · obtain ⟨k, hk, h1, h2, _⟩ := ih (apply s (ext.ldlt6 (normalEq kernel pts s).1 (normalEq kernel pts s).2))
        exact ⟨k + 1, by omega, .succ hN' h1, fun h => ⟨by have := (h2 h).1; omega, (h2 h).2⟩, fun _ _ => Nat.succ_pos k⟩

/-- C57: lists of different length or empty lists: false, and the pose is not touched. -/
theorem C57_rejected (ext : Ext K) (prm : PnpParam K) (kernel : Bool) (x3 : List (Vec3 K)) (x2 : List (Vec2 K)) (s : Pose K)
    (h : x3.length ≠ x2.length ∨ x3 = []) : estimate ext prm kernel x3 x2 s = (false, s) := by
  simp [estimate, h]

/-- C57: otherwise the result is reached in at most the configured number of steps, and at least one if success is reported and the number is positive; false is returned only when the
solver's next answer is NaN. For every scalar type and every linear solver. -/
theorem C57_accepted (ext : Ext K) (prm : PnpParam K) (kernel : Bool) (x3 : List (Vec3 K)) (x2 : List (Vec2 K)) (s : Pose K)
    (h : x3.length = x2.length) (h' : x3 ≠ []) : ∃ k ≤ prm.maxIter, Steps ext kernel (x3.zip x2) k s (estimate ext prm kernel x3 x2 s).2 ∧
      ((estimate ext prm kernel x3 x2 s).1 = false →
        let s' := (estimate ext prm kernel x3 x2 s).2
        ScalarFn.isNaN (ext.ldlt6 (normalEq kernel (x3.zip x2) s').1 (normalEq kernel (x3.zip x2) s').2).norm = true) ∧
      ((estimate ext prm kernel x3 x2 s).1 = true → 0 < prm.maxIter → 0 < k) := by
  have he : estimate ext prm kernel x3 x2 s = loop ext prm kernel (x3.zip x2) prm.maxIter s := by simp [estimate, h, h']
  rw [he]
  obtain ⟨k, hk, h1, h2, h3⟩ := loop_steps ext prm kernel (x3.zip x2) prm.maxIter s
  exact ⟨k, hk, h1, fun h => (h2 h).2, h3⟩

end generic

/-- C57: in exact arithmetic false means exactly that the lists were rejected. -/
theorem C57_false_iff (ext : Ext ℝ) (prm : PnpParam ℝ) (kernel : Bool) (x3 : List (Vec3 ℝ)) (x2 : List (Vec2 ℝ)) (s : Pose ℝ) :
    (estimate ext prm kernel x3 x2 s).1 = false ↔ x3.length ≠ x2.length ∨ x3 = [] := by
  constructor
  · intro h
    by_contra hc
    push Not at hc
    obtain ⟨k, -, -, h2, -⟩ := C57_accepted ext prm kernel x3 x2 s hc.1 hc.2
    simpa using h2 h
  · intro h
    rw [C57_rejected ext prm kernel x3 x2 s h]

theorem steps_unit (ext : Ext ℝ) (kernel : Bool) (pts : List (Vec3 ℝ × Vec2 ℝ)) (k : Nat) (s t : Pose ℝ) (h : Steps ext kernel pts k s t)
    (hs : 0 < s.q.sqNorm) : (0 < k → t.q.sqNorm = 1) ∧ 0 < t.q.sqNorm := by
  induction h with
  | zero s => exact ⟨fun h => absurd h (lt_irrefl 0), hs⟩
  | @succ k s t hn r ih =>
    have hu : (apply s (ext.ldlt6 (normalEq kernel pts s).1 (normalEq kernel pts s).2)).q.sqNorm = 1 := by
      apply Quat.sqNorm_normalized
      rw [Quat.sqNorm_mul]
      exact mul_pos hs (lt_of_lt_of_le one_pos (Quat.sqNorm_deltaQ_pos _))
    obtain ⟨h1, h2⟩ := ih (by rw [hu]; exact one_pos)
    refine ⟨fun _ => ?_, h2⟩
    cases r with
    | zero => exact hu
    | succ _ _ => exact h1 (Nat.succ_pos _)

/-- C57 (for a start quaternion that is not zero): after at least one iteration the quaternion has norm one, in exact arithmetic.  Missing: the zero quaternion, see `C57_zero_quaternion`. -/
theorem C57_unit_partial (ext : Ext ℝ) (prm : PnpParam ℝ) (kernel : Bool) (x3 : List (Vec3 ℝ)) (x2 : List (Vec2 ℝ)) (s : Pose ℝ)
    (h : x3.length = x2.length) (h' : x3 ≠ []) (hi : 0 < prm.maxIter) (hq : s.q ≠ ⟨0, 0, 0, 0⟩) : (estimate ext prm kernel x3 x2 s).2.q.sqNorm = 1 := by
  obtain ⟨k, -, h1, -, h3⟩ := C57_accepted ext prm kernel x3 x2 s h h'
  have ht : (estimate ext prm kernel x3 x2 s).1 = true := by
    by_contra hc
    have := (C57_false_iff ext prm kernel x3 x2 s).1 (by simpa using hc)
    tauto
  have hpos : 0 < s.q.sqNorm := by
    rcases lt_or_eq_of_le s.q.sqNorm_nonneg with h | h
    · exact h
    · exfalso
      apply hq
      simp only [Quat.sqNorm] at h
      have hw := mul_self_nonneg s.q.w
      have hx := mul_self_nonneg s.q.x
      have hy := mul_self_nonneg s.q.y
      have hz := mul_self_nonneg s.q.z
      apply Quat.ext
      · exact mul_self_eq_zero.1 (by linarith)
      · exact mul_self_eq_zero.1 (by linarith)
      · exact mul_self_eq_zero.1 (by linarith)
      · exact mul_self_eq_zero.1 (by linarith)
  exact (steps_unit ext kernel _ k s _ h1 hpos).1 (h3 ht hi)

/-- C57 is false for the zero quaternion: it stays zero whatever the data and the solver. -/
theorem C57_zero_quaternion (ext : Ext ℝ) (prm : PnpParam ℝ) (kernel : Bool) (x3 : List (Vec3 ℝ)) (x2 : List (Vec2 ℝ)) (p : Vec3 ℝ)
    (h : x3.length = x2.length) (h' : x3 ≠ []) : (estimate ext prm kernel x3 x2 ⟨⟨0, 0, 0, 0⟩, p⟩).2.q = ⟨0, 0, 0, 0⟩ := by
  obtain ⟨k, -, h1, -, -⟩ := C57_accepted ext prm kernel x3 x2 ⟨⟨0, 0, 0, 0⟩, p⟩ h h'
  have key : ∀ k s t, Steps ext kernel (x3.zip x2) k s t → s.q = ⟨0, 0, 0, 0⟩ → t.q = ⟨0, 0, 0, 0⟩ := by
    intro k s t h
    induction h with
    | zero s => exact id
    | succ hn r ih =>
      intro hs
      apply ih
      have : ∀ d : Quat ℝ, (Quat.mul ⟨0, 0, 0, 0⟩ d).normalized = ⟨0, 0, 0, 0⟩ := by
        intro d
        have e : (Quat.mul ⟨0, 0, 0, 0⟩ d) = (⟨0, 0, 0, 0⟩ : Quat ℝ) := by simp [Quat.mul]
        rw [e]
        simp [Quat.normalized, Quat.sqNorm]
      simp only [apply, hs, this]
  exact key k _ _ h1 rfl

/-! ### C58 -/

/-- The observation of point `x` is exact for the pose. -/
def Exact (s : Pose ℝ) (x : Vec3 ℝ × Vec2 ℝ) : Prop :=
  let c := s.q.inverse.rotate (x.1 - s.p)
  x.2.x = c.x / c.z ∧ x.2.y = c.y / c.z

theorem normalEq_exact (kernel : Bool) (pts : List (Vec3 ℝ × Vec2 ℝ)) (s : Pose ℝ) (h : ∀ x ∈ pts, Exact s x) : (normalEq kernel pts s).2 = ⟨0, 0⟩ := by
  have key : ∀ (l : List (Vec3 ℝ × Vec2 ℝ)) (hb : Mat6 ℝ × Vec6 ℝ), (∀ x ∈ l, Exact s x) → hb.2 = ⟨0, 0⟩ →
      (l.foldl (fun hb x => addPoint kernel s hb x.1 x.2) hb).2 = ⟨0, 0⟩ := by
    intro l
    induction l with
    | nil => intro hb _ h; exact h
    | cons x l ih =>
      intro hb hx hh
      rw [List.foldl_cons]
      apply ih _ (fun y hy => hx y (List.mem_cons_of_mem _ hy))
      obtain ⟨hx1, hx2⟩ := hx x List.mem_cons_self
      have hr : res s x.1 x.2 = ⟨0, 0⟩ := by
        simp only [res, toCam]
        ext
        · simp [hx1]
        · simp [hx2]
      have hv : ∀ j : Mat23 ℝ, j.tmulVec ⟨0, 0⟩ = 0 := by
        intro j
        apply Vec3.ext <;> simp [Mat23.tmulVec]
      have h00 : (0 : Vec3 ℝ) + 0 = 0 := by apply Vec3.ext <;> simp
      unfold addPoint
      split
      · exact hh
      · dsimp only
        simp only [hr, hv, hh]
        split
        · apply Vec6.ext <;> apply Vec3.ext <;> simp
        · simp [h00]
  exact key pts _ h rfl

/-- C58: exact observations for a unit-quaternion start pose: the pose is returned unchanged, with success, in exact arithmetic, by both solvers, for every linear solver that maps a zero
right-hand side to zero. -/
theorem C58_fixed_point (ext : Ext ℝ) (hext : ∀ H, ext.ldlt6 H ⟨0, 0⟩ = ⟨0, 0⟩) (prm : PnpParam ℝ) (kernel : Bool) (x3 : List (Vec3 ℝ)) (x2 : List (Vec2 ℝ)) (s : Pose ℝ)
    (h : x3.length = x2.length) (h' : x3 ≠ []) (hq : s.q.sqNorm = 1) (hex : ∀ x ∈ x3.zip x2, Exact s x) : estimate ext prm kernel x3 x2 s = (true, s) := by
  have ha : apply s ⟨0, 0⟩ = s := by
    have e : Utility.deltaQ (0 : Vec3 ℝ) = Quat.one := by
      simp [Utility.deltaQ, Quat.one, Vec3.sdiv]
    simp only [apply, e, Quat.mul_one', Quat.normalized_of_unit _ hq]
    have : s.p + 0 = s.p := by apply Vec3.ext <;> simp
    rw [this]
  have hl : ∀ n, loop ext prm kernel (x3.zip x2) n s = (true, s) := by
    intro n
    induction n with
    | zero => rfl
    | succ n ih =>
      simp only [loop, normalEq_exact kernel _ s hex, hext, ha, ScalarFn.isNaN_real, Bool.false_eq_true, ↓reduceIte, ih, ite_self]
  simp [estimate, h, h', hl]

/-- The hypotheses of C58 can be met. -/
example : ∃ (ext : Ext ℝ) (x3 : List (Vec3 ℝ)) (x2 : List (Vec2 ℝ)) (s : Pose ℝ), (∀ H, ext.ldlt6 H ⟨0, 0⟩ = ⟨0, 0⟩) ∧ x3.length = x2.length ∧ x3 ≠ [] ∧ s.q.sqNorm = 1 ∧
    ∀ x ∈ x3.zip x2, Exact s x :=
  ⟨⟨fun _ _ => 0, fun _ b => b, fun _ b => b, fun _ _ _ => 0, fun _ _ => 0, fun _ _ _ => 0⟩, [⟨1, 2, 4⟩], [⟨1/4, 1/2⟩], ⟨.one, 0⟩, fun _ => rfl, rfl, by simp,
    by simp [Quat.one, Quat.sqNorm], by
      have : (Quat.one : Quat ℝ).inverse = Quat.one := by
        rw [Quat.inverse_of_unit _ (by simp [Quat.one, Quat.sqNorm])]; simp [Quat.one]
      simp [Exact, this, Quat.rotate_one]
      norm_num⟩

/-! ### C59 -/

/-- The pose after a correction of size `e` in direction `d`, as the solvers apply it. -/
noncomputable def along (s : Pose ℝ) (d : Vec6 ℝ) (e : ℝ) : Pose ℝ := apply s ⟨.smul e d.p, .smul e d.r⟩

/-- C59: along every correction direction the derivative of the residual is the Jacobian times the direction. -/
theorem C59_jacobian (s : Pose ℝ) (x : Vec3 ℝ) (n : Vec2 ℝ) (d : Vec6 ℝ) (hq : s.q.sqNorm = 1) (hz : (s.q.inverse.rotate (x - s.p)).z ≠ 0) :
    HasDeriv2 (fun e => res (along s d e) x n) ((jacP s x).mulVec d.p + (jacR s x).mulVec d.r) 0 := by
  have hcam : ∀ e, toCam (along s d e) x = (Utility.deltaQ (.smul e d.r)).normalized.inverse.rotate (s.q.inverse.rotate (x - (s.p + .smul e d.p))) := by
    intro e
    simp only [toCam, along, apply]
    have hd : (Utility.deltaQ (Vec3.smul e d.r)).normalized.sqNorm = 1 :=
      Quat.sqNorm_normalized _ (lt_of_lt_of_le one_pos (Quat.sqNorm_deltaQ_pos _))
    rw [Quat.mul_normalized_of_unit _ _ hq, Quat.inverse_mul _ _ hq hd,
      Quat.rotate_mul _ _ (Quat.sqNorm_inverse_of_unit _ hd) (Quat.sqNorm_inverse_of_unit _ hq)]
  have h1 : HasDeriv3 (fun e => x - (s.p + .smul e d.p)) (0 - (0 + d.p)) 0 :=
    (HasDeriv3.const x 0).sub ((HasDeriv3.const s.p 0).add (HasDeriv3.line d.p 0))
  have h2 := (h1.rotate s.q.inverse).correction d.r
  have e0 : s.q.inverse.rotate (x - (s.p + Vec3.smul 0 d.p)) = s.q.inverse.rotate (x - s.p) := by
    congr 1
    apply Vec3.ext <;> simp
  have e1 : (Utility.deltaQ (Vec3.smul 0 d.r)).normalized.inverse.rotate (s.q.inverse.rotate (x - s.p)) = s.q.inverse.rotate (x - s.p) := by
    rw [Quat.deltaQ_inverse_rotate]
    apply Vec3.ext <;> simp [Vec3.sqNorm, Vec3.dot, Vec3.smul, Vec3.sdiv]
  have h3 := (h2.proj_at (s.q.inverse.rotate (x - s.p)) (by rw [e0, e1]) hz).sub_const n
  simp only [res, hcam]
  refine HasDeriv2.congr h3 ?_
  rw [e0]
  have e2 : s.q.inverse.rotate (0 - (0 + d.p)) = -(s.q.inverse.toMat.mulVec d.p) := by
    rw [← Quat.toMat_mulVec]
    apply Vec3.ext <;> simp [Mat3.mulVec, Vec3.dot] <;> ring
  rw [e2]
  simp only [jacP, jacR, toCam]
  generalize s.q.inverse.rotate (x - s.p) = c at hz
  generalize s.q.inverse.toMat = m
  ext <;>
  simp only [jac23, Mat23.mulMat, Mat23.mulVec, Mat3.mulVec, Mat3.transpose, Vec3.dot, Vec2.add_x, Vec2.add_y, Vec3.add_x, Vec3.add_y, Vec3.add_z, Vec3.neg_x, Vec3.neg_y, Vec3.neg_z,
    Mat3.neg_r0, Mat3.neg_r1, Mat3.neg_r2, Utility.skew, Vec3.cross_x, Vec3.cross_y, Vec3.cross_z, ScalarFn.lit_real, Rat.cast_one] <;>
  field_simp <;> ring

/-! ### C63 -/

/-- C63: the Cauchy weight is positive, at most one, and one up to the threshold, for every positive parameter and every residual. -/
theorem C63_cauchy (p x : ℝ) (hp : 0 < p) : 0 < cauchy p x ∧ cauchy p x ≤ 1 ∧ (x ≤ p → cauchy p x = 1) := by
  simp only [cauchy, ScalarFn.lt_real, ScalarFn.lit_real, ScalarFn.log_real, Rat.cast_one, decide_eq_true_eq]
  by_cases h : p < x
  · have hx : 0 < x := hp.trans h
    have hy : 0 < 1 / p := by positivity
    have e : 1 / (p * p) + 1 = 1 + (1 / p) ^ 2 := by field_simp; ring
    have hlog : Real.log (1 + (1 / p) ^ 2) ≤ 1 / p := by
      rw [Real.log_le_iff_le_exp (by positivity)]
      have h3 := Real.sum_le_exp_of_nonneg hy.le 4
      simp only [Finset.sum_range_succ, Finset.sum_range_zero, Nat.factorial] at h3
      push_cast at h3
      refine le_trans ?_ h3
      generalize 1 / p = y at hy
      nlinarith [sq_nonneg (y - 3 / 2), mul_pos hy hy, mul_pos (mul_pos hy hy) hy, mul_nonneg hy.le (sq_nonneg (y - 3/2))]
    have hlogpos : 0 < Real.log (1 + (1 / p) ^ 2) := Real.log_pos (by have := sq_pos_of_pos hy; linarith)
    simp only [h, ↓reduceIte, e]
    refine ⟨by positivity, ?_, fun h' => absurd h' (not_le.2 h)⟩
    rw [div_le_one hx]
    have : p * p * Real.log (1 + (1 / p) ^ 2) ≤ p * p * (1 / p) := mul_le_mul_of_nonneg_left hlog (by positivity)
    have e2 : p * p * (1 / p) = p := by field_simp
    linarith
  · simp [h]

/-- C63 for the Huber weight (parameters up to four): positive, at most one, and one up to the threshold.  Missing: positivity for larger parameters is false, see `C63_huber_negative`. -/
theorem C63_huber_partial (p x : ℝ) (hp : 0 < p) : huber p x ≤ 1 ∧ (x ≤ p → huber p x = 1) ∧ (p ≤ 4 → 0 < huber p x) := by
  simp only [huber, ScalarFn.lt_real, ScalarFn.lit_real, ScalarFn.sqrt_real, decide_eq_true_eq]
  push_cast
  by_cases h : p < x
  · have hx : 0 < x := hp.trans h
    have hs := Real.sq_sqrt hx.le
    have hs0 : 0 < √x := Real.sqrt_pos.2 hx
    simp only [h, ↓reduceIte]
    refine ⟨?_, fun h' => absurd h' (not_le.2 h), fun h4 => ?_⟩
    · rw [div_le_one hx]
      nlinarith [sq_nonneg (√x - p)]
    · apply div_pos _ hx
      have : p < 2 * √x := by
        by_contra hc
        rw [not_lt] at hc
        nlinarith
      nlinarith
  · simp [h]

/-- C63 is false for the Huber weight: it is negative for parameter 8 and residual 9. -/
theorem C63_huber_negative : huber (8 : ℝ) 9 < 0 := by
  have : √(9 : ℝ) = 3 := by rw [show (9 : ℝ) = 3 ^ 2 by norm_num]; exact Real.sqrt_sq (by norm_num)
  simp only [huber, ScalarFn.lt_real, ScalarFn.lit_real, ScalarFn.sqrt_real, this]
  norm_num

/-! ### C60 -/

theorem mem_setInsert (i j : Nat) (l : List Nat) : j ∈ setInsert i l ↔ j = i ∨ j ∈ l := by
  induction l with
  | nil => simp [setInsert]
  | cons a l ih =>
    simp only [setInsert]
    split
    · simp
    · split
      · rename_i h; subst h; simp
      · simp only [List.mem_cons, ih]; tauto

theorem sorted_setInsert (i : Nat) (l : List Nat) (h : l.Pairwise (· < ·)) : (setInsert i l).Pairwise (· < ·) := by
  induction l with
  | nil => simp [setInsert]
  | cons a l ih =>
    rw [List.pairwise_cons] at h
    simp only [setInsert]
    split
    · rename_i hi
      refine List.pairwise_cons.2 ⟨?_, List.pairwise_cons.2 h⟩
      intro b hb
      rcases List.mem_cons.1 hb with rfl | hb
      · exact hi
      · exact hi.trans (h.1 b hb)
    · split
      · exact List.pairwise_cons.2 h
      · rename_i h1 h2
        refine List.pairwise_cons.2 ⟨?_, ih h.2⟩
        intro b hb
        rcases (mem_setInsert i b l).1 hb with rfl | hb
        · omega
        · exact h.1 b hb

theorem setInsert_of_mem (i : Nat) (l : List Nat) (h : l.Pairwise (· < ·)) (hi : i ∈ l) : setInsert i l = l := by
  induction l with
  | nil => simp at hi
  | cons a l ih =>
    rw [List.pairwise_cons] at h
    rcases List.mem_cons.1 hi with rfl | hi
    · simp [setInsert]
    · have := h.1 i hi
      simp only [setInsert]
      rw [if_neg (by omega), if_neg (by omega), ih h.2 hi]

theorem length_setInsert (i : Nat) (l : List Nat) (hi : i ∉ l) : (setInsert i l).length = l.length + 1 := by
  induction l with
  | nil => rfl
  | cons a l ih =>
    simp only [List.mem_cons, not_or] at hi
    simp only [setInsert]
    split
    · simp
    · rw [if_neg hi.1]
      simp [ih hi.2]

/-- The random source yields every index again and again. -/
def Fair (rnd : Nat → Nat) (n : Nat) : Prop := ∀ pos i, i < n → ∃ j, pos ≤ j ∧ rnd j % n = i

theorem draw_terminates (rnd : Nat → Nat) (n : Nat) (hn : 3 ≤ n) (hf : Fair rnd n) (m : Nat) :
    ∀ (pos : Nat) (set : List Nat), set.Pairwise (· < ·) → (∀ i ∈ set, i < n) → set.length + m = 3 →
      ∃ f0 set' pos', (∀ fuel ≥ f0, draw rnd n fuel pos set = some (set', pos')) ∧ set'.Pairwise (· < ·) ∧ (∀ i ∈ set', i < n) ∧ set'.length = 3 := by
  induction m with
  | zero =>
    intro pos set hs hb hl
    refine ⟨1, set, pos, ?_, hs, hb, hl⟩
    intro fuel hf
    obtain ⟨f, rfl⟩ : ∃ f, fuel = f + 1 := ⟨fuel - 1, by omega⟩
    simp [draw, show ¬ set.length < 3 by omega]
  | succ m ih =>
    intro pos set hs hb hl
    obtain ⟨i, hi, hni⟩ : ∃ i, i < n ∧ i ∉ set := by
      by_contra hc
      push Not at hc
      have h1 : (List.range n).Subperm set := (List.nodup_range).subperm (fun i h => hc i (List.mem_range.1 h))
      have := h1.length_le
      rw [List.length_range] at this
      omega
    obtain ⟨j, hj, hji⟩ := hf pos i hi
    obtain ⟨k, rfl⟩ : ∃ k, j = pos + k := ⟨j - pos, by omega⟩
    clear hj
    induction k generalizing pos with
    | zero =>
      have hni' : rnd pos % n ∉ set := by rw [show rnd pos % n = i from hji]; exact hni
      obtain ⟨f0, set', pos', h1, h2⟩ := ih (pos + 1) (setInsert (rnd pos % n) set) (sorted_setInsert _ _ hs)
        (fun a ha => by
          rcases (mem_setInsert _ _ _).1 ha with rfl | ha
          · exact Nat.mod_lt _ (by omega)
          · exact hb a ha) (by rw [length_setInsert _ _ hni']; omega)
      refine ⟨f0 + 1, set', pos', ?_, h2⟩
      intro fuel hf
      obtain ⟨f, rfl⟩ : ∃ f, fuel = f + 1 := ⟨fuel - 1, by omega⟩
      simp only [draw, show set.length < 3 by omega, ↓reduceIte]
      exact h1 f (by omega)
    | succ k ihk =>
      have step : ∃ f0 set' pos', (∀ fuel ≥ f0, draw rnd n fuel (pos + 1) (setInsert (rnd pos % n) set) = some (set', pos')) ∧
          set'.Pairwise (· < ·) ∧ (∀ i ∈ set', i < n) ∧ set'.length = 3 := by
        by_cases hm : rnd pos % n ∈ set
        · rw [setInsert_of_mem _ _ hs hm]
          exact ihk (pos + 1) (by rw [show pos + 1 + k = pos + (k + 1) by omega]; exact hji)
        · exact ih (pos + 1) (setInsert (rnd pos % n) set) (sorted_setInsert _ _ hs)
            (fun a ha => by
              rcases (mem_setInsert _ _ _).1 ha with rfl | ha
              · exact Nat.mod_lt _ (by omega)
              · exact hb a ha) (by rw [length_setInsert _ _ hm]; omega)
      obtain ⟨f0, set', pos', h1, h2⟩ := step
      refine ⟨f0 + 1, set', pos', ?_, h2⟩
      intro fuel hf
      obtain ⟨f, rfl⟩ : ∃ f, fuel = f + 1 := ⟨fuel - 1, by omega⟩
      simp only [draw, show set.length < 3 by omega, ↓reduceIte]
      exact h1 f (by omega)

theorem pick_ok {α : Type} (l : List α) (is : List Nat) (h : ∀ i ∈ is, i < l.length) : ∃ r, pick l is = .ok r ∧ r.length = is.length := by
  induction is with
  | nil => exact ⟨[], rfl, rfl⟩
  | cons i is ih =>
    obtain ⟨r, hr, hl⟩ := ih (fun j hj => h j (List.mem_cons_of_mem _ hj))
    have hi := h i List.mem_cons_self
    refine ⟨l[i] :: r, ?_, by simp [hl]⟩
    simp only [pick, idx, List.getElem?_eq_getElem hi, Res.bind_ok, hr]

section generic
variable {K : Type} [Add K] [Sub K] [Mul K] [Neg K] [Div K] [Zero K] [One K] [ScalarFn K]

theorem ransacLoop_terminates (ext : Ext K) (prm : PnpParam K) (rnd : Nat → Nat) (x3 : List (Vec3 K)) (x2 : List (Vec2 K))
    (hl : x3.length = x2.length) (hn : 3 ≤ x3.length) (hf : Fair rnd x3.length) (iter : Nat) :
    ∀ (pos : Nat) (best : Pose K) (bs : Nat) (r : Ransac K), ∃ f0 out, ∀ fuel ≥ f0, ransacLoop ext prm rnd fuel x3 x2 iter pos best bs r = some (.ok out) := by
  induction iter with
  | zero => intro pos best bs r; exact ⟨0, r, fun _ _ => rfl⟩
  | succ iter ih =>
    intro pos best bs r
    obtain ⟨f0, set, pos', hd, -, hb, -⟩ := draw_terminates rnd x3.length hn hf 3 pos [] List.Pairwise.nil (by simp) rfl
    obtain ⟨s3, h3, -⟩ := pick_ok x3 set hb
    obtain ⟨s2, h2, -⟩ := pick_ok x2 set (fun i hi => hl ▸ hb i hi)
    by_cases ht : ScalarFn.lt prm.inlierRate (lit ((score prm (x3.zip x2) (estimate ext prm false s3 s2 best).2 : Nat) : ℚ) / lit ((x3.length : Nat) : ℚ) : K) = true
    · refine ⟨f0, ⟨(estimate ext prm false s3 s2 best).2, ((estimate ext prm false s3 s2 best).2, score prm (x3.zip x2) (estimate ext prm false s3 s2 best).2) :: r.tried⟩,
        fun fuel hfu => ?_⟩
      simp only [ransacLoop, hd fuel hfu, h3, h2, ht, ↓reduceIte]
    · obtain ⟨f1, out, h1⟩ := ih pos' (if bs < score prm (x3.zip x2) (estimate ext prm false s3 s2 best).2 then (estimate ext prm false s3 s2 best).2 else best)
        (if bs < score prm (x3.zip x2) (estimate ext prm false s3 s2 best).2 then score prm (x3.zip x2) (estimate ext prm false s3 s2 best).2 else bs)
        ⟨(estimate ext prm false s3 s2 best).2, ((estimate ext prm false s3 s2 best).2, score prm (x3.zip x2) (estimate ext prm false s3 s2 best).2) :: r.tried⟩
      refine ⟨max f0 f1, out, fun fuel hfu => ?_⟩
      simp only [ransacLoop, hd fuel (le_trans (le_max_left _ _) hfu), h3, h2, ht, Bool.false_eq_true, ↓reduceIte]
      exact h1 fuel (le_trans (le_max_right _ _) hfu)

/-- C60 (for at least three points): with a fair random source every call returns, without undefined behaviour, for every scalar type and linear solver.
Missing: one or two points, for which the function never returns, see `C60_diverges`. -/
theorem C60_terminates_partial (ext : Ext K) (prm : PnpParam K) (rnd : Nat → Nat) (x3 : List (Vec3 K)) (x2 : List (Vec2 K)) (s : Pose K)
    (hl : x3.length = x2.length) (hn : 3 ≤ x3.length) (hf : Fair rnd x3.length) :
    ∃ f0 r, ∀ fuel ≥ f0, ransac ext prm rnd fuel x3 x2 s = some (.ok (true, r)) := by
  obtain ⟨f0, out, h⟩ := ransacLoop_terminates ext prm rnd x3 x2 hl hn hf prm.ransacIter 0 s 0 ⟨s, []⟩
  refine ⟨f0, out, fun fuel hfu => ?_⟩
  have h3 : x3 ≠ [] := by rintro rfl; simp at hn
  simp [ransac, hl, h3, h fuel hfu]

theorem draw_diverges (rnd : Nat → Nat) (n : Nat) (h0 : 0 < n) (hn : n < 3) (fuel : Nat) :
    ∀ (pos : Nat) (set : List Nat), set.Pairwise (· < ·) → (∀ i ∈ set, i < n) → draw rnd n fuel pos set = none := by
  induction fuel with
  | zero => intros; rfl
  | succ fuel ih =>
    intro pos set hs hb
    have hlen : set.length < 3 := by
      have hnd : set.Nodup := hs.imp (fun h => Nat.ne_of_lt h)
      have h1 : set.Subperm (List.range n) := hnd.subperm (fun i h => List.mem_range.2 (hb i h))
      have := h1.length_le
      rw [List.length_range] at this
      omega
    simp only [draw, hlen, ↓reduceIte]
    refine ih _ _ (sorted_setInsert _ _ hs) ?_
    intro a ha
    rcases (mem_setInsert _ _ _).1 ha with rfl | ha
    · exact Nat.mod_lt _ h0
    · exact hb a ha

/-- C60 is false: with one or two accepted points the call never returns, whatever the random source. -/
theorem C60_diverges (ext : Ext K) (prm : PnpParam K) (rnd : Nat → Nat) (x3 : List (Vec3 K)) (x2 : List (Vec2 K)) (s : Pose K)
    (hl : x3.length = x2.length) (h0 : x3 ≠ []) (hn : x3.length < 3) (hi : 0 < prm.ransacIter) : ∀ fuel, ransac ext prm rnd fuel x3 x2 s = none := by
  intro fuel
  obtain ⟨k, hk⟩ : ∃ k, prm.ransacIter = k + 1 := ⟨prm.ransacIter - 1, by omega⟩
  have hd := draw_diverges rnd x3.length (List.length_pos_of_ne_nil h0) hn fuel 0 [] List.Pairwise.nil (by simp)
  have hl' : ransacLoop ext prm rnd fuel x3 x2 prm.ransacIter 0 s 0 ⟨s, []⟩ = none := by
    rw [hk]
    simp only [ransacLoop, hd]
  unfold ransac
  rw [hl']
  simp [hl, h0]

/-! ### C61 -/

/-- What is true of the pose handed out: it is the model tried last (or the start pose if none was tried). -/
theorem ransacLoop_last (ext : Ext K) (prm : PnpParam K) (rnd : Nat → Nat) (fuel : Nat) (x3 : List (Vec3 K)) (x2 : List (Vec2 K)) (s0 : Pose K) (iter : Nat) :
    ∀ (pos : Nat) (best : Pose K) (bs : Nat) (r out : Ransac K), ransacLoop ext prm rnd fuel x3 x2 iter pos best bs r = some (.ok out) →
      r.pose = (r.tried.head?.map Prod.fst).getD s0 → out.pose = (out.tried.head?.map Prod.fst).getD s0 := by
  induction iter with
  | zero => intro pos best bs r out h hr; simp only [ransacLoop, Option.some.injEq, Res.ok.injEq] at h; subst h; exact hr
  | succ iter ih =>
    intro pos best bs r out h hr
    simp only [ransacLoop] at h
    split at h
    · simp at h
    · split at h
      · split at h
        · simp only [Option.some.injEq, Res.ok.injEq] at h
          subst h
          rfl
        · exact ih _ _ _ _ _ h rfl
      · simp at h
      · simp at h

theorem C61_returns_newest (ext : Ext K) (prm : PnpParam K) (rnd : Nat → Nat) (fuel : Nat) (x3 : List (Vec3 K)) (x2 : List (Vec2 K)) (s : Pose K) (b : Bool) (out : Ransac K)
    (h : ransac ext prm rnd fuel x3 x2 s = some (.ok (b, out))) : out.pose = (out.tried.head?.map Prod.fst).getD s := by
  unfold ransac at h
  split at h
  · simp only [Option.some.injEq, Res.ok.injEq, Prod.mk.injEq] at h
    obtain ⟨-, rfl⟩ := h
    rfl
  · split at h
    · simp at h
    · simp at h
    · rename_i r hr
      simp only [Option.some.injEq, Res.ok.injEq, Prod.mk.injEq] at h
      obtain ⟨-, rfl⟩ := h
      exact ransacLoop_last ext prm rnd fuel x3 x2 s _ _ _ _ _ _ hr rfl

end generic

theorem ransacLoop_rates (ext : Ext ℝ) (prm : PnpParam ℝ) (rnd : Nat → Nat) (fuel : Nat) (x3 : List (Vec3 ℝ)) (x2 : List (Vec2 ℝ)) (iter : Nat) :
    ∀ (pos : Nat) (best : Pose ℝ) (bs : Nat) (r out : Ransac ℝ), ransacLoop ext prm rnd fuel x3 x2 iter pos best bs r = some (.ok out) →
      (∀ t ∈ r.tried, (t.2 : ℝ) / x3.length ≤ prm.inlierRate ∧ t.2 = score prm (x3.zip x2) t.1) →
      (∀ t ∈ out.tried.tail, (t.2 : ℝ) / x3.length ≤ prm.inlierRate) ∧ ∀ t ∈ out.tried, t.2 = score prm (x3.zip x2) t.1 := by
  induction iter with
  | zero =>
    intro pos best bs r out h hr
    simp only [ransacLoop, Option.some.injEq, Res.ok.injEq] at h
    subst h
    exact ⟨fun t ht => (hr t (List.mem_of_mem_tail ht)).1, fun t ht => (hr t ht).2⟩
  | succ iter ih =>
    intro pos best bs r out h hr
    simp only [ransacLoop] at h
    split at h
    · simp at h
    · split at h
      · split at h
        · simp only [Option.some.injEq, Res.ok.injEq] at h
          subst h
          refine ⟨fun t ht => (hr t ht).1, fun t ht => ?_⟩
          rcases List.mem_cons.1 ht with rfl | ht
          · rfl
          · exact (hr t ht).2
        · rename_i hlt
          refine ih _ _ _ _ _ h ?_
          intro t ht
          rcases List.mem_cons.1 ht with rfl | ht
          · refine ⟨?_, rfl⟩
            simpa using hlt
          · exact hr t ht
      · simp at h
      · simp at h

/-- C61 (for runs that end because the inlier rate was reached): the pose handed out has the highest score of all models tried.
Missing: runs that use up all iterations, where it can be worse, see `C61_worse_model_returned`. -/
theorem C61_early_stop_partial (ext : Ext ℝ) (prm : PnpParam ℝ) (rnd : Nat → Nat) (fuel : Nat) (x3 : List (Vec3 ℝ)) (x2 : List (Vec2 ℝ)) (s : Pose ℝ) (out : Ransac ℝ)
    (h : ransac ext prm rnd fuel x3 x2 s = some (.ok (true, out)))
    (hstop : prm.inlierRate < (score prm (x3.zip x2) out.pose : ℝ) / x3.length) : ∀ t ∈ out.tried, t.2 ≤ score prm (x3.zip x2) out.pose := by
  have hnew := C61_returns_newest ext prm rnd fuel x3 x2 s true out h
  unfold ransac at h
  split at h
  · simp at h
  · rename_i hne
    split at h
    · simp at h
    · simp at h
    · rename_i r hr
      simp only [Option.some.injEq, Res.ok.injEq, Prod.mk.injEq] at h
      obtain ⟨-, rfl⟩ := h
      obtain ⟨h1, h2⟩ := ransacLoop_rates ext prm rnd fuel x3 x2 _ _ _ _ _ _ hr (by simp)
      intro t ht
      obtain ⟨rp, rt⟩ := r
      cases rt with
      | nil => simp at ht
      | cons a l =>
        rcases List.mem_cons.1 ht with rfl | ht
        · rw [h2 t List.mem_cons_self]
          simp only [List.head?_cons, Option.map_some, Option.getD_some] at hnew
          rw [hnew]
        · have ha := h1 t ht
          have hpos : (0 : ℝ) < x3.length := by
            have : x3 ≠ [] := by tauto
            exact_mod_cast List.length_pos_of_ne_nil this
          have := lt_of_le_of_lt ha hstop
          rw [div_lt_div_iff_of_pos_right hpos] at this
          exact_mod_cast this.le

/-! The counterexample: four points observed from the origin, three observed from (1,0,0). -/

/-- The 3D points. -/
def wX3 : List (Vec3 ℚ) := [⟨0, 0, 1⟩, ⟨1, 0, 2⟩, ⟨0, 1, 2⟩, ⟨1, 1, 1⟩, ⟨0, 0, 2⟩, ⟨2, 0, 1⟩, ⟨0, 2, 1⟩]
/-- Their observations: the first four from pose (1, 0), the others from (1, (1,0,0)). -/
def wX2 : List (Vec2 ℚ) := [⟨0, 0⟩, ⟨1/2, 0⟩, ⟨0, 1/2⟩, ⟨1, 1⟩, ⟨-1/2, 0⟩, ⟨1, 0⟩, ⟨-1, 2⟩]
/-- A linear solver. -/
def wExt : Ext ℚ := ⟨fun _ _ => 0, fun _ b => b, fun _ b => if b = ⟨0, 0⟩ then ⟨0, 0⟩ else ⟨⟨1, 0, 0⟩, 0⟩, fun _ _ _ => 0, fun _ _ => 0, fun _ _ _ => 0⟩
/-- A random sequence: first the indices 0, 1, 2, then 4, 5, 6 again and again. -/
def wRnd : Nat → Nat := fun i => if i < 3 then i else 4 + i % 3

/-- Product of a 6x6 matrix and a vector. -/
def mulVec6 (h : Mat6 ℚ) (x : Vec6 ℚ) : Vec6 ℚ := ⟨h.pp.mulVec x.p + h.pr.mulVec x.r, h.rp.mulVec x.p + h.rr.mulVec x.r⟩

/-- The solver solves exactly the systems met in the example: samples 0,1,2 and 4,5,6 at the origin, and 4,5,6 at (1,0,0). -/
theorem w_solver : ∀ c ∈ [((wX3.zip wX2).take 3, (⟨.one, 0⟩ : Pose ℚ)), ((wX3.zip wX2).drop 4, ⟨.one, 0⟩), ((wX3.zip wX2).drop 4, ⟨.one, ⟨1, 0, 0⟩⟩)],
    mulVec6 (normalEq false c.1 c.2).1 (wExt.ldlt6 (normalEq false c.1 c.2).1 (normalEq false c.1 c.2).2) = (normalEq false c.1 c.2).2 := by
  decide +kernel

/-- C61 is false: with the default parameters and this random sequence the pose handed out explains three points, although a model explaining four was tried.
(Square roots are taken of 0 and 1 only.) -/
theorem C61_worse_model_returned : ∃ out, ransac wExt .default wRnd 10 wX3 wX2 ⟨.one, 0⟩ = some (.ok (true, out)) ∧
    score .default (wX3.zip wX2) out.pose = 3 ∧ ∃ t ∈ out.tried, t.2 = 4 ∧ t.2 = score .default (wX3.zip wX2) t.1 := by
  have h : (match ransac wExt .default wRnd 10 wX3 wX2 ⟨.one, 0⟩ with
    | some (.ok (true, out)) => decide (score .default (wX3.zip wX2) out.pose = 3) && out.tried.any (fun t => decide (t.2 = 4 ∧ t.2 = score .default (wX3.zip wX2) t.1))
    | _ => false) = true := by decide +kernel
  generalize ransac wExt .default wRnd 10 wX3 wX2 ⟨.one, 0⟩ = o at h
  match o, h with
  | some (.ok (true, out)), h =>
    simp only [Bool.and_eq_true, decide_eq_true_eq, List.any_eq_true] at h
    obtain ⟨h1, t, ht, h2, h3⟩ := h
    exact ⟨out, rfl, h1, t, ht, h2, h3⟩

/-! ### C62 -/

section generic
variable {K : Type} [Add K] [Sub K] [Mul K] [Neg K] [Div K] [Zero K] [One K] [ScalarFn K]

/-- The flags for every previous content of the vector: a flag is set if the squared error does not compare at or above the threshold and the flag was not already cleared. -/
theorem C62_flags (prm : PnpParam K) (pts : List (Vec3 K × Vec2 K)) (s : Pose K) (old : List Bool) :
    (flags prm pts s old).length = pts.length ∧ ∀ i (hi : i < pts.length),
      (flags prm pts s old)[i]? = some (!ScalarFn.le prm.inlierThres (res s (pts[i]).1 (pts[i]).2).sqNorm && (old[i]?).getD true) := by
  have hlen : (resizeTrue old pts.length).length = pts.length := by simp [resizeTrue]; omega
  refine ⟨by simp [flags, hlen], fun i hi => ?_⟩
  have hr : (resizeTrue old pts.length)[i]? = some ((old[i]?).getD true) := by
    simp only [resizeTrue]
    by_cases ho : i < old.length
    · rw [List.getElem?_append_left (by simp; omega)]
      simp [hi, ho]
    · rw [List.getElem?_append_right (by simp; omega)]
      simp only [List.length_take, List.getElem?_replicate]
      rw [if_pos (by omega), List.getElem?_eq_none (by omega)]
      rfl
  simp only [flags, List.getElem?_zipWith, hr, List.getElem?_eq_getElem hi]
  cases ScalarFn.le prm.inlierThres (res s (pts[i]).1 (pts[i]).2).sqNorm <;> simp

/-- The overload writes exactly these flags for the pose it returns. -/
theorem C62_call (ext : Ext K) (prm : PnpParam K) (rnd : Nat → Nat) (fuel : Nat) (x3 : List (Vec3 K)) (x2 : List (Vec2 K)) (s : Pose K) (old fl : List Bool) (r : Ransac K)
    (h : ransacFlags ext prm rnd fuel x3 x2 s old = some (.ok (true, r, fl))) :
    ransac ext prm rnd fuel x3 x2 s = some (.ok (true, r)) ∧ fl = flags prm (x3.zip x2) r.pose old := by
  unfold ransacFlags at h
  split at h
  · simp at h
  · simp at h
  · simp at h
  · rename_i r' hr
    simp only [Option.some.injEq, Res.ok.injEq, Prod.mk.injEq, true_and] at h
    obtain ⟨rfl, rfl⟩ := h
    exact ⟨hr, rfl⟩

end generic

/-- C62 (for a vector without cleared flags, and without NaN): flag `i` is set exactly when point `i` reprojects within the threshold under the returned pose.
Missing: cleared flags stay cleared (`C62_stale_flag`), NaN errors count as inliers (`C62_nan_inlier`). -/
theorem C62_exact_partial (prm : PnpParam ℝ) (pts : List (Vec3 ℝ × Vec2 ℝ)) (s : Pose ℝ) (old : List Bool) (hold : ∀ b ∈ old, b = true) (i : Nat) (hi : i < pts.length) :
    (flags prm pts s old)[i]? = some true ↔ (res s (pts[i]).1 (pts[i]).2).sqNorm < prm.inlierThres := by
  rw [(C62_flags prm pts s old).2 i hi]
  have : (old[i]?).getD true = true := by
    cases h : old[i]? with
    | none => rfl
    | some b => exact hold b (List.mem_of_getElem? h)
  rw [this]
  simp

/-- C62 is false for a reused vector: a point with zero error keeps a cleared flag. -/
theorem C62_stale_flag : flags (.default : PnpParam ℚ) [(⟨0, 0, 1⟩, ⟨0, 0⟩)] ⟨.one, 0⟩ [false] = [false] ∧
    isIn (.default : PnpParam ℚ) ⟨.one, 0⟩ (⟨0, 0, 1⟩, ⟨0, 0⟩) = true := by
  decide +kernel

/-- C62 is false for NaN: a point without a finite error is flagged as inlier although the scoring does not count it. -/
theorem C62_nan_inlier (s : Pose PReal) (x : Vec3 PReal) : flags .default [(x, ⟨.nan, .nan⟩)] s [] = [true] ∧ isIn .default s (x, ⟨.nan, .nan⟩) = false := by
  have h : (res s x ⟨.nan, .nan⟩).sqNorm = .nan := by
    have : ∀ a : PReal, a - .nan = .nan := by intro a; cases a <;> rfl
    simp [res, Vec2.sqNorm, this, PReal.nan_mul, PReal.nan_add]
  constructor
  · show [if ScalarFn.le _ (res s x ⟨.nan, .nan⟩).sqNorm then false else true] = [true]
    rw [h]
    rfl
  · show ScalarFn.lt (res s x ⟨.nan, .nan⟩).sqNorm _ = false
    rw [h]
    rfl

/-- The hypotheses of C60 and C61 can be met: a fair source for three points. -/
example : Fair (fun i => i) 3 := by
  intro pos i hi
  refine ⟨3 * pos + i, by omega, ?_⟩
  show (3 * pos + i) % 3 = i
  omega

end Vio.Pnp
