/-
C116: a step of the PnP solvers minimises the linearised (weighted) reprojection error.
-/
import Verif.Props.Pnp
import Verif.Spec.Triang
import Verif.Spec.Heading
import Mathlib.LinearAlgebra.Matrix.ToLin
import Mathlib.LinearAlgebra.Basis.VectorSpace

namespace Vio
open Spec

/-- Inner product of two corrections. -/
def dot6 (c d : Vec6 ℝ) : ℝ := c.p.dot d.p + c.r.dot d.r

/-! ### Solvable equations -/

/-- A vector from its six components. -/
def v6 (f : Fin 6 → ℝ) : Vec6 ℝ := ⟨⟨f 0, f 1, f 2⟩, ⟨f 3, f 4, f 5⟩⟩

/-- The entries of a matrix with six rows. -/
def Mat6.full (h : Mat6 ℝ) : Matrix (Fin 6) (Fin 6) ℝ :=
  !![h.pp.r0.x, h.pp.r0.y, h.pp.r0.z, h.pr.r0.x, h.pr.r0.y, h.pr.r0.z;
     h.pp.r1.x, h.pp.r1.y, h.pp.r1.z, h.pr.r1.x, h.pr.r1.y, h.pr.r1.z;
     h.pp.r2.x, h.pp.r2.y, h.pp.r2.z, h.pr.r2.x, h.pr.r2.y, h.pr.r2.z;
     h.rp.r0.x, h.rp.r0.y, h.rp.r0.z, h.rr.r0.x, h.rr.r0.y, h.rr.r0.z;
     h.rp.r1.x, h.rp.r1.y, h.rp.r1.z, h.rr.r1.x, h.rr.r1.y, h.rr.r1.z;
     h.rp.r2.x, h.rp.r2.y, h.rp.r2.z, h.rr.r2.x, h.rr.r2.y, h.rr.r2.z]

theorem apply_v6 (h : Mat6 ℝ) (f : Fin 6 → ℝ) : h.apply (v6 f) = v6 (h.full.mulVec f) := by
  unfold Mat6.apply v6 Mat6.full
  ext <;> simp [Matrix.mulVec, dotProduct, Fin.sum_univ_six, Mat3.mulVec, Vec3.dot] <;> ring

theorem v6_surj (b : Vec6 ℝ) : ∃ f, v6 f = b := ⟨![b.p.x, b.p.y, b.p.z, b.r.x, b.r.y, b.r.z], rfl⟩

theorem dot6_v6 (f g : Fin 6 → ℝ) : dot6 (v6 f) (v6 g) = ∑ i, f i * g i := by
  simp [dot6, v6, Vec3.dot, Fin.sum_univ_six]; ring

theorem sym_solvable (h : Mat6 ℝ) (b : Vec6 ℝ) (hs : ∀ c d, dot6 c (h.apply d) = dot6 d (h.apply c)) (hk : ∀ y, h.apply y = ⟨0, 0⟩ → dot6 y b = 0) : ∃ x, h.apply x = b := by
  obtain ⟨g, rfl⟩ := v6_surj b
  have : g ∈ LinearMap.range h.full.mulVecLin := by
    by_contra hn
    obtain ⟨φ, hφ, hle⟩ := Submodule.exists_le_ker_of_notMem hn
    have hφs : ∀ f : Fin 6 → ℝ, φ f = dot6 (v6 (fun i => φ (Pi.single i 1))) (v6 f) := by
      intro f
      rw [dot6_v6, LinearMap.pi_apply_eq_sum_univ φ f]
      refine Finset.sum_congr rfl fun i _ => ?_
      rw [smul_eq_mul, mul_comm]
      congr 2
      funext j
      simp [Pi.single_apply, eq_comm]
    apply hφ
    rw [hφs]
    apply hk
    obtain ⟨z, hz⟩ := v6_surj (h.apply (v6 fun i => φ (Pi.single i 1)))
    have h0 : ∀ f, dot6 (v6 f) (h.apply (v6 fun i => φ (Pi.single i 1))) = 0 := by
      intro f
      rw [hs, apply_v6, ← hφs]
      exact hle ⟨f, rfl⟩
    have h1 := h0 z
    rw [← hz, dot6_v6] at h1
    have h2 : ∀ i, z i = 0 := by
      intro i
      have := (Finset.sum_eq_zero_iff_of_nonneg (fun j _ => mul_self_nonneg (z j))).1 h1 i (Finset.mem_univ _)
      exact mul_self_eq_zero.1 this
    rw [← hz]
    unfold v6
    simp only [h2]
    rfl
  obtain ⟨f, hf⟩ := this
  exact ⟨v6 f, by rw [apply_v6]; congr 1⟩

/-! ### The errors -/

/-- Reprojection error of a point (world position, observation) for a camera pose. -/
noncomputable def pnpError (s : Pose ℝ) (x : Vec3 ℝ × Vec2 ℝ) : Vec2 ℝ :=
  let c := s.q.inverse.rotate (x.1 - s.p)
  ⟨c.x / c.z - x.2.x, c.y / c.z - x.2.y⟩

/-- The weight of a point: zero next to the focal plane, otherwise one, with the robust kernel `log 2 / |error|` where the error exceeds one. -/
noncomputable def pnpWeight (kernel : Bool) (s : Pose ℝ) (x : Vec3 ℝ × Vec2 ℝ) : ℝ :=
  if |(s.q.inverse.rotate (x.1 - s.p)).z| < 1 / 1000000 then 0
  else if kernel = true ∧ 1 < (pnpError s x).norm then Real.log 2 / (pnpError s x).norm else 1

/-- First-order change of the error under a correction of the pose. -/
noncomputable def pnpLin (s : Pose ℝ) (x : Vec3 ℝ × Vec2 ℝ) (d : Vec6 ℝ) : Vec2 ℝ := (Pnp.jacP s x.1).mulVec d.p + (Pnp.jacR s x.1).mulVec d.r

/-- The weighted sum of squared errors as predicted to first order. -/
noncomputable def pnpModel (kernel : Bool) (pts : List (Vec3 ℝ × Vec2 ℝ)) (s : Pose ℝ) (d : Vec6 ℝ) : ℝ :=
  (pts.map fun x => pnpWeight kernel s x * (pnpError s x + pnpLin s x d).sqNorm).sum

/-- C116: `pnpLin` is the derivative of the error along the correction, as the solvers apply it. -/
theorem C116_derivative (s : Pose ℝ) (x : Vec3 ℝ × Vec2 ℝ) (d : Vec6 ℝ) (hq : s.q.sqNorm = 1) (hz : (s.q.inverse.rotate (x.1 - s.p)).z ≠ 0) :
    HasDeriv2 (fun e => pnpError (Pnp.along s d e) x) (pnpLin s x d) 0 := Pnp.C59_jacobian s x.1 x.2 d hq hz

theorem pnpWeight_nonneg (kernel : Bool) (s : Pose ℝ) (x : Vec3 ℝ × Vec2 ℝ) : 0 ≤ pnpWeight kernel s x := by
  unfold pnpWeight
  split
  · exact le_rfl
  · split
    · exact div_nonneg (Real.log_nonneg (by norm_num)) (Real.sqrt_nonneg _)
    · exact zero_le_one

theorem addPoint_form (kernel : Bool) (s : Pose ℝ) (hb : Mat6 ℝ × Vec6 ℝ) (x : Vec3 ℝ × Vec2 ℝ) (c d : Vec6 ℝ) :
    dot6 c ((Pnp.addPoint kernel s hb x.1 x.2).1.apply d) = dot6 c (hb.1.apply d) + pnpWeight kernel s x * dot2 (pnpLin s x c) (pnpLin s x d) ∧
    dot6 d (Pnp.addPoint kernel s hb x.1 x.2).2 = dot6 d hb.2 - pnpWeight kernel s x * dot2 (pnpLin s x d) (pnpError s x) := by
  have he : Pnp.res s x.1 x.2 = pnpError s x := rfl
  have hc : ∀ n : ℝ, Pnp.cauchy ((1 : ℚ) : ℝ) n = if 1 < n then Real.log 2 / n else 1 := by
    intro n
    unfold Pnp.cauchy
    simp only [ScalarFn.lt_real, ScalarFn.lit_real, Rat.cast_one, decide_eq_true_eq, ScalarFn.log_real]
    norm_num
  unfold Pnp.addPoint
  rw [he]
  simp only [ScalarFn.lt_real, ScalarFn.fabs_real, ScalarFn.lit_real, decide_eq_true_eq]
  by_cases hz : |(Pnp.toCam s x.1).z| < ((1 / 1000000 : ℚ) : ℝ)
  · rw [if_pos hz]
    have hw : pnpWeight kernel s x = 0 := if_pos (by simpa [Pnp.toCam] using hz)
    rw [hw]
    simp
  · rw [if_neg hz]
    have hw : pnpWeight kernel s x = if kernel = true ∧ 1 < (pnpError s x).norm then Real.log 2 / (pnpError s x).norm else 1 := if_neg (by simpa [Pnp.toCam] using hz)
    unfold pnpLin
    generalize Pnp.jacP s x.1 = j1
    generalize Pnp.jacR s x.1 = j2
    cases kernel with
    | false =>
      rw [hw, if_neg (by simp), if_neg (by simp)]
      generalize pnpError s x = r
      constructor
      · simp only [dot6, Mat6.apply, Mat3.mulVec, Vec3.dot, Mat3.add_r0, Mat3.add_r1, Mat3.add_r2, Vec3.add_x, Vec3.add_y, Vec3.add_z, Mat23.tmul, dot2, Mat23.mulVec, Vec2.add_x, Vec2.add_y]
        ring
      · simp only [dot6, Vec3.dot, Vec3.add_x, Vec3.add_y, Vec3.add_z, Mat23.tmulVec, dot2, Mat23.mulVec, Vec2.add_x, Vec2.add_y, Mat23.neg, Vec3.neg_x, Vec3.neg_y, Vec3.neg_z]
        ring
    | true =>
      simp only [if_true, hc]
      have hw : (if 1 < (pnpError s x).norm then Real.log 2 / (pnpError s x).norm else 1) = pnpWeight true s x := by rw [hw]; simp
      rw [hw]
      generalize pnpWeight true s x = k
      generalize pnpError s x = r
      constructor
      · simp only [dot6, Mat6.apply, Mat3.mulVec, Vec3.dot, Mat3.add_r0, Mat3.add_r1, Mat3.add_r2, Vec3.add_x, Vec3.add_y, Vec3.add_z, Mat23.tmul, dot2, Mat23.mulVec, Vec2.add_x, Vec2.add_y]
        ring
      · simp only [dot6, Vec3.dot, Vec3.add_x, Vec3.add_y, Vec3.add_z, Mat23.tmulVec, dot2, Mat23.mulVec, Vec2.add_x, Vec2.add_y, Mat23.neg, Vec3.neg_x, Vec3.neg_y, Vec3.neg_z]
        ring

/-- C116: the matrix of the normal equation is the weighted sum of `Jᵀ J`, and its right-hand side minus that of `Jᵀ r`, as forms. -/
theorem C116_normal (kernel : Bool) (pts : List (Vec3 ℝ × Vec2 ℝ)) (s : Pose ℝ) (c d : Vec6 ℝ) :
    dot6 c ((Pnp.normalEq kernel pts s).1.apply d) = (pts.map fun x => pnpWeight kernel s x * dot2 (pnpLin s x c) (pnpLin s x d)).sum ∧
    dot6 d (Pnp.normalEq kernel pts s).2 = -(pts.map fun x => pnpWeight kernel s x * dot2 (pnpLin s x d) (pnpError s x)).sum := by
  have key : ∀ (l : List (Vec3 ℝ × Vec2 ℝ)) (hb : Mat6 ℝ × Vec6 ℝ),
      dot6 c ((l.foldl (fun hb x => Pnp.addPoint kernel s hb x.1 x.2) hb).1.apply d) = dot6 c (hb.1.apply d) + (l.map fun x => pnpWeight kernel s x * dot2 (pnpLin s x c) (pnpLin s x d)).sum ∧
      dot6 d (l.foldl (fun hb x => Pnp.addPoint kernel s hb x.1 x.2) hb).2 = dot6 d hb.2 - (l.map fun x => pnpWeight kernel s x * dot2 (pnpLin s x d) (pnpError s x)).sum := by
    intro l
    induction l with
    | nil => intro hb; simp
    | cons x l ih =>
      intro hb
      obtain ⟨h1, h2⟩ := ih (Pnp.addPoint kernel s hb x.1 x.2)
      obtain ⟨h3, h4⟩ := addPoint_form kernel s hb x c d
      rw [List.foldl_cons, h1, h2, h3, h4, List.map_cons, List.sum_cons, List.map_cons, List.sum_cons]
      constructor <;> ring
  obtain ⟨h1, h2⟩ := key pts (⟨0, 0, 0, 0⟩, ⟨0, 0⟩)
  unfold Pnp.normalEq
  rw [h1, h2]
  constructor
  · have z : (⟨0, 0, 0, 0⟩ : Mat6 ℝ).apply d = ⟨0, 0⟩ := by
      have z3 : ∀ v : Vec3 ℝ, (0 : Mat3 ℝ).mulVec v = 0 := by
        intro v
        show (⟨0 * v.x + 0 * v.y + 0 * v.z, 0 * v.x + 0 * v.y + 0 * v.z, 0 * v.x + 0 * v.y + 0 * v.z⟩ : Vec3 ℝ) = 0
        ext <;> simp
      unfold Mat6.apply
      simp only [z3]
      ext <;> simp
    show dot6 c ((⟨0, 0, 0, 0⟩ : Mat6 ℝ).apply d) + _ = _
    rw [z]
    simp [dot6, Vec3.dot]
  · simp [dot6, Vec3.dot]

/-- C116: the normal equation always has a solution, also when the points do not determine the pose. -/
theorem C116_solvable (kernel : Bool) (pts : List (Vec3 ℝ × Vec2 ℝ)) (s : Pose ℝ) : ∃ x, (Pnp.normalEq kernel pts s).1.apply x = (Pnp.normalEq kernel pts s).2 := by
  apply sym_solvable
  · intro c d
    rw [(C116_normal kernel pts s c d).1, (C116_normal kernel pts s d c).1]
    congr 2
    funext x
    unfold dot2; ring
  · intro y hy
    rw [(C116_normal kernel pts s y y).2]
    have h0 : (pts.map fun x => pnpWeight kernel s x * dot2 (pnpLin s x y) (pnpLin s x y)).sum = 0 := by
      rw [← (C116_normal kernel pts s y y).1, hy]; simp [dot6, Vec3.dot]
    have hn : ∀ z ∈ pts.map (fun x => pnpWeight kernel s x * dot2 (pnpLin s x y) (pnpLin s x y)), 0 ≤ z := by
      intro z hz
      obtain ⟨x, -, rfl⟩ := List.mem_map.1 hz
      exact mul_nonneg (pnpWeight_nonneg _ _ _) (by unfold dot2; nlinarith [sq_nonneg (pnpLin s x y).x, sq_nonneg (pnpLin s x y).y])
    have hz : ∀ z ∈ pts.map (fun x => pnpWeight kernel s x * dot2 (pnpLin s x y) (pnpLin s x y)), z = 0 := fun z hz => List.all_zero_of_le_zero_le_of_sum_eq_zero hn h0 hz
    rw [neg_eq_zero]
    apply List.sum_eq_zero
    intro z hz'
    obtain ⟨x, hx, rfl⟩ := List.mem_map.1 hz'
    rcases mul_eq_zero.1 (hz _ (List.mem_map.2 ⟨x, hx, rfl⟩)) with h | h
    · rw [h, zero_mul]
    · have h1 : (pnpLin s x y).x = 0 := by unfold dot2 at h; nlinarith [sq_nonneg (pnpLin s x y).x, sq_nonneg (pnpLin s x y).y]
      have h2 : (pnpLin s x y).y = 0 := by unfold dot2 at h; nlinarith [sq_nonneg (pnpLin s x y).x, sq_nonneg (pnpLin s x y).y]
      unfold dot2
      rw [h1, h2]; ring

theorem pnpModel_diff (kernel : Bool) (pts : List (Vec3 ℝ × Vec2 ℝ)) (s : Pose ℝ) (c d : Vec6 ℝ) (e : Vec6 ℝ) (he : ∀ x, pnpLin s x d = pnpLin s x c + pnpLin s x e) :
    pnpModel kernel pts s d = pnpModel kernel pts s c + 2 * (pts.map fun x => pnpWeight kernel s x * dot2 (pnpLin s x e) (pnpError s x)).sum +
      2 * (pts.map fun x => pnpWeight kernel s x * dot2 (pnpLin s x e) (pnpLin s x c)).sum + (pts.map fun x => pnpWeight kernel s x * dot2 (pnpLin s x e) (pnpLin s x e)).sum := by
  unfold pnpModel
  induction pts with
  | nil => simp
  | cons x l ih =>
    simp only [List.map_cons, List.sum_cons]
    rw [ih, he x]
    simp only [Vec2.sqNorm, dot2, Vec2.add_x, Vec2.add_y]
    ring

/-- C116: a solution of the normal equation is a minimum of the weighted sum of squared errors as predicted to first order. -/
theorem C116_minimum (kernel : Bool) (pts : List (Vec3 ℝ × Vec2 ℝ)) (s : Pose ℝ) (dx : Vec6 ℝ) (h : (Pnp.normalEq kernel pts s).1.apply dx = (Pnp.normalEq kernel pts s).2) (d : Vec6 ℝ) :
    pnpModel kernel pts s dx ≤ pnpModel kernel pts s d := by
  let e : Vec6 ℝ := ⟨d.p - dx.p, d.r - dx.r⟩
  have he : ∀ x, pnpLin s x d = pnpLin s x dx + pnpLin s x e := by
    intro x
    unfold pnpLin
    ext <;> simp only [Mat23.mulVec, Vec3.dot, Vec2.add_x, Vec2.add_y, e, Vec3.sub_x, Vec3.sub_y, Vec3.sub_z] <;> ring
  rw [pnpModel_diff kernel pts s dx d e he]
  have h1 := (C116_normal kernel pts s e dx).1
  have h2 := (C116_normal kernel pts s e e).2
  rw [h, h2] at h1
  have h3 : 0 ≤ (pts.map fun x => pnpWeight kernel s x * dot2 (pnpLin s x e) (pnpLin s x e)).sum := by
    apply List.sum_nonneg
    intro z hz
    obtain ⟨x, -, rfl⟩ := List.mem_map.1 hz
    exact mul_nonneg (pnpWeight_nonneg _ _ _) (by unfold dot2; nlinarith [sq_nonneg (pnpLin s x e).x, sq_nonneg (pnpLin s x e).y])
  rw [← h1]
  linarith

/-- The weighted sum of squared errors at a pose, for the weights that the points have at another one. -/
noncomputable def pnpCost (kernel : Bool) (pts : List (Vec3 ℝ × Vec2 ℝ)) (s t : Pose ℝ) : ℝ := (pts.map fun x => pnpWeight kernel s x * (pnpError t x).sqNorm).sum

/-- C116: along a solution of the normal equation the weighted sum of squared errors does not rise; its slope is minus twice the weighted sum of the squared changes of the errors. -/
theorem C116_descent (kernel : Bool) (pts : List (Vec3 ℝ × Vec2 ℝ)) (s : Pose ℝ) (hq : s.q.sqNorm = 1) (dx : Vec6 ℝ)
    (h : (Pnp.normalEq kernel pts s).1.apply dx = (Pnp.normalEq kernel pts s).2) :
    HasDerivAt (fun e => pnpCost kernel pts s (Pnp.along s dx e)) (-2 * (pts.map fun x => pnpWeight kernel s x * (pnpLin s x dx).sqNorm).sum) 0 := by
  have hs : (pts.map fun x => pnpWeight kernel s x * (pnpLin s x dx).sqNorm).sum = -(pts.map fun x => pnpWeight kernel s x * dot2 (pnpLin s x dx) (pnpError s x)).sum := by
    rw [← (C116_normal kernel pts s dx dx).2, ← h, (C116_normal kernel pts s dx dx).1]
    rfl
  rw [hs, show ∀ z : ℝ, -2 * -z = 2 * z by intro z; ring]
  unfold pnpCost
  have h0 : Pnp.along s dx 0 = s := by
    unfold Pnp.along Pnp.apply
    have e1 : Vec3.smul (0 : ℝ) dx.r = 0 := by ext <;> simp
    have e2 : s.p + Vec3.smul (0 : ℝ) dx.p = s.p := by ext <;> simp
    dsimp only
    rw [e1, e2]
    have e3 : Utility.deltaQ (0 : Vec3 ℝ) = .one := by
      ext <;> simp [Utility.deltaQ, Quat.one]
    rw [e3]
    have e4 : (s.q.mul .one).normalized = s.q := by
      have : s.q.mul .one = s.q := by ext <;> simp [Quat.mul, Quat.one]
      rw [this]
      exact Quat.normalized_of_unit _ hq
    rw [e4]
  clear hs h
  induction pts with
  | nil => simpa using hasDerivAt_const (0 : ℝ) (0 : ℝ)
  | cons x l ih =>
    simp only [List.map_cons, List.sum_cons]
    rw [mul_add]
    refine HasDerivAt.add ?_ ih
    by_cases hz : |(s.q.inverse.rotate (x.1 - s.p)).z| < 1 / 1000000
    · have : pnpWeight kernel s x = 0 := if_pos hz
      rw [this]
      simpa using hasDerivAt_const (0 : ℝ) (0 : ℝ)
    · have hne : (s.q.inverse.rotate (x.1 - s.p)).z ≠ 0 := by
        intro h; rw [h] at hz; norm_num at hz
      have h1 := C116_derivative s x dx hq hne
      have h2 := ((h1.x.mul h1.x).add (h1.y.mul h1.y)).const_mul (pnpWeight kernel s x)
      refine HasDerivAt.congr_deriv h2 ?_
      rw [h0]
      unfold dot2
      ring

/-- C116: the slope is zero only where no correction changes the cost to first order. -/
theorem C116_stationary (kernel : Bool) (pts : List (Vec3 ℝ × Vec2 ℝ)) (s : Pose ℝ) (dx : Vec6 ℝ) (h : (Pnp.normalEq kernel pts s).1.apply dx = (Pnp.normalEq kernel pts s).2) :
    0 ≤ (pts.map fun x => pnpWeight kernel s x * (pnpLin s x dx).sqNorm).sum ∧
    ((pts.map fun x => pnpWeight kernel s x * (pnpLin s x dx).sqNorm).sum = 0 → ∀ d, (pts.map fun x => pnpWeight kernel s x * dot2 (pnpLin s x d) (pnpError s x)).sum = 0) := by
  have hn : ∀ z ∈ pts.map (fun x => pnpWeight kernel s x * (pnpLin s x dx).sqNorm), 0 ≤ z := by
    intro z hz
    obtain ⟨x, -, rfl⟩ := List.mem_map.1 hz
    exact mul_nonneg (pnpWeight_nonneg _ _ _) (by unfold Vec2.sqNorm; nlinarith [sq_nonneg (pnpLin s x dx).x, sq_nonneg (pnpLin s x dx).y])
  refine ⟨List.sum_nonneg hn, fun h0 d => ?_⟩
  have hz : ∀ z ∈ pts.map (fun x => pnpWeight kernel s x * (pnpLin s x dx).sqNorm), z = 0 := fun z hz => List.all_zero_of_le_zero_le_of_sum_eq_zero hn h0 hz
  have h1 := (C116_normal kernel pts s d d).2
  rw [← h, (C116_normal kernel pts s d dx).1] at h1
  rw [← neg_eq_zero, ← h1]
  apply List.sum_eq_zero
  intro z hz'
  obtain ⟨x, hx, rfl⟩ := List.mem_map.1 hz'
  rcases mul_eq_zero.1 (hz _ (List.mem_map.2 ⟨x, hx, rfl⟩)) with h | h
  · rw [h, zero_mul]
  · have h1 : (pnpLin s x dx).x = 0 := by unfold Vec2.sqNorm at h; nlinarith [sq_nonneg (pnpLin s x dx).x, sq_nonneg (pnpLin s x dx).y]
    have h2 : (pnpLin s x dx).y = 0 := by unfold Vec2.sqNorm at h; nlinarith [sq_nonneg (pnpLin s x dx).x, sq_nonneg (pnpLin s x dx).y]
    unfold dot2
    rw [h1, h2]; ring

/-- C116: with a correct linear solver every pass of the solvers moves the pose by such a minimum. -/
theorem C116_step (ext : Ext ℝ) (hext : ext.Correct) (kernel : Bool) (pts : List (Vec3 ℝ × Vec2 ℝ)) (s : Pose ℝ) (d : Vec6 ℝ) :
    let dx := ext.ldlt6 (Pnp.normalEq kernel pts s).1 (Pnp.normalEq kernel pts s).2
    pnpModel kernel pts s dx ≤ pnpModel kernel pts s d :=
  C116_minimum kernel pts s _ (hext.solve _ _ (C116_solvable kernel pts s)) d

/-- C116: when the passes end.  Either all `n` passes were made and no correction was shorter than the limit, or the pass after which the result stands is the first whose correction was,
or the solver failed. -/
theorem C116_stop {K : Type} [Add K] [Sub K] [Mul K] [Neg K] [Div K] [Zero K] [One K] [ScalarFn K] (ext : Ext K) (prm : PnpParam K) (kernel : Bool) (pts : List (Vec3 K × Vec2 K)) (n : Nat)
    (s : Pose K) :
    let dx := fun t : Pose K => ext.ldlt6 (Pnp.normalEq kernel pts t).1 (Pnp.normalEq kernel pts t).2
    let next := fun t : Pose K => Pnp.apply t (dx t)
    ∃ k ≤ n, (∀ j < k, ScalarFn.isNaN (dx (next^[j] s)).norm = false ∧ (j + 1 < k → ScalarFn.lt (dx (next^[j] s)).norm prm.maxNormDx = false)) ∧
      (Pnp.loop ext prm kernel pts n s).2 = next^[k] s ∧
      (((Pnp.loop ext prm kernel pts n s).1 = true ∧ k = n) ∨
        ((Pnp.loop ext prm kernel pts n s).1 = true ∧ ∃ j, k = j + 1 ∧ ScalarFn.lt (dx (next^[j] s)).norm prm.maxNormDx = true) ∨
        ((Pnp.loop ext prm kernel pts n s).1 = false ∧ ScalarFn.isNaN (dx (next^[k] s)).norm = true ∧ ∀ j < k, ScalarFn.lt (dx (next^[j] s)).norm prm.maxNormDx = false)) := by
  intro dx next
  induction n generalizing s with
  | zero => exact ⟨0, le_rfl, by intro j hj; omega, rfl, Or.inl ⟨rfl, rfl⟩⟩
  | succ n ih =>
    rw [Pnp.loop]
    dsimp only
    cases hN : ScalarFn.isNaN (dx s).norm with
    | true =>
      exact ⟨0, Nat.zero_le _, by intro j hj; omega, rfl, Or.inr (Or.inr ⟨rfl, hN, by intro j hj; omega⟩)⟩
    | false =>
      simp only [Bool.false_eq_true, if_false]
      cases hL : ScalarFn.lt (dx s).norm prm.maxNormDx with
      | true =>
        refine ⟨1, by omega, fun j hj => ?_, rfl, Or.inr (Or.inl ⟨rfl, 0, rfl, hL⟩)⟩
        have : j = 0 := by omega
        subst this
        exact ⟨hN, by omega⟩
      | false =>
        simp only [Bool.false_eq_true, if_false]
        obtain ⟨k, hk, h1, h2, h3⟩ := ih (next s)
        refine ⟨k + 1, by omega, fun j hj => ?_, h2, ?_⟩
        · cases j with
          | zero => exact ⟨hN, fun _ => hL⟩
          | succ j =>
            obtain ⟨a, b⟩ := h1 j (by omega)
            exact ⟨a, fun hj' => b (by omega)⟩
        · rcases h3 with ⟨a, b⟩ | ⟨a, j, rfl, b⟩ | ⟨a, b, c⟩
          · exact Or.inl ⟨a, by omega⟩
          · exact Or.inr (Or.inl ⟨a, j + 1, rfl, b⟩)
          · refine Or.inr (Or.inr ⟨a, b, fun j hj => ?_⟩)
            cases j with
            | zero => exact hL
            | succ j => exact c j (by omega)

/-- C116: a case.  One point straight ahead is seen a little to the side; moving by that amount explains it, so no correction does better. -/
example : pnpModel false [(⟨0, 0, 1⟩, ⟨1 / 10, 0⟩)] ⟨.one, 0⟩ ⟨⟨-1 / 10, 0, 0⟩, 0⟩ = 0 ∧ pnpModel false [(⟨0, 0, 1⟩, ⟨1 / 10, 0⟩)] ⟨.one, 0⟩ ⟨0, 0⟩ = 1 / 100 := by
  have hi : (Quat.one : Quat ℝ).inverse = .one := by
    unfold Quat.inverse Quat.one
    simp [Quat.sqNorm]
  have hr : ∀ v : Vec3 ℝ, (Quat.one : Quat ℝ).rotate v = v := by
    intro v; ext <;> simp [Quat.rotate, Quat.one, Quat.vec]
  have hm : (Quat.one : Quat ℝ).toMat = ⟨⟨1, 0, 0⟩, ⟨0, 1, 0⟩, ⟨0, 0, 1⟩⟩ := by
    ext <;> simp [Quat.toMat, Quat.one]
  constructor <;>
  · simp only [pnpModel, pnpWeight, pnpError, pnpLin, Pnp.jacP, Pnp.jacR, Pnp.toCam, hi, hr, hm]
    simp [Pnp.jac23, Mat23.mulMat, Mat23.mulVec, Vec3.dot, Utility.skew, Vec2.sqNorm, Mat3.transpose, Mat3.mulVec]
    norm_num

end Vio
