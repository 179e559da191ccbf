/-
C90: the steps of the iterative triangulation.
-/
import Verif.Props.Triang
import Verif.Spec.Triang
import Mathlib.Analysis.Calculus.Deriv.Add
import Mathlib.Analysis.Calculus.Deriv.Mul
import Mathlib.LinearAlgebra.FiniteDimensional.Basic
import Mathlib.Tactic.Linarith
import Mathlib.Tactic.FieldSimp

set_option linter.unusedSectionVars false

namespace Vio.Triang
open Vio.Spec

/-! ### Weights -/

theorem norm2_nonneg (r : Vec2 ℝ) : 0 ≤ r.norm := Real.sqrt_nonneg _

/-- C90: small residuals have weight one. -/
theorem C90_weight_small (r : Vec2 ℝ) (h : r.norm ≤ 1 / 100) : weight r = 1 := by
  unfold weight
  have : ScalarFn.le r.norm (lit (1 / 100) : ℝ) = true := by simpa using h
  dsimp only
  rw [if_pos this]
  simp

theorem weight_large (r : Vec2 ℝ) (h : 1 / 100 < r.norm) : weight r = Real.sqrt (1 / 50 / r.norm) := by
  unfold weight
  have : ScalarFn.le r.norm (lit (1 / 100) : ℝ) = false := by simpa using h
  dsimp only
  rw [this, if_neg (by simp)]
  simp only [ScalarFn.sqrt_real, ScalarFn.lit_real]
  congr 2
  norm_num

/-- C90: for a large residual the weight is positive, and the weighted residual has the length 0.02 whatever the residual. -/
theorem C90_weight_large (r : Vec2 ℝ) (h : 1 / 100 < r.norm) : 0 < weight r ∧ weight r ^ 2 * r.norm = 1 / 50 := by
  have h0 : 0 < r.norm := by linarith
  rw [weight_large r h]
  refine ⟨Real.sqrt_pos.2 (by positivity), ?_⟩
  rw [Real.sq_sqrt (by positivity)]
  field_simp

/-- C90: no observation pulls by more than 0.02. -/
theorem C90_influence (r : Vec2 ℝ) : 0 < weight r ∧ weight r ^ 2 * r.norm ≤ 1 / 50 := by
  by_cases h : r.norm ≤ 1 / 100
  · rw [C90_weight_small r h]; constructor <;> linarith
  · obtain ⟨h1, h2⟩ := C90_weight_large r (not_le.1 h)
    exact ⟨h1, h2.le⟩

/-- C90: the weight is above one exactly for residuals between 0.01 and 0.02, so the function is not a robust weight there: it is not decreasing. -/
theorem C90_upweighted (r : Vec2 ℝ) : 1 < weight r ↔ 1 / 100 < r.norm ∧ r.norm < 1 / 50 := by
  by_cases h : r.norm ≤ 1 / 100
  · rw [C90_weight_small r h]
    exact ⟨fun h => absurd h (lt_irrefl _), fun h' => by linarith [h'.1]⟩
  · have h' := not_le.1 h
    have h0 : 0 < r.norm := by linarith
    rw [weight_large r h', Real.lt_sqrt one_pos.le, lt_div_iff₀ h0]
    constructor
    · intro h1; exact ⟨h', by linarith⟩
    · intro h1; linarith [h1.2]

/-- C90: the weights are at most the root of two. -/
theorem C90_weight_bound (r : Vec2 ℝ) : weight r ^ 2 < 2 := by
  by_cases h : r.norm ≤ 1 / 100
  · rw [C90_weight_small r h]; norm_num
  · have h' := not_le.1 h
    obtain ⟨-, h2⟩ := C90_weight_large r h'
    by_contra hc
    nlinarith

/-- C90: residuals of both kinds exist, and one that is weighted up. -/
example : weight (⟨1 / 200, 0⟩ : Vec2 ℝ) = 1 ∧ 1 < weight (⟨3 / 200, 0⟩ : Vec2 ℝ) := by
  have e : ∀ x : ℝ, 0 ≤ x → (⟨x, 0⟩ : Vec2 ℝ).norm = x := by
    intro x hx; simp only [Vec2.norm, Vec2.sqNorm, ScalarFn.sqrt_real]; rw [show x * x + 0 * 0 = x * x by ring]; exact Real.sqrt_mul_self hx
  refine ⟨C90_weight_small _ ?_, (C90_upweighted _).2 ?_⟩
  · rw [e _ (by norm_num)]; norm_num
  · rw [e _ (by norm_num)]; norm_num

/-! ### The normal equation -/

/-- The view as the specification has it. -/
def View.sight (v : View ℝ) : Sight := ⟨v.q, v.p, v.n⟩

theorem error_eq (v : View ℝ) (x : Vec3 ℝ) : jresidual v.q v.p x v.n = v.sight.error x := by
  rw [(C56_residual v.q v.p x v.n).1]; rfl

/-- The views with the squares of their weights at a point. -/
noncomputable def withWeights (vs : List (View ℝ)) (x : Vec3 ℝ) : List (ℝ × Sight) := vs.map fun v => (weight (v.sight.error x) ^ 2, v.sight)

/-- One view's part of the normal equation. -/
noncomputable def accum (x : Vec3 ℝ) (ab : Mat3 ℝ × Vec3 ℝ) (v : View ℝ) : Mat3 ℝ × Vec3 ℝ :=
  let j := jacobian v.q v.p x
  let r := jresidual v.q v.p x v.n
  let w := weight r
  if ScalarFn.le w (lit 1) && ScalarFn.le (lit 1) w then (ab.1 + j.tmul j, ab.2 + j.tmulVec r)
  else
    let jw := j.smul (w * w)
    (ab.1 + jw.tmul j, ab.2 + jw.tmulVec r)

theorem accum_eq (x c d : Vec3 ℝ) (ab : Mat3 ℝ × Vec3 ℝ) (v : View ℝ) :
    c.dot ((accum x ab v).1.mulVec d) = c.dot (ab.1.mulVec d) + weight (v.sight.error x) ^ 2 * dot2 ((jacobian v.q v.p x).mulVec c) ((jacobian v.q v.p x).mulVec d) ∧
    d.dot (accum x ab v).2 = d.dot ab.2 + weight (v.sight.error x) ^ 2 * dot2 ((jacobian v.q v.p x).mulVec d) (v.sight.error x) := by
  unfold accum
  dsimp only
  rw [error_eq]
  split
  · rename_i hw
    have hw : weight (v.sight.error x) = 1 := by
      simp only [ScalarFn.le_real, ScalarFn.lit_real, Rat.cast_one, Bool.and_eq_true, decide_eq_true_eq] at hw
      exact le_antisymm hw.1 hw.2
    rw [hw]
    constructor
    · simp only [Mat3.mulVec, Vec3.dot, Mat3.add_r0, Mat3.add_r1, Mat3.add_r2, Vec3.add_x, Vec3.add_y, Vec3.add_z, Mat23.tmul, dot2, Mat23.mulVec]
      ring
    · simp only [Vec3.dot, Vec3.add_x, Vec3.add_y, Vec3.add_z, Mat23.tmulVec, dot2, Mat23.mulVec]
      ring
  · constructor
    · simp only [Mat3.mulVec, Vec3.dot, Mat3.add_r0, Mat3.add_r1, Mat3.add_r2, Vec3.add_x, Vec3.add_y, Vec3.add_z, Mat23.tmul, dot2, Mat23.mulVec, Mat23.smul, Vec3.smul_x, Vec3.smul_y,
        Vec3.smul_z]
      ring
    · simp only [Vec3.dot, Vec3.add_x, Vec3.add_y, Vec3.add_z, Mat23.tmulVec, dot2, Mat23.mulVec, Mat23.smul, Vec3.smul_x, Vec3.smul_y, Vec3.smul_z]
      ring

theorem normalEq_fold (x c d : Vec3 ℝ) (vs : List (View ℝ)) : ∀ ab : Mat3 ℝ × Vec3 ℝ,
    c.dot ((vs.foldl (accum x) ab).1.mulVec d) =
      c.dot (ab.1.mulVec d) + (vs.map fun v => weight (v.sight.error x) ^ 2 * dot2 ((jacobian v.q v.p x).mulVec c) ((jacobian v.q v.p x).mulVec d)).sum ∧
    d.dot (vs.foldl (accum x) ab).2 = d.dot ab.2 + (vs.map fun v => weight (v.sight.error x) ^ 2 * dot2 ((jacobian v.q v.p x).mulVec d) (v.sight.error x)).sum := by
  induction vs with
  | nil => intro ab; simp
  | cons v vs ih =>
    intro ab
    simp only [List.foldl_cons, List.map_cons, List.sum_cons]
    obtain ⟨h1, h2⟩ := accum_eq x c d ab v
    obtain ⟨h3, h4⟩ := ih (accum x ab v)
    rw [h3, h4, h1, h2, add_assoc, add_assoc]
    exact ⟨rfl, rfl⟩

/-- C90: the matrix of the normal equation is the weighted sum of `Jᵀ J`, as a bilinear form, and its right-hand side that of `Jᵀ r`. -/
theorem C90_normal (vs : List (View ℝ)) (x c d : Vec3 ℝ) :
    c.dot ((normalEq vs x).1.mulVec d) = (vs.map fun v => weight (v.sight.error x) ^ 2 * dot2 ((jacobian v.q v.p x).mulVec c) ((jacobian v.q v.p x).mulVec d)).sum ∧
    d.dot (normalEq vs x).2 = (vs.map fun v => weight (v.sight.error x) ^ 2 * dot2 ((jacobian v.q v.p x).mulVec d) (v.sight.error x)).sum := by
  have := normalEq_fold x c d vs (0, 0)
  have z1 : c.dot ((0 : Mat3 ℝ).mulVec d) = 0 := by
    show c.x * (0 * d.x + 0 * d.y + 0 * d.z) + c.y * (0 * d.x + 0 * d.y + 0 * d.z) + c.z * (0 * d.x + 0 * d.y + 0 * d.z) = 0
    ring
  have z2 : d.dot 0 = 0 := by simp [Vec3.dot]
  dsimp only at this
  rw [z1, z2, zero_add, zero_add] at this
  exact this

theorem damped_quad (a : Mat3 ℝ) (l : ℝ) (c d : Vec3 ℝ) : c.dot ((a + Mat3.smul l .one).mulVec d) = c.dot (a.mulVec d) + l * c.dot d := by
  simp only [Mat3.mulVec, Vec3.dot, Mat3.add_r0, Mat3.add_r1, Mat3.add_r2, Vec3.add_x, Vec3.add_y, Vec3.add_z, Mat3.smul, Mat3.one, Vec3.smul_x, Vec3.smul_y, Vec3.smul_z]
  ring

theorem dot_comm3 (a b : Vec3 ℝ) : a.dot b = b.dot a := by simp only [Vec3.dot]; ring

theorem dot_self_pos (d : Vec3 ℝ) (h : d ≠ 0) : 0 < d.dot d := by
  rcases (show 0 ≤ d.dot d by simp only [Vec3.dot]; nlinarith [sq_nonneg d.x, sq_nonneg d.y, sq_nonneg d.z]).lt_or_eq with h' | h'
  · exact h'
  · exfalso; apply h
    simp only [Vec3.dot] at h'
    have hx : d.x = 0 := by nlinarith [sq_nonneg d.x, sq_nonneg d.y, sq_nonneg d.z]
    have hy : d.y = 0 := by nlinarith [sq_nonneg d.x, sq_nonneg d.y, sq_nonneg d.z]
    have hz : d.z = 0 := by nlinarith [sq_nonneg d.x, sq_nonneg d.y, sq_nonneg d.z]
    exact Vec3.ext hx hy hz

theorem normal_nonneg (vs : List (View ℝ)) (x d : Vec3 ℝ) : 0 ≤ d.dot ((normalEq vs x).1.mulVec d) := by
  rw [(C90_normal vs x d d).1]
  apply List.sum_nonneg
  intro y hy
  obtain ⟨v, -, rfl⟩ := List.mem_map.1 hy
  have : 0 ≤ dot2 ((jacobian v.q v.p x).mulVec d) ((jacobian v.q v.p x).mulVec d) := by unfold dot2; nlinarith [sq_nonneg ((jacobian v.q v.p x).mulVec d).x, sq_nonneg ((jacobian v.q v.p x).mulVec d).y]
  positivity

/-- C90: with positive damping the matrix that is factorised is symmetric and positive definite, for any views and any point, so the factorisation applies. -/
theorem C90_posdef (vs : List (View ℝ)) (x : Vec3 ℝ) (l : ℝ) (hl : 0 < l) : PosDef3 ((normalEq vs x).1 + Mat3.smul l .one) := by
  refine ⟨fun c d => ?_, fun d hd => ?_⟩
  · rw [damped_quad, damped_quad, (C90_normal vs x c d).1, (C90_normal vs x d c).1, dot_comm3 c d]
    congr 3
    funext v
    unfold dot2; ring
  · rw [damped_quad]
    have := normal_nonneg vs x d
    have := mul_pos hl (dot_self_pos d hd)
    linarith

/-! ### Descent -/

/-- C90: the right-hand side is half the gradient of the weighted sum of squared errors, the weights being kept at their values at the point. -/
theorem C90_gradient (vs : List (View ℝ)) (x d : Vec3 ℝ) (hv : ∀ v ∈ vs, v.sight.Visible x) :
    HasDerivAt (fun e => weighted (withWeights vs x) (x + .smul e d)) (2 * d.dot (normalEq vs x).2) 0 := by
  rw [(C90_normal vs x 0 d).2]
  have key : ∀ us : List (View ℝ), (∀ v ∈ us, v.sight.Visible x) →
      HasDerivAt (fun e : ℝ => ((us.map fun v => (weight (v.sight.error x) ^ 2, v.sight)).map fun s => s.1 * (s.2.error (x + .smul e d)).sqNorm).sum)
        (2 * (us.map fun v => weight (v.sight.error x) ^ 2 * dot2 ((jacobian v.q v.p x).mulVec d) (v.sight.error x)).sum) 0 := by
    intro us hu
    induction us with
    | nil => simpa using hasDerivAt_const (0 : ℝ) (0 : ℝ)
    | cons v us ih =>
      simp only [List.map_cons, List.sum_cons]
      have h1 := C56_jacobian v.q v.p x d (hu v List.mem_cons_self)
      have e0 : x + .smul 0 d = x := by apply Vec3.ext <;> simp
      have hx : HasDerivAt (fun e : ℝ => (v.sight.error (x + .smul e d)).x) ((jacobian v.q v.p x).mulVec d).x 0 := h1.x.sub_const v.n.x
      have hy : HasDerivAt (fun e : ℝ => (v.sight.error (x + .smul e d)).y) ((jacobian v.q v.p x).mulVec d).y 0 := h1.y.sub_const v.n.y
      have h2 := (((hx.mul hx).add (hy.mul hy)).const_mul (weight (v.sight.error x) ^ 2)).add (ih fun u hu' => hu u (List.mem_cons_of_mem _ hu'))
      refine HasDerivAt.congr_deriv h2 ?_
      rw [e0]
      unfold dot2
      ring
  simpa [weighted, withWeights] using key vs hv

/-- C90: with a correct solver and positive damping the step is against the gradient: along it the weighted sum of squared errors falls at least at the rate `2 λ |δ|²`; the step is zero
only where the gradient is. -/
theorem C90_descent (vs : List (View ℝ)) (x : Vec3 ℝ) (l : ℝ) (hl : 0 < l) (solve : Mat3 ℝ → Vec3 ℝ → Vec3 ℝ) (hs : Solves3 solve) (hv : ∀ v ∈ vs, v.sight.Visible x) :
    let δ := solve ((normalEq vs x).1 + Mat3.smul l .one) (normalEq vs x).2
    (∃ s, HasDerivAt (fun e => weighted (withWeights vs x) (x + .smul e (-δ))) s 0 ∧ s ≤ -(2 * l * δ.dot δ)) ∧ (δ = 0 ↔ (normalEq vs x).2 = 0) := by
  intro δ
  have h1 : ((normalEq vs x).1 + Mat3.smul l .one).mulVec δ = (normalEq vs x).2 := hs _ _ (C90_posdef vs x l hl)
  refine ⟨⟨_, C90_gradient vs x (-δ) hv, ?_⟩, ?_⟩
  · rw [← h1]
    have e : (-δ).dot (((normalEq vs x).1 + Mat3.smul l .one).mulVec δ) = -(δ.dot (((normalEq vs x).1 + Mat3.smul l .one).mulVec δ)) := by
      simp only [Vec3.dot, Vec3.neg_x, Vec3.neg_y, Vec3.neg_z]; ring
    rw [e, damped_quad]
    have := normal_nonneg vs x δ
    linarith
  · constructor
    · intro h0
      rw [← h1, h0]
      apply Vec3.ext <;> simp [Mat3.mulVec, Vec3.dot]
    · intro h0
      by_contra hne
      have h2 := (C90_posdef vs x l hl).2 δ hne
      rw [h1, h0] at h2
      simp [Vec3.dot] at h2

/-- C90: where no residual exceeds 0.01 the weights are one, so the step is also against the gradient of the plain sum of squared errors, which is what decides on its acceptance. -/
theorem C90_descent_plain (vs : List (View ℝ)) (x : Vec3 ℝ) (hw : ∀ v ∈ vs, (v.sight.error x).norm ≤ 1 / 100) : withWeights vs x = vs.map fun v => (1, v.sight) := by
  refine List.map_congr_left fun v hv => ?_
  rw [C90_weight_small _ (hw v hv)]
  norm_num

/-- C90: the cost that decides on acceptance is the plain sum of squared errors. -/
theorem C90_cost (vs : List (View ℝ)) (x : Vec3 ℝ) (hz : x.z ≠ 0) : cost vs (toPoint x) = weighted (vs.map fun v => (1, v.sight)) x := by
  unfold cost weighted
  have : ∀ (us : List (View ℝ)) (c : ℝ), us.foldl (fun c v => c + residual v.q v.p (toPoint x) v.n) c = c + ((us.map fun v => ((1 : ℝ), v.sight)).map fun s => s.1 * (s.2.error x).sqNorm).sum := by
    intro us
    induction us with
    | nil => intro c; simp
    | cons v us ih =>
      intro c
      rw [List.foldl_cons, ih, (C56_residual v.q v.p x v.n).2 hz, error_eq]
      simp only [List.map_cons, List.sum_cons]
      ring
  rw [this vs 0, zero_add]

/-! ### The inner loop -/

section generic
variable {K : Type} [Add K] [Sub K] [Mul K] [Neg K] [Div K] [Zero K] [One K] [ScalarFn K]

/-- C90: for every scalar type and every solver, the inner loop tries steps until one lowers the cost, and gives up after eleven. -/
theorem C90_inner (ext : Ext K) (vs : List (View K)) (ab : Mat3 K × Vec3 K) (n : Nat) (s : LM K) :
    ∃ k ≤ n, innerLoop ext vs ab n s = (innerBody ext vs ab)^[k + 1] s ∧ (∀ j < k, ((innerBody ext vs ab)^[j + 1] s).reduced = false) ∧
      (((innerBody ext vs ab)^[k + 1] s).reduced = true ∨ k = n) := by
  induction n generalizing s with
  | zero => exact ⟨0, le_rfl, rfl, fun j hj => absurd hj (Nat.not_lt_zero _), .inr rfl⟩
  | succ n ih =>
    cases hr : (innerBody ext vs ab s).reduced with
    | true => exact ⟨0, Nat.zero_le _, by simp [innerLoop, hr], fun j hj => absurd hj (Nat.not_lt_zero _), .inl hr⟩
    | false =>
      obtain ⟨k, hk, h1, h2, h3⟩ := ih (innerBody ext vs ab s)
      refine ⟨k + 1, by omega, by simpa [innerLoop, hr] using h1, ?_, ?_⟩
      · intro j hj
        cases j with
        | zero => exact hr
        | succ j => exact h2 j (by omega)
      · rcases h3 with h3 | rfl
        · exact .inl h3
        · exact .inr rfl

/-- C90: a rejected step leaves the solution and its cost alone, and an accepted one has the lower cost. -/
theorem C90_body (ext : Ext K) (vs : List (View K)) (ab : Mat3 K × Vec3 K) (s : LM K) :
    let δ := ext.ldlt3 (ab.1 + Mat3.smul s.lambda .one) ab.2
    let t := innerBody ext vs ab s
    (t.reduced = true → t.sol = s.sol - δ ∧ t.cost = cost vs (toPoint t.sol) ∧ ScalarFn.lt t.cost s.cost = true) ∧ (t.reduced = false → t.sol = s.sol ∧ t.cost = s.cost) := by
  dsimp only
  unfold innerBody
  dsimp only
  split
  · rename_i h
    exact ⟨fun _ => ⟨rfl, rfl, h⟩, (fun h => nomatch h)⟩
  · exact ⟨(fun h => nomatch h), fun _ => ⟨rfl, rfl⟩⟩

/-- If every step is rejected, the solution stays. -/
theorem stuck (ext : Ext K) (vs : List (View K)) (x : Vec3 K) (c : K) (P : K → Prop)
    (hP : ∀ l, P l → P (if ScalarFn.lt (l * lit 10) (lit 1000000000000) then l * lit 10 else lit 1000000000000))
    (h : ∀ l, P l → ScalarFn.lt (cost vs (toPoint (x - ext.ldlt3 ((normalEq vs x).1 + Mat3.smul l .one) (normalEq vs x).2))) c = false)
    (n : Nat) (s : LM K) (h1 : s.sol = x) (h2 : s.cost = c) (h3 : P s.lambda) : (outerLoop ext vs n s).sol = x := by
  have body : ∀ s : LM K, s.sol = x → s.cost = c → P s.lambda → (innerBody ext vs (normalEq vs x) s).sol = x ∧ (innerBody ext vs (normalEq vs x) s).cost = c ∧
      P (innerBody ext vs (normalEq vs x) s).lambda := by
    intro s h1 h2 h3
    obtain ⟨sol, lam, co, dn, red, out, ls⟩ := s
    dsimp only at h1 h2 h3
    subst h1 h2
    unfold innerBody
    dsimp only
    rw [if_neg (by rw [h lam h3]; simp)]
    exact ⟨rfl, rfl, hP _ h3⟩
  have inner : ∀ n (s : LM K), s.sol = x → s.cost = c → P s.lambda → (innerLoop ext vs (normalEq vs x) n s).sol = x ∧ (innerLoop ext vs (normalEq vs x) n s).cost = c ∧
      P (innerLoop ext vs (normalEq vs x) n s).lambda := by
    intro n
    induction n with
    | zero => exact body
    | succ n ih =>
      intro s h1 h2 h3
      obtain ⟨b1, b2, b3⟩ := body s h1 h2 h3
      simp only [innerLoop]
      split
      · exact ⟨b1, b2, b3⟩
      · exact ih _ b1 b2 b3
  induction n generalizing s with
  | zero =>
    obtain ⟨sol, lam, co, dn, red, out, ls⟩ := s
    dsimp only at h1 h2 h3
    subst h1
    exact (inner 10 _ rfl h2 h3).1
  | succ n ih =>
    have e : normalEq vs s.sol = normalEq vs x := by rw [h1]
    simp only [outerLoop]
    rw [e]
    obtain ⟨i1, i2, i3⟩ := inner 10 { s with outer := s.outer + 1 } h1 h2 h3
    split
    · exact ih _ i1 i2 i3
    · exact i1

end generic

theorem toPoint_toParam (p : Vec3 ℝ) (h : p.z ≠ 0) : toPoint (toParam p) = p := by
  apply Vec3.ext <;> simp only [toPoint, toParam, ScalarFn.lit_real, Rat.cast_one] <;> field_simp

theorem cost_nonneg (vs : List (View ℝ)) (p : Vec3 ℝ) : 0 ≤ cost vs p := by
  have : ∀ (us : List (View ℝ)) (c : ℝ), 0 ≤ c → 0 ≤ us.foldl (fun c v => c + residual v.q v.p p v.n) c := by
    intro us
    induction us with
    | nil => intro c hc; exact hc
    | cons v us ih =>
      intro c hc
      refine ih _ (add_nonneg hc ?_)
      unfold residual Vec2.sqNorm
      exact add_nonneg (mul_self_nonneg _) (mul_self_nonneg _)
  exact this vs 0 le_rfl

/-- C90: a start that fits all observations exactly is returned unchanged, for every linear solver. -/
theorem C90_exact_start (ext : Ext ℝ) (qs : List (Quat ℝ)) (ps : List (Vec3 ℝ)) (ns : List (Vec2 ℝ)) (pw : Vec3 ℝ) (hz : pw.z ≠ 0) (vs : List (View ℝ)) (hv : views qs ps ns = .ok vs)
    (hx : ∀ v ∈ vs, residual v.q v.p pw v.n = 0) : iterative ext qs ps ns pw = .ok (true, pw) := by
  have h0 : cost vs pw = 0 := by
    have : ∀ (us : List (View ℝ)), (∀ v ∈ us, residual v.q v.p pw v.n = 0) → us.foldl (fun c v => c + residual v.q v.p pw v.n) 0 = 0 := by
      intro us hu
      induction us with
      | nil => rfl
      | cons v us ih =>
        rw [List.foldl_cons, hu v List.mem_cons_self, add_zero]
        exact ih fun u hu' => hu u (List.mem_cons_of_mem _ hu')
    exact this vs hx
  have := stuck ext vs (toParam pw) 0 (fun _ => True) (fun _ _ => trivial) (fun l _ => by
    simpa using cost_nonneg vs _) 10 (lmInit vs pw) rfl h0 trivial
  unfold iterative
  rw [hv]
  show Res.ok (true, toPoint (outerLoop ext vs 10 (lmInit vs pw)).sol) = _
  rw [this, toPoint_toParam pw hz]

/-! ### The weights are defeated by the acceptance test -/

/-- Four cameras at one place; three see the point slightly to the left and one far to the right. -/
noncomputable def wNs : List (Vec2 ℝ) := [⟨-9 / 1000, 0⟩, ⟨-9 / 1000, 0⟩, ⟨-9 / 1000, 0⟩, ⟨1 / 2, 0⟩]

noncomputable def wViews : List (View ℝ) := wNs.map fun n => ⟨.one, 0, n⟩

theorem wViews_eq : views [.one, .one, .one, .one] [0, 0, 0, 0] wNs = .ok wViews := by
  have e1 : (Quat.one : Quat ℝ).inverse = .one := by simp [Quat.inverse, Quat.one, Quat.sqNorm]
  have e2 : (Quat.one : Quat ℝ).rotate (-0) = 0 := by rw [Quat.rotate_one]; apply Vec3.ext <;> simp
  simp only [views, wNs, e1, e2, Res.bind_ok, wViews, List.map_cons, List.map_nil]

theorem w_error (n : Vec2 ℝ) (a : ℝ) (x : Vec3 ℝ) (hx : x = ⟨a, 0, 1⟩) : (⟨.one, 0, n⟩ : View ℝ).sight.error x = ⟨a - n.x, -n.y⟩ := by
  subst hx
  simp [View.sight, Sight.error, Quat.rotate_one]

theorem w_jac : jacobian (.one : Quat ℝ) 0 ⟨0, 0, 1⟩ = ⟨⟨1, 0, 0⟩, ⟨0, 1, 0⟩⟩ := by
  simp [jacobian, hvec, Quat.toMat, Quat.one, Mat3.mulVec, Vec3.dot]
  constructor <;> apply Vec3.ext <;> simp

theorem norm_x (x : ℝ) : (⟨x, 0⟩ : Vec2 ℝ).norm = |x| := by
  simp only [Vec2.norm, Vec2.sqNorm, ScalarFn.sqrt_real]
  rw [show x * x + 0 * 0 = x * x by ring, Real.sqrt_mul_self_eq_abs]

theorem w_small : weight (⟨9 / 1000, 0⟩ : Vec2 ℝ) = 1 := C90_weight_small _ (by rw [norm_x, abs_of_pos (by norm_num)]; norm_num)

theorem w_large : weight (⟨-(1 / 2), 0⟩ : Vec2 ℝ) ^ 2 = 1 / 25 := by
  have h : (⟨-(1 / 2), 0⟩ : Vec2 ℝ).norm = 1 / 2 := by rw [norm_x, abs_neg, abs_of_pos (by norm_num)]
  have := (C90_weight_large (⟨-(1 / 2), 0⟩ : Vec2 ℝ) (by rw [h]; norm_num)).2
  rw [h] at this
  linarith

theorem w_normal (c d : Vec3 ℝ) : c.dot ((normalEq wViews ⟨0, 0, 1⟩).1.mulVec d) = 76 / 25 * (c.x * d.x + c.y * d.y) ∧ d.dot (normalEq wViews ⟨0, 0, 1⟩).2 = 7 / 1000 * d.x := by
  obtain ⟨h1, h2⟩ := C90_normal wViews ⟨0, 0, 1⟩ c d
  rw [h1, h2]
  simp only [wViews, wNs, List.map_cons, List.map_nil, List.sum_cons, List.sum_nil, w_error _ 0 _ rfl, w_jac]
  have e1 : (⟨0 - -9 / 1000, -0⟩ : Vec2 ℝ) = ⟨9 / 1000, 0⟩ := by norm_num
  have e2 : (⟨0 - 1 / 2, -0⟩ : Vec2 ℝ) = ⟨-(1 / 2), 0⟩ := by norm_num
  rw [e1, e2, w_small, w_large]
  simp only [dot2, Mat23.mulVec, Vec3.dot]
  constructor <;> ring

/-- C90: robust steps can all be rejected by the plain cost.  For every correct solver the triangulation of these observations returns its start, although the weighted sum of squared errors,
which the steps minimise, is smaller elsewhere and its gradient at the start is not zero. -/
theorem C90_robust_rejected (ext : Ext ℝ) (hs : Solves3 ext.ldlt3) :
    views [.one, .one, .one, .one] [0, 0, 0, 0] wNs = .ok wViews ∧ iterative ext [.one, .one, .one, .one] [0, 0, 0, 0] wNs ⟨0, 0, 1⟩ = .ok (true, ⟨0, 0, 1⟩) ∧
    (normalEq wViews ⟨0, 0, 1⟩).2 ≠ 0 ∧ weighted (withWeights wViews ⟨0, 0, 1⟩) ⟨-1 / 1000, 0, 1⟩ < weighted (withWeights wViews ⟨0, 0, 1⟩) ⟨0, 0, 1⟩ := by
  have e1 : (⟨0 - -9 / 1000, -0⟩ : Vec2 ℝ) = ⟨9 / 1000, 0⟩ := by norm_num
  have e2 : (⟨0 - 1 / 2, -0⟩ : Vec2 ℝ) = ⟨-(1 / 2), 0⟩ := by norm_num
  have hp : toParam (⟨0, 0, 1⟩ : Vec3 ℝ) = ⟨0, 0, 1⟩ := by simp [toParam]
  have hq : toPoint (⟨0, 0, 1⟩ : Vec3 ℝ) = ⟨0, 0, 1⟩ := by simp [toPoint]
  refine ⟨wViews_eq, ?_, ?_, ?_⟩
  · have hc : ∀ a : ℝ, cost wViews (toPoint ⟨a, 0, 1⟩) = 3 * (a + 9 / 1000) ^ 2 + (a - 1 / 2) ^ 2 := by
      intro a
      rw [C90_cost _ _ (by norm_num)]
      simp only [weighted, wViews, wNs, List.map_cons, List.map_nil, List.sum_cons, List.sum_nil, w_error _ a _ rfl, Vec2.sqNorm]
      ring
    have := stuck ext wViews ⟨0, 0, 1⟩ (cost wViews ⟨0, 0, 1⟩) (fun l => 0 < l) (fun l hl => by
        simp only [ScalarFn.lt_real, ScalarFn.lit_real]
        split
        · exact mul_pos hl (by norm_num)
        · norm_num) (fun l hl => by
        have h1 := hs _ (normalEq wViews ⟨0, 0, 1⟩).2 (C90_posdef wViews ⟨0, 0, 1⟩ l hl)
        generalize ext.ldlt3 ((normalEq wViews ⟨0, 0, 1⟩).1 + Mat3.smul l .one) (normalEq wViews ⟨0, 0, 1⟩).2 = δ at h1
        have h2 : ∀ c : Vec3 ℝ, 76 / 25 * (c.x * δ.x + c.y * δ.y) + l * c.dot δ = 7 / 1000 * c.x := by
          intro c
          rw [← (w_normal c δ).1, ← (w_normal c c).2, ← damped_quad, h1]
        have hx := h2 ⟨1, 0, 0⟩
        have hy := h2 ⟨0, 1, 0⟩
        have hz := h2 ⟨0, 0, 1⟩
        simp only [Vec3.dot] at hx hy hz
        have hx0 : 0 ≤ δ.x := by
          by_contra hneg
          nlinarith
        have hy0 : δ.y = 0 := by
          have : (76 / 25 + l) * δ.y = 0 := by linarith
          rcases mul_eq_zero.1 this with h | h
          · linarith
          · exact h
        have hz0 : δ.z = 0 := by
          have : l * δ.z = 0 := by linarith
          rcases mul_eq_zero.1 this with h | h
          · linarith
          · exact h
        have hd : (⟨0, 0, 1⟩ : Vec3 ℝ) - δ = ⟨-δ.x, 0, 1⟩ := by apply Vec3.ext <;> simp [hy0, hz0]
        rw [hd, hc, ← hq, hc]
        simp only [ScalarFn.lt_real, decide_eq_false_iff_not, not_lt]
        nlinarith) 10 (lmInit wViews ⟨0, 0, 1⟩) hp rfl (by show (0 : ℝ) < ((1 / 1000 : ℚ) : ℝ); norm_num)
    unfold iterative
    rw [wViews_eq]
    show Res.ok (true, toPoint (outerLoop ext wViews 10 (lmInit wViews ⟨0, 0, 1⟩)).sol) = _
    rw [this, hq]
  · intro h
    have := (w_normal 0 ⟨1, 0, 0⟩).2
    rw [h] at this
    norm_num [Vec3.dot] at this
  · simp only [weighted, withWeights, wViews, wNs, List.map_cons, List.map_nil, List.sum_cons, List.sum_nil, w_error _ 0 _ rfl, w_error _ (-1 / 1000) _ rfl]
    rw [e1, e2, w_small, w_large]
    simp only [Vec2.sqNorm]
    norm_num

/-! ### Concrete cases -/

/-- A correct solver exists. -/
theorem exists_solves3 : ∃ f : Mat3 ℝ → Vec3 ℝ → Vec3 ℝ, Solves3 f := by
  classical
  have : ∀ (a : Mat3 ℝ) (b : Vec3 ℝ), ∃ d, PosDef3 a → a.mulVec d = b := by
    intro a b
    by_cases h : PosDef3 a
    · let L : (Fin 3 → ℝ) →ₗ[ℝ] (Fin 3 → ℝ) :=
        { toFun := fun y => ![(a.mulVec ⟨y 0, y 1, y 2⟩).x, (a.mulVec ⟨y 0, y 1, y 2⟩).y, (a.mulVec ⟨y 0, y 1, y 2⟩).z]
          map_add' := by intro y z; funext i; fin_cases i <;> simp [Mat3.mulVec, Vec3.dot] <;> ring
          map_smul' := by intro y z; funext i; fin_cases i <;> simp [Mat3.mulVec, Vec3.dot] <;> ring }
      have hinj : Function.Injective L := by
        rw [injective_iff_map_eq_zero]
        intro y hy
        have h0 : a.mulVec ⟨y 0, y 1, y 2⟩ = 0 := Vec3.ext (congrFun hy 0) (congrFun hy 1) (congrFun hy 2)
        by_contra hne
        have h1 := h.2 ⟨y 0, y 1, y 2⟩ (by
          intro hc
          apply hne
          have hx : y 0 = 0 := congrArg Vec3.x hc
          have hy : y 1 = 0 := congrArg Vec3.y hc
          have hz : y 2 = 0 := congrArg Vec3.z hc
          funext i; fin_cases i <;> assumption)
        rw [h0] at h1
        simp [Vec3.dot] at h1
      obtain ⟨y, hy⟩ := (LinearMap.injective_iff_surjective.1 hinj) ![b.x, b.y, b.z]
      exact ⟨⟨y 0, y 1, y 2⟩, fun _ => Vec3.ext (congrFun hy 0) (congrFun hy 1) (congrFun hy 2)⟩
    · exact ⟨0, fun h' => absurd h' h⟩
  choose f hf using this
  exact ⟨f, fun a b h => hf a b h⟩

/-- C90: the hypotheses of the descent are met by these views and some solver; the step is not zero. -/
example : ∃ solve, Solves3 solve ∧ (∀ v ∈ wViews, v.sight.Visible ⟨0, 0, 1⟩) ∧ solve ((normalEq wViews ⟨0, 0, 1⟩).1 + Mat3.smul (1 / 1000) .one) (normalEq wViews ⟨0, 0, 1⟩).2 ≠ 0 := by
  obtain ⟨f, hf⟩ := exists_solves3
  have hv : ∀ v ∈ wViews, v.sight.Visible ⟨0, 0, 1⟩ := by
    intro v hv
    obtain ⟨n, -, rfl⟩ := List.mem_map.1 hv
    simp [View.sight, Sight.Visible, Quat.rotate_one]
  refine ⟨f, hf, hv, ?_⟩
  intro h
  have := ((C90_descent wViews ⟨0, 0, 1⟩ (1 / 1000) (by norm_num) f hf hv).2).1 h
  have h2 := (w_normal 0 ⟨1, 0, 0⟩).2
  rw [this] at h2
  norm_num [Vec3.dot] at h2

/-- C90: two cameras that see a point exactly. -/
example (ext : Ext ℝ) : iterative ext [.one, .one] [0, ⟨1, 0, 0⟩] [⟨0, 0⟩, ⟨-1 / 4, 0⟩] ⟨0, 0, 4⟩ = .ok (true, ⟨0, 0, 4⟩) := by
  have e1 : (Quat.one : Quat ℝ).inverse = .one := by simp [Quat.inverse, Quat.one, Quat.sqNorm]
  refine C90_exact_start ext _ _ _ _ (by norm_num) [⟨.one, -0, ⟨0, 0⟩⟩, ⟨.one, -⟨1, 0, 0⟩, ⟨-1 / 4, 0⟩⟩] ?_ ?_
  · simp only [views, e1, Res.bind_ok, Quat.rotate_one]
  · intro v hv
    simp only [List.mem_cons, List.not_mem_nil, or_false] at hv
    rcases hv with rfl | rfl <;> simp [residual, Quat.rotate_one, Vec2.sqNorm]

end Vio.Triang
