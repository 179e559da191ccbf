/-
C107: does the triangulated point depend on where the origin of the world is?
With exact observations it does not, with inexact ones it does.
-/
import Verif.Props.TwoViews
import Verif.Lemmas.Svd

namespace Vio
open Spec

namespace Triang

/-- Two views without rotation at `(1, 0, k)` and `(-1, 0, k)`. -/
def pairAt (k : ℝ) : List (Vec3 ℝ) := [⟨1, 0, k⟩, ⟨-1, 0, k⟩]

/-- Their observations of a point near the axis between them.  The second coordinates have opposite signs, so no point has exactly these. -/
noncomputable def pairObs : List (Vec2 ℝ) := [⟨-3/5, 4/5⟩, ⟨3/5, -4/5⟩]

/-- The linear system of the pair. -/
theorem pair_rows (k : ℝ) : ∃ rows, systemRows [(Quat.one : Quat ℝ), .one] (pairAt k) pairObs = .ok rows ∧ ∀ y : Nat → ℝ, imageSq (stack2 rows) y =
    2 * (y 0 ^ 2 + y 1 ^ 2 + (y 2 - k * y 3) ^ 2 - 6 / 5 * ((y 2 - k * y 3) * y 3) + y 3 ^ 2) := by
  refine ⟨_, rfl, fun y => ?_⟩
  have m : (Quat.one : Quat ℝ).inverse.toMat = Mat3.one := by
    rw [Quat.inverse_of_unit _ (by simp [Quat.one, Quat.sqNorm])]
    simp [Quat.one, Quat.toMat, Mat3.one]
  simp [imageSq, stack2, viewRow, m, ex_rot, Finset.sum_range_succ, Mat3.one, Mat3.get, Mat3.row, Vec3.get]
  ring

/-- What the function returns for the pair when the singular vector is usable. -/
theorem pair_result (ext : Ext ℝ) (k : ℝ) (pw : Vec3 ℝ) (rows) (e : systemRows [(Quat.one : Quat ℝ), .one] (pairAt k) pairObs = .ok rows)
    (hbig : 1 / 1000000 ≤ |ext.svdLast (stack2 rows) 3|) (hz : k ≤ ext.svdLast (stack2 rows) 2 / ext.svdLast (stack2 rows) 3) :
    let v := ext.svdLast (stack2 rows)
    analytic ext [.one, .one] (pairAt k) pairObs pw = .ok (true, ⟨v 0 / v 3, v 1 / v 3, v 2 / v 3⟩) := by
  simp only [analytic, e, Res.bind_ok, inFront_ok _ [(Quat.one : Quat ℝ), .one] (pairAt k) (by simp [pairAt])]
  generalize ext.svdLast (stack2 rows) = v at *
  simp only [ScalarFn.fabs_real, ScalarFn.lit_real, ScalarFn.lt_real]
  push_cast
  simp only [not_lt.2 hbig]
  simp [pairAt, ex_rot, hz]

/-- With the origin half way between the views, every correct decomposition gives the point one unit in front. -/
theorem pair_middle (ext : Ext ℝ) (hsvd : ∀ a, a.cols = 4 → IsLastSingular a (ext.svdLast a)) (pw : Vec3 ℝ) :
    analytic ext [.one, .one] (pairAt 0) pairObs pw = .ok (true, ⟨0, 0, 1⟩) := by
  obtain ⟨rows, e, hi⟩ := pair_rows 0
  obtain ⟨hu, hl⟩ := hsvd (stack2 rows) rfl
  have hr := pair_result ext 0 pw rows e
  generalize ext.svdLast (stack2 rows) = v at *
  have h2 : (√2 / 2) ^ 2 = (1 / 2 : ℝ) := by
    rw [div_pow, Real.sq_sqrt (by norm_num)]
    norm_num
  have := hl (fun j => if j = 2 ∨ j = 3 then √2 / 2 else 0) (by simp [Finset.sum_range_succ]; linarith)
  rw [hi, hi] at this
  simp only [Finset.sum_range_succ, Finset.sum_range_zero] at hu
  simp at this
  have key : 7 * (v 0 ^ 2 + v 1 ^ 2) + 3 * (v 2 - v 3) ^ 2 ≤ 0 := by nlinarith
  have p0 := sq_nonneg (v 0)
  have p1 := sq_nonneg (v 1)
  have p2 := sq_nonneg (v 2 - v 3)
  have z0 : v 0 = 0 := by
    have : v 0 ^ 2 = 0 := by linarith
    simpa using this
  have z1 : v 1 = 0 := by
    have : v 1 ^ 2 = 0 := by linarith
    simpa using this
  have z2 : v 2 = v 3 := by
    have : (v 2 - v 3) ^ 2 = 0 := by linarith
    have : v 2 - v 3 = 0 := by simpa using this
    linarith
  rw [z0, z1, z2] at hu
  have n3 : v 3 ^ 2 = 1 / 2 := by linarith
  have h3 : v 3 ≠ 0 := by
    intro h
    rw [h] at n3
    norm_num at n3
  have hbig : 1 / 1000000 ≤ |v 3| := by
    rw [← sq_abs] at n3
    nlinarith [abs_nonneg (v 3)]
  rw [hr hbig (by rw [z2, div_self h3]; norm_num), z0, z1, z2, div_self h3, zero_div]

/-- With the origin moved one unit towards the point, every correct decomposition accepts a point at most a quarter of a unit in front. -/
theorem pair_moved (ext : Ext ℝ) (hsvd : ∀ a, a.cols = 4 → IsLastSingular a (ext.svdLast a)) (pw : Vec3 ℝ) :
    ∃ y : Vec3 ℝ, analytic ext [.one, .one] (pairAt (-1)) pairObs pw = .ok (true, y) ∧ -1 ≤ y.z ∧ y.z ≤ -3/4 := by
  obtain ⟨rows, e, hi⟩ := pair_rows (-1)
  obtain ⟨hu, hl⟩ := hsvd (stack2 rows) rfl
  have hr := pair_result ext (-1) pw rows e
  generalize ext.svdLast (stack2 rows) = v at *
  have := hl (fun j => if j = 2 then -3/5 else if j = 3 then 4/5 else 0) (by norm_num [Finset.sum_range_succ])
  rw [hi, hi] at this
  simp only [Finset.sum_range_succ, Finset.sum_range_zero] at hu
  norm_num at this
  have key : 64 * (v 0 ^ 2 + v 1 ^ 2 + v 2 ^ 2) + 100 * (v 2 * v 3) + 39 * v 3 ^ 2 ≤ 0 := by nlinarith
  have p0 := sq_nonneg (v 0)
  have p1 := sq_nonneg (v 1)
  have h3 : 0 < v 3 ^ 2 := by
    rcases (sq_nonneg (v 3)).lt_or_eq with h | h
    · exact h
    · have h0 : v 3 = 0 := by simpa using h.symm
      rw [h0] at key hu
      nlinarith
  have h3' : v 3 ≠ 0 := by
    intro h
    rw [h] at h3
    norm_num at h3
  have es : v 2 = v 2 / v 3 * v 3 := by field_simp
  have main : ∀ s : ℝ, v 2 = s * v 3 → 1 / 1000000 ≤ |v 3| ∧ -1 ≤ s ∧ s ≤ -3/4 := by
    intro s es
    rw [es] at key hu
    have q : 64 * s ^ 2 + 100 * s + 39 ≤ 0 := by
      have : (64 * s ^ 2 + 100 * s + 39) * v 3 ^ 2 ≤ 0 := by nlinarith
      by_contra hc
      have := mul_pos (not_le.1 hc) h3
      linarith
    refine ⟨?_, by nlinarith, by nlinarith⟩
    have : 1 ≤ 100 * v 3 ^ 2 := by nlinarith
    rw [← sq_abs] at this
    nlinarith [abs_nonneg (v 3)]
  obtain ⟨m1, m2, m3⟩ := main _ es
  exact ⟨_, hr m1 m2, m2, m3⟩

/-- C107 is false for inexact observations: there are two views with unit quaternions and a displacement of the whole world such that every correct decomposition accepts a point in both
worlds, one unit in front of the cameras in the first and at most a quarter of a unit in the second. -/
theorem C107_origin_matters : ∃ (qs : List (Quat ℝ)) (ps : List (Vec3 ℝ)) (ns : List (Vec2 ℝ)) (d : Vec3 ℝ), (∀ q ∈ qs, q.sqNorm = 1) ∧
    ∀ ext : Ext ℝ, (∀ a, a.cols = 4 → IsLastSingular a (ext.svdLast a)) → ∀ pw pw', ∃ x y, analytic ext qs ps ns pw = .ok (true, x) ∧
      analytic ext qs (ps.map (· + d)) ns pw' = .ok (true, y) ∧ (∀ v ∈ qs.zip ps, depth v.1 v.2 x = 1) ∧ ∀ v ∈ qs.zip (ps.map (· + d)), depth v.1 v.2 y ≤ 1 / 4 := by
  refine ⟨[.one, .one], pairAt 0, pairObs, ⟨0, 0, -1⟩, by simp [Quat.one, Quat.sqNorm], fun ext hsvd pw pw' => ?_⟩
  have e : (pairAt 0).map (· + (⟨0, 0, -1⟩ : Vec3 ℝ)) = pairAt (-1) := by
    simp only [pairAt, List.map_cons, List.map_nil, List.cons.injEq, and_true]
    constructor <;> apply Vec3.ext <;> simp
  obtain ⟨y, hy, -, h2⟩ := pair_moved ext hsvd pw'
  refine ⟨⟨0, 0, 1⟩, y, pair_middle ext hsvd pw, by rw [e]; exact hy, ?_, ?_⟩
  · simp [pairAt, depth, ex_rot]
  · rw [e]
    simp [pairAt, depth, ex_rot]
    linarith

/-- A correct decomposition for the theorem above exists. -/
example : ∃ ext : Ext ℝ, ∀ a, a.cols = 4 → IsLastSingular a (ext.svdLast a) := by
  obtain ⟨f, hf⟩ := exists_svd
  exact ⟨⟨f, fun _ v => v, fun _ v => v, fun _ _ _ => 0, fun _ _ => 0, fun _ _ _ => 0⟩, fun a _ => hf a⟩

/-- C107 for exact observations: views with unit quaternions that see the point in front of them, two of them along rays that are not parallel, give the point in the world as it is and the
displaced point in the displaced world.  Missing: inexact observations, `C107_origin_matters`, and points further than a million units from either origin, `C54_far_point_rejected`. -/
theorem C107_exact_partial (ext : Ext ℝ) (qs : List (Quat ℝ)) (ps : List (Vec3 ℝ)) (ns : List (Vec2 ℝ)) (pw pw' x d : Vec3 ℝ) (h1 : qs.length = ps.length) (h2 : qs.length = ns.length)
    (hobs : ∀ i (hi : i < qs.length), ExactObs qs[i] (ps[i]'(h1 ▸ hi)) x (ns[i]'(h2 ▸ hi)) ∧ 0 < depth qs[i] (ps[i]'(h1 ▸ hi)) x)
    (hsvd : ∀ a, IsLastSingular a (ext.svdLast a)) (i j : Nat) (hi : i < qs.length) (hj : j < qs.length) (ui : qs[i].sqNorm = 1) (uj : qs[j].sqNorm = 1)
    (hray : (x - ps[i]'(h1 ▸ hi)).cross (x - ps[j]'(h1 ▸ hj)) ≠ 0) (hnear : 1 + x.sqNorm ≤ 1000000 ^ 2) (hnear' : 1 + (x + d).sqNorm ≤ 1000000 ^ 2) :
    analytic ext qs ps ns pw = .ok (true, x) ∧ analytic ext qs (ps.map (· + d)) ns pw' = .ok (true, x + d) := by
  have hd : ∀ p : Vec3 ℝ, x + d - (p + d) = x - p := fun p => by
    apply Vec3.ext <;> simp
  refine ⟨C54_two_rays_partial ext qs ps ns pw x h1 h2 hobs hsvd i j hi hj ui uj hray hnear, ?_⟩
  refine C54_two_rays_partial ext qs (ps.map (· + d)) ns pw' (x + d) (by simpa using h1) h2 (fun k hk => ?_) hsvd i j hi hj ui uj ?_ hnear'
  · simpa [ExactObs, depth, hd] using hobs k hk
  · simpa [hd] using hray

/-- The hypotheses of `C107_exact_partial` are met by two views of `(0, 0, 2)`, with the world moved by ten units. -/
example : ∃ ext : Ext ℝ, analytic ext [.one, .one] [0, ⟨1, 0, 0⟩] [⟨0, 0⟩, exN 2] 0 = .ok (true, ⟨0, 0, 2⟩) ∧
    analytic ext [.one, .one] ([0, ⟨1, 0, 0⟩].map (· + ⟨10, 0, 0⟩)) [⟨0, 0⟩, exN 2] 0 = .ok (true, ⟨0, 0, 2⟩ + ⟨10, 0, 0⟩) := by
  obtain ⟨f, hf⟩ := exists_svd
  refine ⟨⟨f, fun _ v => v, fun _ v => v, fun _ _ _ => 0, fun _ _ => 0, fun _ _ _ => 0⟩, C107_exact_partial _ _ _ _ 0 0 ⟨0, 0, 2⟩ ⟨10, 0, 0⟩ rfl rfl (ex_obs 2 (by norm_num)) hf 0 1
    (by simp) (by simp) (by simp [Quat.one, Quat.sqNorm]) (by simp [Quat.one, Quat.sqNorm]) ?_ (by norm_num [Vec3.sqNorm]) (by norm_num [Vec3.sqNorm])⟩
  intro h
  have := congrArg Vec3.y h
  norm_num [Vec3.cross] at this

end Triang
end Vio
