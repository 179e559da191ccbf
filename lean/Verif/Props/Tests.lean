/-
C103, C104: what the two smaller test programs can show.
-/
import Verif.Model.Tests
import Verif.Props.TwoViews
import Verif.Props.Rotation
import Verif.Props.Pnp
import Verif.Lemmas.Svd
import Mathlib.Analysis.SpecialFunctions.Trigonometric.Bounds

set_option linter.unusedSectionVars false

namespace Vio
open Spec

namespace Tests

/-- The real sine and cosine. -/
noncomputable def trig : Trig ℝ := ⟨Real.sin, Real.cos⟩

/-! ### C103 -/

theorem rcw_eq (n : Nat) : rcw trig n = ⟨⟨Real.cos (theta n), -Real.sin (theta n), 0⟩, ⟨Real.sin (theta n), Real.cos (theta n), 0⟩, ⟨0, 0, 1⟩⟩ := by
  simp [rcw, angleAxis, trig, lit]

/-- C103, the poses: the matrix built from an angle and a unit axis turns about this axis by this angle, as the quaternion of half the angle does. -/
theorem C103_rotation (a : ℝ) (u : Vec3 ℝ) (hu : u.x * u.x + u.y * u.y + u.z * u.z = 1) :
    angleAxis trig a u = (⟨Real.cos (a / 2), Real.sin (a / 2) * u.x, Real.sin (a / 2) * u.y, Real.sin (a / 2) * u.z⟩ : Quat ℝ).toMat := by
  have h1 : Real.sin a = 2 * Real.sin (a / 2) * Real.cos (a / 2) := by rw [← Real.sin_two_mul]; congr 1; ring
  have h2 : Real.cos a = 2 * Real.cos (a / 2) ^ 2 - 1 := by rw [← Real.cos_two_mul]; congr 1; ring
  have h3 := Real.sin_sq_add_cos_sq (a / 2)
  generalize Real.sin (a / 2) = s at *
  generalize Real.cos (a / 2) = c at *
  obtain ⟨x, y, z⟩ := u
  dsimp only at hu
  simp only [angleAxis, trig, Quat.toMat, lit, Vec3.smul, h1, h2, Mat3.mk.injEq, Vec3.mk.injEq]
  push_cast
  refine ⟨⟨?_, ?_, ?_⟩, ⟨?_, ?_, ?_⟩, ⟨?_, ?_, ?_⟩⟩
  · linear_combination (2 - 2 * x * x) * h3 + 2 * s ^ 2 * hu
  · linear_combination (-2 * x * y) * h3
  · linear_combination (-2 * x * z) * h3
  · linear_combination (-2 * x * y) * h3
  · linear_combination (2 - 2 * y * y) * h3 + 2 * s ^ 2 * hu
  · linear_combination (-2 * y * z) * h3
  · linear_combination (-2 * x * z) * h3
  · linear_combination (-2 * y * z) * h3
  · linear_combination (2 - 2 * z * z) * h3 + 2 * s ^ 2 * hu

/-- A turn by a third about the axis of the test. -/
example : angleAxis trig (2 * Real.pi / 3) ⟨0, 0, 1⟩ = (⟨Real.cos (2 * Real.pi / 3 / 2), Real.sin (2 * Real.pi / 3 / 2) * 0, Real.sin (2 * Real.pi / 3 / 2) * 0, Real.sin (2 * Real.pi / 3 / 2) * 1⟩ : Quat ℝ).toMat :=
  C103_rotation _ ⟨0, 0, 1⟩ (by norm_num)

theorem rcw_rot (n : Nat) : IsRot (rcw trig n).transpose := by
  have h := Real.sin_sq_add_cos_sq (theta n)
  rw [rcw_eq]
  constructor <;> simp [Mat3.transpose] <;> nlinarith

theorem theta_range (n : Nat) (hn : n < 6) : (0 : ℝ) ≤ theta n ∧ theta n ≤ (1 : ℝ) / 2 := by
  have : (n : ℝ) ≤ 5 := by exact_mod_cast (by omega : n ≤ 5)
  have h0 : (0 : ℝ) ≤ n := by positivity
  simp only [theta, mPi, lit]
  push_cast
  constructor
  · positivity
  · linarith

/-- The quaternion of a pose turns vectors back as the matrix does. -/
theorem quat_turn (n : Nat) : (Quat.ofMat (rcw trig n).transpose).sqNorm = 1 ∧ ∀ v, (Quat.ofMat (rcw trig n).transpose).inverse.rotate v = (rcw trig n).mulVec v := by
  obtain ⟨h1, h2⟩ := C94_matrix _ (rcw_rot n)
  refine ⟨h2, fun v => ?_⟩
  set q := Quat.ofMat (rcw trig n).transpose
  have hu : q.inverse.sqNorm = 1 := by rw [Quat.inverse_of_unit q h2]; simp only [Quat.sqNorm] at h2 ⊢; linarith
  have e : v = q.rotate ((rcw trig n).mulVec v) := by
    rw [← Quat.toMat_mulVec, h1, rcw_eq]
    have h := Real.sin_sq_add_cos_sq (theta n)
    apply Vec3.ext <;> simp [Mat3.mulVec, Mat3.transpose, Vec3.dot]
    · linear_combination (-v.x) * h
    · linear_combination (-v.y) * h
  conv_lhs => rw [e, ← Quat.rotate_mul _ _ hu h2, Quat.inverse_mul_of_unit q h2, Quat.rotate_one]

theorem center_eq (n : Nat) : (-(rcw trig n).transpose).mulVec (pcw trig n) = ⟨8 * Real.cos (theta n) - 8, -8 * Real.sin (theta n), -Real.sin (2 * theta n)⟩ := by
  have h := Real.sin_sq_add_cos_sq (theta n)
  rw [rcw_eq]
  apply Vec3.ext <;> simp [Mat3.mulVec, Mat3.transpose, Vec3.dot, pcw, trig, lit]
  · linear_combination (-8) * h
  · ring

/-- Every pose of the test sees the point exactly and in front of it. -/
theorem tri_exact (n : Nat) (hn : n < 6) : let q := Quat.ofMat (rcw trig n).transpose; let p := (-(rcw trig n).transpose).mulVec (pcw trig n)
    ExactObs q p ⟨2, 2, 2⟩ (triObs trig n) ∧ 0 < depth q p ⟨2, 2, 2⟩ := by
  dsimp only
  obtain ⟨t0, t1⟩ := theta_range n hn
  have hsin : 0 ≤ Real.sin (2 * theta n) := Real.sin_nonneg_of_nonneg_of_le_pi (by linarith) (by have := Real.two_le_pi; linarith)
  have e : (Quat.ofMat (rcw trig n).transpose).inverse.rotate ((⟨2, 2, 2⟩ : Vec3 ℝ) - (-(rcw trig n).transpose).mulVec (pcw trig n)) =
      (rcw trig n).mulVec ⟨2, 2, 2⟩ + pcw trig n := by
    rw [(quat_turn n).2, center_eq, rcw_eq]
    have h := Real.sin_sq_add_cos_sq (theta n)
    apply Vec3.ext <;> simp [Mat3.mulVec, Vec3.dot, pcw, trig, lit]
    · linear_combination (-8) * h
    · ring
  have hz : ((rcw trig n).mulVec ⟨2, 2, 2⟩ + pcw trig n).z = 2 + Real.sin (2 * theta n) := by
    rw [rcw_eq]
    simp [Mat3.mulVec, Vec3.dot, pcw, trig, lit]
  refine ⟨?_, ?_⟩
  · unfold ExactObs
    dsimp only
    rw [e]
    have hp : (ptrue : Vec3 ℝ) = ⟨2, 2, 2⟩ := by simp [ptrue, lit]
    refine ⟨by rw [hz]; positivity, ?_, ?_⟩ <;> simp only [triObs, hp]
  · unfold depth
    rw [e, hz]
    positivity

/-- C103: with a singular value decomposition that meets its specification the first part of the triangulation test prints the set point and the same point as the result. -/
theorem C103_analytic (ext : Ext ℝ) (hsvd : ∀ a, IsLastSingular a (ext.svdLast a)) (junk : Vec3 ℝ) : testAnalytic ext trig junk = .ok (⟨2, 2, 2⟩, ⟨2, 2, 2⟩) := by
  have hp : (ptrue : Vec3 ℝ) = ⟨2, 2, 2⟩ := by simp [ptrue, lit]
  obtain ⟨t0, t1⟩ := theta_range 1 (by omega)
  have htpos : (0 : ℝ) < theta 1 := by
    simp only [theta, mPi, lit]
    push_cast
    positivity
  have hray : 0 < Real.cos (theta 1) - 1 + Real.sin (theta 1) := by
    have h1 := Real.one_sub_sq_div_two_le_cos (x := theta 1)
    have h2 := Real.sin_gt_sub_cube htpos
    have h3 : (theta 1 : ℝ) ^ 3 = theta 1 * theta 1 ^ 2 := by ring
    nlinarith
  have h : Triang.analytic ext (triViews trig).1 (triViews trig).2.1 (triViews trig).2.2 junk = .ok (true, ⟨2, 2, 2⟩) := by
    refine Triang.C54_two_rays_partial ext _ _ _ junk ⟨2, 2, 2⟩ (by simp [triViews]) (by simp [triViews]) ?_ hsvd 0 1 (by simp [triViews]) (by simp [triViews]) ?_ ?_ ?_ ?_
    · intro i hi
      have hi6 : i < 6 := by simpa [triViews] using hi
      simpa [triViews] using tri_exact i hi6
    · simpa [triViews] using (quat_turn 0).1
    · simpa [triViews] using (quat_turn 1).1
    · intro hc
      have := congrArg Vec3.z hc
      simp only [triViews, List.getElem_map, List.getElem_range, center_eq] at this
      have t00 : (theta 0 : ℝ) = 0 := by simp [theta, lit]
      simp only [t00, Vec3.cross_z, Vec3.sub_x, Vec3.sub_y, Real.cos_zero, Real.sin_zero, Vec3.zero_z] at this
      linarith
    · norm_num [Vec3.sqNorm]
  rw [testAnalytic]
  rw [h, Res.bind_ok, hp]

section generic
variable {K : Type} [Add K] [Sub K] [Mul K] [Neg K] [Div K] [Zero K] [One K] [ScalarFn K]

/-- C103: whatever scalars, trigonometry and solver do, the second part prints the same point twice. -/
theorem C103_iterative (ext : Ext K) (tr : Trig K) : ∃ p, testIterative ext tr = .ok (p, p) := by
  obtain ⟨p, h⟩ := Triang.C55_defined ext (triViews tr).1 (triViews tr).2.1 (triViews tr).2.2 (ptrue + ⟨lit (4/10), lit (4/10), lit (4/10)⟩) (by simp [triViews]) (by simp [triViews])
  refine ⟨p, ?_⟩
  rw [testIterative]
  rw [h, Res.bind_ok]

end generic

/-- C103: so it does not show a solver that does nothing: the start point is printed as the set point, which is another one. -/
theorem C103_iterative_blind (ext : Ext ℝ) (h0 : ∀ a b, ext.ldlt3 a b = 0) : testIterative ext trig = .ok (⟨12/5, 12/5, 12/5⟩, ⟨12/5, 12/5, 12/5⟩) ∧ (ptrue : Vec3 ℝ) = ⟨2, 2, 2⟩ := by
  refine ⟨?_, by simp [ptrue, lit]⟩
  have hs : (ptrue : Vec3 ℝ) + ⟨lit (4/10), lit (4/10), lit (4/10)⟩ = ⟨12/5, 12/5, 12/5⟩ := by
    apply Vec3.ext <;> simp [ptrue, lit] <;> norm_num
  obtain ⟨p, h⟩ := Triang.C55_defined ext (triViews trig).1 (triViews trig).2.1 (triViews trig).2.2 ⟨12/5, 12/5, 12/5⟩ (by simp [triViews]) (by simp [triViews])
  have hp : p = ⟨12/5, 12/5, 12/5⟩ := by
    rw [Triang.iterative] at h
    obtain ⟨vs, -, h⟩ := Res.bind_eq_ok.1 h
    simp only [Res.ok.injEq, Prod.mk.injEq, true_and] at h
    have key : ∀ n (s : Triang.LM ℝ), (Triang.outerLoop ext vs n s).sol = s.sol := by
      have hb : ∀ ab (s : Triang.LM ℝ), (Triang.innerBody ext vs ab s).sol = s.sol := by
        intro ab s
        unfold Triang.innerBody
        dsimp only
        have : s.sol - (0 : Vec3 ℝ) = s.sol := by apply Vec3.ext <;> simp
        split <;> simp [h0, this]
      have hi : ∀ ab n (s : Triang.LM ℝ), (Triang.innerLoop ext vs ab n s).sol = s.sol := by
        intro ab n
        induction n with
        | zero => intro s; exact hb ab s
        | succ n ih =>
          intro s
          rw [Triang.innerLoop]
          split
          · exact hb ab s
          · rw [ih, hb]
      intro n
      induction n with
      | zero => intro s; rw [Triang.outerLoop, hi]
      | succ n ih =>
        intro s
        rw [Triang.outerLoop]
        split
        · rw [ih, hi]
        · rw [hi]
    rw [key] at h
    rw [← h]
    simp [Triang.lmInit, Triang.toParam, Triang.toPoint, lit]
  subst hp
  rw [testIterative]
  rw [hs, h, Res.bind_ok]

/-- C103 is not empty: a decomposition that meets its specification exists. -/
example : ∃ ext : Ext ℝ, ∀ junk, testAnalytic ext trig junk = .ok (⟨2, 2, 2⟩, ⟨2, 2, 2⟩) := by
  obtain ⟨f, hf⟩ := exists_svd
  exact ⟨⟨f, fun _ b => b, fun _ b => b, fun _ _ _ => 0, fun _ _ => 0, fun _ _ _ => 0⟩, C103_analytic _ hf⟩

/-! ### C104 -/

section generic
variable {K : Type} [Add K] [Sub K] [Mul K] [Neg K] [Div K] [Zero K] [One K] [ScalarFn K]

theorem cloud_length : (cloud : List (Vec3 K)).length = 729 := by simp [cloud, List.length_flatMap]

theorem mem_cloud (x : Vec3 K) : x ∈ (cloud : List (Vec3 K)) ↔ ∃ i j k : Nat, (1 ≤ i ∧ i ≤ 9) ∧ (1 ≤ j ∧ j ≤ 9) ∧ (1 ≤ k ∧ k ≤ 9) ∧ x = ⟨lit i, lit j, lit ((k : ℚ) * 2)⟩ := by
  simp only [cloud, List.mem_flatMap, List.mem_map, List.mem_range'_1]
  constructor
  · rintro ⟨i, hi, j, hj, k, hk, rfl⟩
    exact ⟨i, j, k, by omega, by omega, by omega, rfl⟩
  · rintro ⟨i, j, k, hi, hj, hk, rfl⟩
    exact ⟨i, by omega, j, by omega, k, by omega, rfl⟩

theorem spoil_get (rnd : Nat → Nat) (size : Nat) (hs : 0 < size) (n : Nat) : ∀ (pos : Nat) (l : List (Vec2 K)), l.length = size → ∃ l', spoil rnd size n pos l = .ok l' ∧ l'.length = size ∧
    ∀ k : Nat, l'[k]? = if (∃ m < n, rnd (pos + m) % size = k) then (l[k]?).map (fun y => ⟨lit 10, y.y⟩) else l[k]? := by
  induction n with
  | zero => intro pos l hl; exact ⟨l, rfl, hl, by simp⟩
  | succ n ih =>
    intro pos l hl
    have hi : rnd pos % size < l.length := by rw [hl]; exact Nat.mod_lt _ hs
    obtain ⟨l', h1, h2, h3⟩ := ih (pos + 1) (l.set (rnd pos % size) ⟨lit 10, l[rnd pos % size].y⟩) (by simpa using hl)
    refine ⟨l', ?_, h2, fun k => ?_⟩
    · rw [spoil]
      simp only [idx, List.getElem?_eq_getElem hi, Res.bind_ok]
      exact h1
    · rw [h3]
      by_cases hk : rnd pos % size = k
      · subst hk
        rw [if_pos (⟨0, by omega, rfl⟩ : ∃ m < n + 1, rnd (pos + m) % size = rnd pos % size)]
        simp [List.getElem?_set_self hi, List.getElem?_eq_getElem hi]
      · have e : (∃ m < n + 1, rnd (pos + m) % size = k) ↔ ∃ m < n, rnd (pos + 1 + m) % size = k := by
          constructor
          · rintro ⟨m, hm, h⟩
            cases m with
            | zero => exact absurd h hk
            | succ m => exact ⟨m, by omega, by rw [← h]; congr 2; omega⟩
          · rintro ⟨m, hm, h⟩
            exact ⟨m + 1, by omega, by rw [← h]; congr 2; omega⟩
        simp only [e, List.getElem?_set_ne hk]

/-- Which pairs the test spoils. -/
def Hit (rnd : Nat → Nat) (k : Nat) : Prop := ∃ m < 7, rnd m % 729 = k

instance (rnd : Nat → Nat) (k : Nat) : Decidable (Hit rnd k) := inferInstanceAs (Decidable (∃ m < 7, rnd m % 729 = k))

/-- C104, data: the observations are those of the cloud, except that at most seven of them, the ones drawn, have 10 as first coordinate. -/
theorem C104_data (rnd : Nat → Nat) : ∃ x2 : List (Vec2 K), sights rnd = .ok x2 ∧ x2.length = 729 ∧
    ∀ k x, (cloud : List (Vec3 K))[k]? = some x → x2[k]? = some (if Hit rnd k then ⟨lit 10, (see x).y⟩ else see x) := by
  obtain ⟨x2, h1, h2, h3⟩ := spoil_get rnd (cloud : List (Vec3 K)).length (by rw [cloud_length]; omega) ((cloud : List (Vec3 K)).length / 100) 0 ((cloud : List (Vec3 K)).map see) (by simp)
  refine ⟨x2, h1, by rw [h2, cloud_length], fun k x hx => ?_⟩
  rw [h3]
  simp only [cloud_length, List.getElem?_map, hx, Option.map_some, Nat.zero_add]
  have e : (∃ m < 729 / 100, rnd m % 729 = k) ↔ Hit rnd k := Iff.rfl
  simp only [e]
  split <;> rfl

/-- C104, end: with a random source that goes on to yield every index the program ends, without undefined behaviour, for every scalar type and linear solver; both plain calls and the
search report success or meet a NaN. -/
theorem C104_ends (ext : Ext K) (rnd : Nat → Nat) (hf : Pnp.Fair rnd 729) : ∃ f0 out, ∀ fuel ≥ f0, testPnp ext rnd fuel = some (.ok out) ∧ out.ransac.1 = true := by
  obtain ⟨x2, h1, h2, -⟩ := C104_data (K := K) rnd
  have hf' : Pnp.Fair (fun n => rnd (n + (cloud : List (Vec3 K)).length / 100)) (cloud : List (Vec3 K)).length := by
    rw [cloud_length]
    intro pos i hi
    obtain ⟨j, hj, e⟩ := hf (pos + 7) i hi
    exact ⟨j - 7, by omega, by rw [← e]; dsimp only; congr 2; omega⟩
  obtain ⟨f0, r, h⟩ := Pnp.C60_terminates_partial ext .default _ cloud x2 ⟨.one, 0⟩ (by rw [cloud_length, h2]) (by rw [cloud_length]; omega) hf'
  refine ⟨f0, ⟨Pnp.estimate ext .default false cloud x2 ⟨.one, 0⟩, Pnp.estimate ext .default true cloud x2 ⟨.one, 0⟩, (true, r)⟩, fun fuel hfu => ⟨?_, rfl⟩⟩
  simp only [testPnp, h1, h fuel hfu]

end generic

/-- The camera of the test. -/
noncomputable def truth : Pose ℝ := ⟨.one, ⟨1, -3, 0⟩⟩

theorem cam_see (x : Vec3 ℝ) : Pnp.toCam truth x = x - ⟨1, -3, 0⟩ ∧ see x = ⟨(x.x - 1) / x.z, (x.y + 3) / x.z⟩ := by
  constructor
  · simp only [Pnp.toCam, truth]
    rw [Quat.inverse_of_unit _ (by simp [Quat.one, Quat.sqNorm])]
    apply Vec3.ext <;> simp [Quat.one, Quat.rotate, Quat.vec]
  · simp [see, camPos, Mat3.one, Mat3.transpose, Mat3.mulVec, Vec3.dot, lit]

/-- Residuals of the pairs at the true pose. -/
theorem truth_res (x : Vec3 ℝ) (hx : x ∈ (cloud : List (Vec3 ℝ))) : 2 ≤ (Pnp.toCam truth x).z ∧ Pnp.res truth x (see x) = ⟨0, 0⟩ ∧ (Pnp.res truth x ⟨lit 10, (see x).y⟩).x ≤ -6 := by
  obtain ⟨i, j, k, hi, hj, hk, rfl⟩ := (mem_cloud x).1 hx
  have i9 : (i : ℝ) ≤ 9 := by exact_mod_cast hi.2
  have k1 : (1 : ℝ) ≤ k := by exact_mod_cast hk.1
  obtain ⟨e1, e2⟩ := cam_see ⟨lit i, lit j, lit ((k : ℚ) * 2)⟩
  have hz : (0 : ℝ) < (k : ℝ) * 2 := by linarith
  refine ⟨?_, ?_, ?_⟩
  · rw [e1]
    simp only [Vec3.sub_z, ScalarFn.lit_real]
    push_cast
    linarith
  · rw [e2]
    simp only [Pnp.res, e1]
    apply Vec2.ext <;> simp
  · simp only [Pnp.res]
    rw [e1]
    simp only [Vec3.sub_x, Vec3.sub_z, ScalarFn.lit_real, Vec2.sub_x]
    push_cast
    have : ((i : ℝ) - 1) / (k * 2 - 0) ≤ 4 := by
      rw [sub_zero, div_le_iff₀ hz]
      linarith
    linarith

theorem score_zip (prm : PnpParam ℝ) (s : Pose ℝ) (n : Nat) (xs : List (Vec3 ℝ)) (ys : List (Vec2 ℝ)) (hx : xs.length = n) (hy : ys.length = n) (P : Nat → Prop) [DecidablePred P]
    (h : ∀ k x y, xs[k]? = some x → ys[k]? = some y → Pnp.isIn prm s (x, y) = decide (P k)) : Pnp.score prm (xs.zip ys) s = ((List.range n).filter (fun k => decide (P k))).length := by
  have hzip : xs.zip ys = (List.range n).map (fun k => ((xs[k]?).getD 0, (ys[k]?).getD ⟨0, 0⟩)) := by
    apply List.ext_getElem
    · simp [hx, hy]
    · intro k h1 h2
      simp at h1
      simp [h1.1, h1.2]
  rw [Pnp.score, hzip, List.filter_map, List.length_map]
  congr 1
  apply List.filter_congr
  intro k hk
  have hk' := List.mem_range.1 hk
  have e1 := List.getElem?_eq_getElem (l := xs) (i := k) (by omega)
  have e2 := List.getElem?_eq_getElem (l := ys) (i := k) (by omega)
  simp only [Function.comp, e1, e2, Option.getD_some]
  exact h k _ _ e1 e2

/-- A model above the inlier rate ends the search. -/
theorem found_of_rate (ext : Ext ℝ) (prm : PnpParam ℝ) (rnd : Nat → Nat) (fuel : Nat) (x3 : List (Vec3 ℝ)) (x2 : List (Vec2 ℝ)) (s t : Pose ℝ) (b : Bool) (out : Pnp.Ransac ℝ) (sc : Nat)
    (hr : Pnp.ransac ext prm rnd fuel x3 x2 s = some (.ok (b, out))) (ht : (t, sc) ∈ out.tried) (hrate : prm.inlierRate < (Pnp.score prm (x3.zip x2) t : ℝ) / x3.length) : out.pose = t := by
  have hnew := Pnp.C61_returns_newest _ _ _ _ _ _ _ _ _ hr
  unfold Pnp.ransac at hr
  split at hr
  · simp only [Option.some.injEq, Res.ok.injEq, Prod.mk.injEq] at hr
    obtain ⟨-, rfl⟩ := hr
    simp at ht
  · split at hr
    · cases hr
    · cases hr
    · rename_i r' hr'
      simp only [Option.some.injEq, Res.ok.injEq, Prod.mk.injEq] at hr
      obtain ⟨-, rfl⟩ := hr
      obtain ⟨a1, a2⟩ := Pnp.ransacLoop_rates ext prm _ fuel x3 x2 _ _ _ _ _ _ hr' (by simp)
      obtain ⟨rp, rt⟩ := r'
      cases rt with
      | nil => simp at ht
      | cons a l =>
        simp only [List.head?_cons, Option.map_some, Option.getD_some] at hnew
        rw [hnew]
        rcases List.mem_cons.1 ht with rfl | ht
        · rfl
        · exfalso
          have b1 := a1 _ ht
          have b2 := a2 _ (List.mem_cons_of_mem _ ht)
          dsimp only at b1 b2
          rw [b2] at b1
          linarith

/-- C104, score: the true pose explains exactly the pairs that were not drawn, so at least 722 of 729. -/
theorem C104_score (rnd : Nat → Nat) (x2 : List (Vec2 ℝ)) (h : sights rnd = .ok x2) :
    Pnp.score .default (cloud.zip x2) truth = ((List.range 729).filter (fun k => decide (¬ Hit rnd k))).length ∧ 722 ≤ Pnp.score .default (cloud.zip x2) truth := by
  obtain ⟨x2', h1, h2, h3⟩ := C104_data (K := ℝ) rnd
  rw [h] at h1
  cases h1
  have hscore := score_zip .default truth 729 cloud x2 cloud_length h2 (fun k => ¬ Hit rnd k) (fun k x y hx hy => by
    rw [h3 k x hx] at hy
    obtain ⟨-, r0, r1⟩ := truth_res x (List.mem_of_getElem? hx)
    by_cases hh : Hit rnd k
    · rw [if_pos hh] at hy
      obtain rfl := Option.some.inj hy
      simp only [hh, not_true, decide_false, Pnp.isIn, PnpParam.default, ScalarFn.lt_real, decide_eq_false_iff_not, not_lt, ScalarFn.lit_real, Vec2.sqNorm]
      simp only [ScalarFn.lit_real] at r1
      push_cast at r1 ⊢
      nlinarith [mul_self_nonneg (Pnp.res truth x ⟨10, (see x).y⟩).y]
    · rw [if_neg hh] at hy
      obtain rfl := Option.some.inj hy
      simp [hh, Pnp.isIn, PnpParam.default, r0, Vec2.sqNorm])
  refine ⟨hscore, ?_⟩
  rw [hscore]
  have hsum := List.length_eq_length_filter_add (l := List.range 729) (fun k => decide (¬ Hit rnd k))
  rw [List.length_range] at hsum
  have hle : ((List.range 729).filter (fun k => !decide (¬ Hit rnd k))).length ≤ 7 := by
    have hnd : ((List.range 729).filter (fun k => !decide (¬ Hit rnd k))).Nodup := List.nodup_range.filter _
    have hsub : ((List.range 729).filter (fun k => !decide (¬ Hit rnd k))) ⊆ (List.range 7).map (fun m => rnd m % 729) := by
      intro k hk
      rw [List.mem_filter] at hk
      have : Hit rnd k := by simpa using hk.2
      obtain ⟨m, hm, e⟩ := this
      exact List.mem_map.2 ⟨m, List.mem_range.2 hm, e⟩
    have := (hnd.subperm hsub).length_le
    simpa using this
  omega

/-- C104, search: if the search ever tries the true pose, it ends there and hands it out. -/
theorem C104_found (ext : Ext ℝ) (rnd : Nat → Nat) (fuel : Nat) (out : PnpOut ℝ) (h : testPnp ext rnd fuel = some (.ok out)) (sc : Nat) (ht : (truth, sc) ∈ out.ransac.2.tried) :
    out.ransac.2.pose = truth := by
  obtain ⟨x2, h1, h2, -⟩ := C104_data (K := ℝ) rnd
  obtain ⟨-, hs⟩ := C104_score rnd x2 h1
  simp only [testPnp, h1] at h
  split at h
  · cases h
  · cases h
  · rename_i r hr
    obtain rfl := Res.ok.inj (Option.some.inj h)
    obtain ⟨good, r⟩ := r
    refine found_of_rate ext .default _ fuel cloud x2 _ truth good r sc hr ht ?_
    rw [cloud_length, lt_div_iff₀ (by norm_num)]
    have : (722 : ℝ) ≤ (Pnp.score (PnpParam.default : PnpParam ℝ) ((cloud : List (Vec3 ℝ)).zip x2) truth : ℝ) := by exact_mod_cast hs
    refine lt_of_lt_of_le ?_ this
    simp only [PnpParam.default, ScalarFn.lit_real]
    norm_num

theorem addPoint_x (kernel : Bool) (hb : Mat6 ℝ × Vec6 ℝ) (x : Vec3 ℝ) (n : Vec2 ℝ) (hz : 2 ≤ (Pnp.toCam truth x).z) :
    ∃ k : ℝ, 0 < k ∧ (Pnp.addPoint kernel truth hb x n).2.p.x = hb.2.p.x + k * (Pnp.res truth x n).x := by
  have hj : ((Pnp.jacP truth x).neg.tmulVec (Pnp.res truth x n)).x = 1 / (Pnp.toCam truth x).z * (Pnp.res truth x n).x := by
    have hq : (truth.q.inverse.toMat : Mat3 ℝ) = .one := by
      simp only [truth]
      rw [Quat.inverse_of_unit _ (by simp [Quat.one, Quat.sqNorm])]
      simp [Quat.one, Quat.toMat, Mat3.one]
    simp only [Pnp.jacP, hq]
    simp [Mat23.neg, Mat23.tmulVec, Mat23.mulMat, Pnp.jac23, Mat3.transpose, Mat3.one, Mat3.mulVec, Vec3.dot]
  have hd : 0 < 1 / (Pnp.toCam truth x).z := by positivity
  have hfar : ScalarFn.lt (ScalarFn.fabs (Pnp.toCam truth x).z) (lit (1/1000000) : ℝ) = false := by
    simp only [ScalarFn.lt_real, ScalarFn.fabs_real, ScalarFn.lit_real, decide_eq_false_iff_not, not_lt]
    push_cast
    rw [abs_of_pos (by linarith)]
    linarith
  unfold Pnp.addPoint
  rw [hfar]
  simp only [Bool.false_eq_true, if_false]
  cases kernel with
  | false =>
    refine ⟨_, hd, ?_⟩
    simp only [Bool.false_eq_true, if_false, Vec3.add_x, hj]
  | true =>
    obtain ⟨c0, -, -⟩ := Pnp.C63_cauchy 1 (Pnp.res truth x n).norm one_pos
    refine ⟨_, mul_pos hd c0, ?_⟩
    simp only [if_true, Vec3.add_x, hj, ScalarFn.lit_real, Rat.cast_one]
    ring

theorem fold_x (kernel : Bool) (l : List (Vec3 ℝ × Vec2 ℝ)) : ∀ hb : Mat6 ℝ × Vec6 ℝ, (∀ y ∈ l, 2 ≤ (Pnp.toCam truth y.1).z ∧ (Pnp.res truth y.1 y.2).x ≤ 0) →
    (l.foldl (fun hb x => Pnp.addPoint kernel truth hb x.1 x.2) hb).2.p.x ≤ hb.2.p.x ∧
    ((∃ y ∈ l, (Pnp.res truth y.1 y.2).x < 0) → (l.foldl (fun hb x => Pnp.addPoint kernel truth hb x.1 x.2) hb).2.p.x < hb.2.p.x) := by
  induction l with
  | nil => intro hb _; simp
  | cons a l ih =>
    intro hb h
    obtain ⟨k, k0, ka⟩ := addPoint_x kernel hb a.1 a.2 (h a List.mem_cons_self).1
    obtain ⟨i1, i2⟩ := ih (Pnp.addPoint kernel truth hb a.1 a.2) (fun y hy => h y (List.mem_cons_of_mem _ hy))
    have ha := (h a List.mem_cons_self).2
    rw [List.foldl_cons]
    have hstep : (Pnp.addPoint kernel truth hb a.1 a.2).2.p.x ≤ hb.2.p.x := by
      rw [ka]
      nlinarith
    refine ⟨i1.trans hstep, ?_⟩
    rintro ⟨y, hy, hneg⟩
    rcases List.mem_cons.1 hy with rfl | hy
    · refine lt_of_le_of_lt i1 ?_
      rw [ka]
      nlinarith
    · exact lt_of_lt_of_le (i2 ⟨y, hy, hneg⟩) hstep

/-- C104, bias: whatever pairs are drawn, the wrong ones pull the plain and the weighted solution to the same side, so the true pose does not solve their normal equations. -/
theorem C104_bias (rnd : Nat → Nat) (x2 : List (Vec2 ℝ)) (h : sights rnd = .ok x2) (kernel : Bool) : (Pnp.normalEq kernel (cloud.zip x2) truth).2.p.x < 0 := by
  obtain ⟨x2', h1, h2, h3⟩ := C104_data (K := ℝ) rnd
  rw [h] at h1
  obtain rfl := Res.ok.inj h1
  have hpair : ∀ y ∈ (cloud : List (Vec3 ℝ)).zip x2, ∃ k x, (cloud : List (Vec3 ℝ))[k]? = some x ∧ y = (x, if Hit rnd k then ⟨lit 10, (see x).y⟩ else see x) := by
    intro y hy
    obtain ⟨k, hk⟩ := List.mem_iff_getElem?.1 hy
    rw [List.getElem?_zip_eq_some] at hk
    refine ⟨k, y.1, hk.1, ?_⟩
    have := h3 k y.1 hk.1
    rw [hk.2] at this
    rw [← Option.some.inj this]
  refine (fold_x kernel _ _ ?_).2 ?_
  · intro y hy
    obtain ⟨k, x, hx, rfl⟩ := hpair y hy
    obtain ⟨a1, a2, a3⟩ := truth_res x (List.mem_of_getElem? hx)
    refine ⟨a1, ?_⟩
    dsimp only
    split
    · linarith
    · rw [a2]
  · have hk : rnd 0 % 729 < (cloud : List (Vec3 ℝ)).length := by rw [cloud_length]; exact Nat.mod_lt _ (by omega)
    have hx := List.getElem?_eq_getElem hk
    have hy := h3 _ _ hx
    have hit : Hit rnd (rnd 0 % 729) := ⟨0, by omega, rfl⟩
    rw [if_pos hit] at hy
    refine ⟨(_, _), List.mem_iff_getElem?.2 ⟨rnd 0 % 729, List.getElem?_zip_eq_some.2 ⟨hx, hy⟩⟩, ?_⟩
    obtain ⟨-, -, a3⟩ := truth_res _ (List.mem_of_getElem? hx)
    dsimp only
    linarith

/-- C104, bias: so a step from the true pose leads away from it, for every solver that answers zero only to zero. -/
theorem C104_leaves (ext : Ext ℝ) (hext : ∀ H b, ext.ldlt6 H b = ⟨0, 0⟩ → b = ⟨0, 0⟩) (rnd : Nat → Nat) (x2 : List (Vec2 ℝ)) (h : sights rnd = .ok x2) (kernel : Bool) :
    Pnp.apply truth (ext.ldlt6 (Pnp.normalEq kernel (cloud.zip x2) truth).1 (Pnp.normalEq kernel (cloud.zip x2) truth).2) ≠ truth := by
  have hb := C104_bias rnd x2 h kernel
  generalize Pnp.normalEq kernel ((cloud : List (Vec3 ℝ)).zip x2) truth = hn at *
  intro hc
  have hz : ext.ldlt6 hn.1 hn.2 = ⟨0, 0⟩ := by
    generalize ext.ldlt6 hn.1 hn.2 = dx at *
    have hpos : 0 < ((truth.q).mul (Utility.deltaQ dx.r)).sqNorm := by
      have := Quat.sqNorm_deltaQ_pos dx.r
      have h1 : truth.q.sqNorm = 1 := by simp [truth, Quat.one, Quat.sqNorm]
      rw [Quat.sqNorm_mul, h1, one_mul]
      linarith
    have hs : Real.sqrt ((truth.q).mul (Utility.deltaQ dx.r)).sqNorm ≠ 0 := (Real.sqrt_pos.2 hpos).ne'
    have p1 := congrArg (fun a => a.p.x) hc
    have p2 := congrArg (fun a => a.p.y) hc
    have p3 := congrArg (fun a => a.p.z) hc
    have q1 := congrArg (fun a => a.q.x) hc
    have q2 := congrArg (fun a => a.q.y) hc
    have q3 := congrArg (fun a => a.q.z) hc
    simp only [Pnp.apply, Quat.normalized_of_pos _ hpos] at p1 p2 p3 q1 q2 q3
    simp only [show truth.q.x = 0 from rfl, show truth.q.y = 0 from rfl, show truth.q.z = 0 from rfl, div_eq_zero_iff, hs, or_false] at q1 q2 q3
    simp only [truth, Vec3.add_x, Vec3.add_y, Vec3.add_z, add_eq_left] at p1 p2 p3
    simp [truth, Quat.one, Quat.mul, Utility.deltaQ, Vec3.sdiv] at q1 q2 q3
    obtain ⟨⟨a1, a2, a3⟩, ⟨b1, b2, b3⟩⟩ := dx
    simp only at p1 p2 p3 q1 q2 q3
    subst p1 p2 p3 q1 q2 q3
    rfl
  rw [hext _ _ hz] at hb
  simp at hb

/-- C104: the hypothesis on the solver can be met: hand the right side back. -/
example : ∃ f : Mat6 ℝ → Vec6 ℝ → Vec6 ℝ, ∀ H b, f H b = ⟨0, 0⟩ → b = ⟨0, 0⟩ := ⟨fun _ b => b, fun _ _ h => h⟩

/-- C104: the hypothesis on the random numbers can be met: counting up will do. -/
example : Pnp.Fair (fun n => n) 729 := by
  intro pos i hi
  exact ⟨729 * pos + i, by omega, by rw [Nat.mul_add_mod, Nat.mod_eq_of_lt hi]⟩

end Tests
end Vio
