/-
C54 in terms of geometry: two rays that are not parallel determine the point.
-/
import Verif.Props.Triang

namespace Vio
open Spec

namespace Triang

/-- Product of one view's rows with any vector. -/
theorem viewRow_any (q : Quat ℝ) (p : Vec3 ℝ) (n : Vec2 ℝ) (y : Nat → ℝ) :
    let c := q.inverse.rotate (⟨y 0, y 1, y 2⟩ - .smul (y 3) p)
    (∑ j ∈ Finset.range 4, viewRow q p n 0 j * y j) = n.x * c.z - c.x ∧ (∑ j ∈ Finset.range 4, viewRow q p n 1 j * y j) = n.y * c.z - c.y := by
  dsimp only
  rw [Quat.rotate_sub, ← Quat.toMat_mulVec _ ⟨y 0, y 1, y 2⟩, Quat.rotate_smul]
  constructor
  · simp [Finset.sum_range_succ, viewRow, Mat3.mulVec, Vec3.dot, Mat3.get, Mat3.row, Vec3.get, Vec3.smul]
    ring
  · simp [Finset.sum_range_succ, viewRow, Mat3.mulVec, Vec3.dot, Mat3.get, Mat3.row, Vec3.get, Vec3.smul]
    ring

/-- The rows of an exact view leave the points of its ray. -/
theorem on_ray (q : Quat ℝ) (hq : q.sqNorm = 1) (p x : Vec3 ℝ) (n : Vec2 ℝ) (hobs : ExactObs q p x n) (y : Nat → ℝ)
    (h0 : ∑ j ∈ Finset.range 4, viewRow q p n 0 j * y j = 0) (h1 : ∑ j ∈ Finset.range 4, viewRow q p n 1 j * y j = 0) :
    ∃ μ : ℝ, (⟨y 0, y 1, y 2⟩ : Vec3 ℝ) - .smul (y 3) p = .smul μ (x - p) := by
  obtain ⟨hz, hx, hy⟩ := hobs
  obtain ⟨e0, e1⟩ := viewRow_any q p n y
  rw [h0] at e0
  rw [h1] at e1
  have hback : ∀ v, q.rotate (q.inverse.rotate v) = v := fun v => by
    rw [← Quat.rotate_mul q q.inverse hq (by rw [Quat.inverse_of_unit q hq]; simp only [Quat.sqNorm] at hq ⊢; linarith), Quat.mul_inverse_of_unit q hq, Quat.rotate_one]
  set c := q.inverse.rotate (x - p) with hc
  set w := q.inverse.rotate ((⟨y 0, y 1, y 2⟩ : Vec3 ℝ) - .smul (y 3) p) with hw
  refine ⟨w.z / c.z, ?_⟩
  rw [← hback (⟨y 0, y 1, y 2⟩ - .smul (y 3) p), ← hback (x - p), ← hw, ← hc, ← Quat.rotate_smul]
  congr 1
  rw [hx] at e0
  rw [hy] at e1
  apply Vec3.ext
  · simp only [Vec3.smul]
    field_simp
    field_simp at e0
    linarith
  · simp only [Vec3.smul]
    field_simp
    field_simp at e1
    linarith
  · simp only [Vec3.smul]
    field_simp

/-- Two exact views from unit quaternions whose rays to the point are not parallel determine it. -/
theorem two_rays (qs : List (Quat ℝ)) (ps : List (Vec3 ℝ)) (ns : List (Vec2 ℝ)) (x : Vec3 ℝ) (h1 : qs.length = ps.length) (h2 : qs.length = ns.length)
    (hobs : ∀ i (hi : i < qs.length), ExactObs qs[i] (ps[i]'(h1 ▸ hi)) x (ns[i]'(h2 ▸ hi)))
    (i j : Nat) (hi : i < qs.length) (hj : j < qs.length) (ui : qs[i].sqNorm = 1) (uj : qs[j].sqNorm = 1)
    (hray : (x - ps[i]'(h1 ▸ hi)).cross (x - ps[j]'(h1 ▸ hj)) ≠ 0) (rows) (e : systemRows qs ps ns = .ok rows) : KernelIsPoint (stack2 rows) x := by
  obtain ⟨rows', e', hl, hr⟩ := systemRows_ok qs ps ns h1.le h2.le
  rw [e] at e'
  cases e'
  intro y hy
  have row : ∀ k (hk : k < qs.length) r, r < 2 → ∑ m ∈ Finset.range 4, viewRow qs[k] (ps[k]'(h1 ▸ hk)) (ns[k]'(h2 ▸ hk)) r m * y m = 0 := by
    intro k hk r hr2
    have hlt : 2 * k + r < (stack2 rows).rows := by simp only [stack2, hl]; omega
    have := hy (2 * k + r) hlt
    have e4 : ∀ m, (stack2 rows).e (2 * k + r) m = viewRow qs[k] (ps[k]'(h1 ▸ hk)) (ns[k]'(h2 ▸ hk)) r m := by
      intro m
      have d1 : (2 * k + r) / 2 = k := by omega
      have d2 : (2 * k + r) % 2 = r := by omega
      simp [stack2, d1, d2, hr k hk]
    simpa only [e4] using this
  obtain ⟨μ, hμ⟩ := on_ray _ ui _ x _ (hobs i hi) y (row i hi 0 (by omega)) (row i hi 1 (by omega))
  obtain ⟨ν, hν⟩ := on_ray _ uj _ x _ (hobs j hj) y (row j hj 0 (by omega)) (row j hj 1 (by omega))
  generalize ps[i]'(h1 ▸ hi) = a at *
  generalize ps[j]'(h1 ▸ hj) = b at *
  have hμ1 := congrArg Vec3.x hμ
  have hμ2 := congrArg Vec3.y hμ
  have hμ3 := congrArg Vec3.z hμ
  have hν1 := congrArg Vec3.x hν
  have hν2 := congrArg Vec3.y hν
  have hν3 := congrArg Vec3.z hν
  simp only [Vec3.smul, Vec3.sub_x, Vec3.sub_y, Vec3.sub_z] at hμ1 hμ2 hμ3 hν1 hν2 hν3
  -- the multiple is the homogeneous coordinate
  have hk : μ = y 3 := by
    by_contra hne
    have hne' : μ - y 3 ≠ 0 := sub_ne_zero.2 hne
    apply hray
    apply Vec3.ext
    · simp only [Vec3.cross, Vec3.sub_x, Vec3.sub_y, Vec3.sub_z, Vec3.zero_x]
      apply (mul_eq_zero.1 (?_ : (μ - y 3) * _ = 0)).resolve_left hne'
      linear_combination (x.z - b.z) * (hν2 - hμ2) - (x.y - b.y) * (hν3 - hμ3)
    · simp only [Vec3.cross, Vec3.sub_x, Vec3.sub_y, Vec3.sub_z, Vec3.zero_y]
      apply (mul_eq_zero.1 (?_ : (μ - y 3) * _ = 0)).resolve_left hne'
      linear_combination (x.x - b.x) * (hν3 - hμ3) - (x.z - b.z) * (hν1 - hμ1)
    · simp only [Vec3.cross, Vec3.sub_x, Vec3.sub_y, Vec3.sub_z, Vec3.zero_z]
      apply (mul_eq_zero.1 (?_ : (μ - y 3) * _ = 0)).resolve_left hne'
      linear_combination (x.y - b.y) * (hν1 - hμ1) - (x.x - b.x) * (hν2 - hμ2)
  rw [hk] at hμ1 hμ2 hμ3
  exact ⟨by linarith, by linarith, by linarith⟩

/-- C54 (for points with `1 + |p|² ≤ 10¹²`) in terms of geometry: views with unit quaternions that see the point in front of them, two of them along rays that are not parallel, give exactly
the point.  Missing: points further away are rejected, `C54_far_point_rejected`. -/
theorem C54_two_rays_partial (ext : Ext ℝ) (qs : List (Quat ℝ)) (ps : List (Vec3 ℝ)) (ns : List (Vec2 ℝ)) (pw x : Vec3 ℝ) (h1 : qs.length = ps.length) (h2 : qs.length = ns.length)
    (hobs : ∀ i (hi : i < qs.length), ExactObs qs[i] (ps[i]'(h1 ▸ hi)) x (ns[i]'(h2 ▸ hi)) ∧ 0 < depth qs[i] (ps[i]'(h1 ▸ hi)) x)
    (hsvd : ∀ a, IsLastSingular a (ext.svdLast a)) (i j : Nat) (hi : i < qs.length) (hj : j < qs.length) (ui : qs[i].sqNorm = 1) (uj : qs[j].sqNorm = 1)
    (hray : (x - ps[i]'(h1 ▸ hi)).cross (x - ps[j]'(h1 ▸ hj)) ≠ 0) (hnear : 1 + x.sqNorm ≤ 1000000 ^ 2) : analytic ext qs ps ns pw = .ok (true, x) := by
  have hij : i ≠ j := by
    rintro rfl
    apply hray
    apply Vec3.ext <;> simp [Vec3.cross] <;> ring
  exact C54_exact_partial ext qs ps ns pw x h1 h2 (by omega) hobs
    (fun rows e => ⟨two_rays qs ps ns x h1 h2 (fun k hk => (hobs k hk).1) i j hi hj ui uj hray rows e, hsvd _⟩) hnear

end Triang
end Vio
