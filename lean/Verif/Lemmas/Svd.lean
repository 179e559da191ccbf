/-
The specification of the singular value decomposition is met by some decomposition.
-/
import Verif.Spec.Geometry
import Mathlib.Analysis.Normed.Group.Basic
import Mathlib.Topology.Order.Compact
import Mathlib.Topology.MetricSpace.ProperSpace
import Mathlib.Topology.Algebra.Monoid
import Mathlib.Analysis.Normed.Group.Constructions
import Mathlib.Topology.MetricSpace.ProperSpace.Real

namespace Vio.Spec

theorem exists_lastSingular (a : DMat ℝ) : ∃ x, IsLastSingular a x := by
  let ext : (Fin 4 → ℝ) → Nat → ℝ := fun y j => if h : j < 4 then y ⟨j, h⟩ else 0
  let S : Set (Fin 4 → ℝ) := {y | ∑ j ∈ Finset.range 4, ext y j ^ 2 = 1}
  have hcoord : ∀ j, Continuous (fun y : Fin 4 → ℝ => ext y j) := by
    intro j
    by_cases h : j < 4
    · simpa [ext, h] using continuous_apply (⟨j, h⟩ : Fin 4)
    · simpa [ext, h] using continuous_const
  have hclosed : IsClosed S := isClosed_eq (continuous_finsetSum _ fun j _ => (hcoord j).pow 2) continuous_const
  have hbdd : S ⊆ Metric.closedBall 0 1 := by
    intro y hy
    rw [mem_closedBall_zero_iff, pi_norm_le_iff_of_nonneg zero_le_one]
    intro i
    have h1 : ext y i ^ 2 ≤ ∑ j ∈ Finset.range 4, ext y j ^ 2 := Finset.single_le_sum (f := fun j => ext y j ^ 2) (fun j _ => sq_nonneg _) (Finset.mem_range.2 i.2)
    have h2 : ext y i = y i := by simp [ext]
    rw [show ∑ j ∈ Finset.range 4, ext y j ^ 2 = 1 from hy, h2] at h1
    rw [Real.norm_eq_abs, abs_le]
    constructor <;> nlinarith
  have hcomp : IsCompact S := (isCompact_closedBall (0 : Fin 4 → ℝ) 1).of_isClosed_subset hclosed hbdd
  have hne : S.Nonempty := ⟨fun i => if i = 0 then 1 else 0, by simp [S, ext, Finset.sum_range_succ]⟩
  have hcont : Continuous (fun y => imageSq a (ext y)) :=
    continuous_finsetSum _ fun i _ => (continuous_finsetSum _ fun j _ => continuous_const.mul (hcoord j)).pow 2
  obtain ⟨x, hx, hmin⟩ := hcomp.exists_isMinOn hne hcont.continuousOn
  refine ⟨ext x, hx, fun y hy => ?_⟩
  have hsame : ∀ j ∈ Finset.range 4, ext (fun i => y i) j = y j := by intro j hj; simp [ext, Finset.mem_range.1 hj]
  have hyS : (fun i : Fin 4 => y i) ∈ S := by
    show ∑ j ∈ Finset.range 4, ext (fun i => y i) j ^ 2 = 1
    rw [← hy]
    exact Finset.sum_congr rfl fun j hj => by rw [hsame j hj]
  have := hmin hyS
  have e : imageSq a (ext fun i => y i) = imageSq a y := by
    unfold imageSq
    refine Finset.sum_congr rfl fun i _ => ?_
    rw [Finset.sum_congr rfl fun j hj => by rw [hsame j hj]]
  rw [← e]; exact this

/-- Some environment has a decomposition that meets the specification for every matrix. -/
theorem exists_svd : ∃ f : DMat ℝ → Nat → ℝ, ∀ a, IsLastSingular a (f a) := ⟨fun a => (exists_lastSingular a).choose, fun a => (exists_lastSingular a).choose_spec⟩

end Vio.Spec
