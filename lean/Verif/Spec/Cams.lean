/-
Histories whose observations list the cameras in another order, for C121.  `FeatureObserve::norms` is a `std::unordered_map` (data_typedef.hpp:13), so the order in which its entries are visited
is not determined by its contents.
-/
import Verif.Spec.Runs
import Verif.Spec.Geometry

namespace Vio

section Generic
variable {K T : Type} [Add K] [Sub K] [Mul K] [Neg K] [Div K] [Zero K] [One K] [ScalarFn K] [TimeOps T] [TimeCast T K]

/-- The same map from cameras to coordinates, with its entries visited in another order. -/
structure Obs.SameMap (o o' : Obs K) : Prop where
  perm : o.norms.Perm o'.norms
  keys : (o.norms.map (·.1)).Nodup

/-- The same message, up to the order of the cameras in its observations. -/
structure FeatMsg.SameMaps (m m' : FeatMsg K T) : Prop where
  ids : m.ids = m'.ids
  observes : List.Forall₂ Obs.SameMap m.observes m'.observes
  ts : m.ts = m'.ts

/-- The same call, up to the order of the cameras in the observations of a features message. -/
inductive OpSameMaps : BOp K T → BOp K T → Prop
  | feat (m m') (h : m.SameMaps m') : OpSameMaps (.feat m) (.feat m')
  | other (op) (h : ∀ m, op ≠ .feat m) : OpSameMaps op op

end Generic

/-- Matrices of four columns with the same inner products of columns have the same last right singular vector, up to its sign.  This is what the vector is when the least singular value is
simple: the minimum of `|A x|` over the unit vectors depends on the inner products only. -/
def Ext.SvdOfColumns (ext : Ext ℝ) : Prop :=
  ∀ a b : DMat ℝ, a.cols = 4 → b.cols = 4 → (∀ i j, i < 4 → j < 4 → ∑ x ∈ Finset.range a.rows, a.e x i * a.e x j = ∑ x ∈ Finset.range b.rows, b.e x i * b.e x j) →
    ∃ s : ℝ, s * s = 1 ∧ ∀ j, j < 4 → ext.svdLast b j = s * ext.svdLast a j

end Vio
