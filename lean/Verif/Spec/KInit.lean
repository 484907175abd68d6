import Mathlib.Algebra.Order.Field.Basic
import Mathlib.Algebra.BigOperators.Group.Finset.Basic
import Mathlib.Data.Finset.Lattice.Fold
/-!
Specification of k-means++ seeds, independent of lists of running values.
-/
namespace Verif.Spec
variable {S K : Type} [Field K] [LinearOrder K]

/-- `v` is the squared distance from `x` to the nearest of the centres. -/
def IsNearestSq (dist : S → S → K) (centers : List S) (x : S) (v : K) : Prop :=
  (∃ c ∈ centers, dist c x ^ 2 = v) ∧ ∀ c ∈ centers, v ≤ dist c x ^ 2

end Verif.Spec
