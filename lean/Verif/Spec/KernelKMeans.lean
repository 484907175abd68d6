import Verif.Spec.Run
import Verif.Spec.KMeans
import Mathlib.Algebra.BigOperators.Intervals
import Mathlib.Algebra.Order.Field.Basic
/-!
Specification of kernel k-means: weighted clusters in feature space.
-/
namespace Verif.Spec
variable {K : Type} [Field K] [LinearOrder K]

/-- Weight of cluster `j`. -/
def clusterWeight (n : ℕ) (sw : ℕ → K) (lab : ℕ → ℕ) (j : ℕ) : K := ∑ i ∈ Finset.range n with lab i = j, sw i

/-- Inner product of row `r` of a kernel matrix with the weighted mean of cluster `j`. -/
def meanProd (n : ℕ) (sw : ℕ → K) (r : ℕ → K) (lab : ℕ → ℕ) (j : ℕ) : K :=
  (∑ i ∈ Finset.range n with lab i = j, sw i * r i) / clusterWeight n sw lab j

/-- Squared norm of the weighted mean of cluster `j`. -/
def meanNorm (n : ℕ) (sw : ℕ → K) (M : ℕ → ℕ → K) (lab : ℕ → ℕ) (j : ℕ) : K :=
  (∑ i ∈ Finset.range n with lab i = j, sw i * meanProd n sw (M i) lab j) / clusterWeight n sw lab j

/-- Squared distance in feature space of series `x` to the weighted mean of cluster `j`. -/
def featureDist (n : ℕ) (sw : ℕ → K) (M : ℕ → ℕ → K) (lab : ℕ → ℕ) (x j : ℕ) : K :=
  M x x - 2 * meanProd n sw (M x) lab j + meanNorm n sw M lab j

/-- The distance `KernelKMeans` uses. -/
def usedDist (n : ℕ) (sw : ℕ → K) (r : ℕ → K) (lab : ℕ → ℕ) (j : ℕ) : K := 2 - 2 * meanProd n sw r lab j

/-- `l` is the first of `k` clusters of least value. -/
def FirstLeast (k : ℕ) (f : ℕ → K) (l : ℕ) : Prop := l < k ∧ ∀ j < k, f l ≤ f j ∧ (j < l → f l < f j)

end Verif.Spec
