import Verif.Model.Cast
import Mathlib.Algebra.BigOperators.Group.Finset.Basic
import Mathlib.Analysis.Real.Sqrt
/-!
Vocabulary for piecewise representations: what a series of an array is, and the Euclidean distance.
-/
namespace Verif.Spec

/-- Series `i` of the array has exactly `n` samples, all observed, with values `x`. -/
def Series {K : Type} (X : Arr3 K) (i n : ℕ) (x : ℕ → ℕ → K) : Prop :=
  i < X.data.length ∧ n ≤ X.sz ∧ (∀ t < n, ∀ f < X.d, X.entry i t f = some (x t f)) ∧
    ∀ t, n ≤ t → ∀ f, X.entry i t f = none

/-- Euclidean distance of two series of `n` samples with `d` features. -/
noncomputable def euclid (n d : ℕ) (x y : ℕ → ℕ → ℝ) : ℝ :=
  Real.sqrt (∑ t ∈ Finset.range n, ∑ f ∈ Finset.range d, (x t f - y t f) ^ 2)

/-- The mean of feature `f` over the `q` samples of segment `s`. -/
noncomputable def segMean (q s f : ℕ) (x : ℕ → ℕ → ℝ) : ℝ := (∑ k ∈ Finset.range q, x (s * q + k) f) / q

end Verif.Spec
