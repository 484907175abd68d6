import Mathlib.Algebra.Order.Field.Basic
import Mathlib.Algebra.BigOperators.Group.Finset.Basic
import Mathlib.Order.Bounds.Basic
/-!
What the shapelet transform is.
-/
namespace Verif.Spec
variable {K : Type}

/-- The window of `L` samples at `t` lies within the `sz` samples and has no missing value. -/
def ValidWindow (sz L d : ℕ) (x : ℕ → ℕ → Option K) (t : ℕ) : Prop := t + L ≤ sz ∧ ∀ l < L, ∀ f < d, x (t + l) f ≠ none

/-- Mean over the samples of the squared Euclidean distance between the window of `x` at `t` and the shapelet `s`. -/
def windowDist [Field K] (L d : ℕ) (x : ℕ → ℕ → Option K) (s : ℕ → ℕ → K) (t : ℕ) : K :=
  (∑ l ∈ Finset.range L, ∑ f ∈ Finset.range d, ((x (t + l) f).getD 0 - s l f) ^ 2) / L

/-- `v` is the least distance between `s` and a window of `x`. -/
def ShapeletDist [Field K] [LinearOrder K] (sz L d : ℕ) (x : ℕ → ℕ → Option K) (s : ℕ → ℕ → K) (v : K) : Prop :=
  IsLeast {v | ∃ t, ValidWindow sz L d x t ∧ v = windowDist L d x s t} v

end Verif.Spec
