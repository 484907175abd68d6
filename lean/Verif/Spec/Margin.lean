import Mathlib.Algebra.Order.Group.Abs
import Mathlib.Algebra.Order.Field.Basic
import Mathlib.Data.Finset.Card
import Mathlib.Data.Finset.Range
/-!
# Distances that change little, and margins
-/
namespace Verif.Spec
variable {K : Type} [Field K] [LinearOrder K]

/-- Two rows of `n` values, at most `δ` apart everywhere. -/
def Moved (n : ℕ) (δ : K) (f f' : ℕ → K) : Prop := ∀ i < n, |f' i - f i| ≤ δ

/-- `N` are `k` of the first `n` indices, and every other one is further by more than `g`. -/
structure Gap (f : ℕ → K) (n k : ℕ) (g : K) (N : Finset ℕ) : Prop where
  sub : N ⊆ Finset.range n
  card : N.card = k
  gap : ∀ i ∈ N, ∀ j < n, j ∉ N → f i + g < f j

end Verif.Spec
