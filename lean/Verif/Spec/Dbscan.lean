import Mathlib.Logic.Relation
import Mathlib.Order.Defs.LinearOrder
import Mathlib.Data.Finset.Card
import Mathlib.Data.Finset.Range
/-!
What density-based clusters are (Ester et al., 1996), for `n` series with distances `D`.
-/
namespace Verif.Spec
variable {K : Type} [LinearOrder K]

/-- At least `minTs` of the series are within `eps` of `i`. -/
def DbCore (D : ℕ → ℕ → K) (eps : K) (minTs n i : ℕ) : Prop := i < n ∧ minTs ≤ ((Finset.range n).filter fun j => D i j ≤ eps).card

/-- Chains of core series, each within `eps` of the one before. -/
def DbConnected (D : ℕ → ℕ → K) (eps : K) (minTs n : ℕ) : ℕ → ℕ → Prop :=
  Relation.ReflTransGen fun i j => DbCore D eps minTs n i ∧ DbCore D eps minTs n j ∧ D i j ≤ eps

end Verif.Spec
