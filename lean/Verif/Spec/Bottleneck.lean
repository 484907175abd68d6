import Mathlib.Order.Basic
/-!
Largest cost along a path.
-/
namespace Verif.Spec

/-- `w` is the largest cost of the pairs of `p`. -/
def IsMaxCost {K : Type*} [LE K] (d : ℕ → ℕ → K) (p : List (ℕ × ℕ)) (w : K) : Prop :=
  (∃ c ∈ p, d c.1 c.2 = w) ∧ ∀ c ∈ p, d c.1 c.2 ≤ w

end Verif.Spec
