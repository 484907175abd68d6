import Mathlib.Order.Bounds.Basic
/-!
Running minimum and maximum of a sequence.
-/
namespace Verif.Spec

/-- Values of `c` at distance at most `r` from position `i`. -/
def Near {K : Type*} (c : List K) (r i : ℕ) : Set K :=
  {v | ∃ j, c[j]? = some v ∧ i ≤ j + r ∧ j ≤ i + r}

end Verif.Spec
