import Mathlib.Data.Rat.Defs
import Mathlib.Algebra.Order.Ring.Rat
/-!
The Itakura parallelogram for lengths `n × m` and maximum slope `s`, with a tolerance `e` on each
of its four sides.
-/
namespace Verif.Spec

/-- `(i, j)` lies between the lines of slope `(n/m)/s` and `(n/m)·s` through the first corner and
through the last corner, up to `e`. -/
def InParallelogram (n m : ℕ) (s e : ℚ) (i j : ℕ) : Prop :=
  (1 / s * (n / m)) * j - e ≤ i ∧
  (i : ℚ) ≤ s * (n / m) * j + e ∧
  (1 / s * (n / m)) * ((m : ℚ) - 1 - j) - e ≤ (n : ℚ) - 1 - i ∧
  (n : ℚ) - 1 - i ≤ s * (n / m) * ((m : ℚ) - 1 - j) + e

end Verif.Spec
