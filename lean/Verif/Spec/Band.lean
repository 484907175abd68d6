import Mathlib.Data.Nat.Basic
/-!
The Sakoe-Chiba band for lengths `n`, `m` and radius `r`, as documented: around the diagonal of the
shorter series, widened by the length difference on the side of the longer one.
-/
namespace Verif.Spec

/-- `(i, j)` is within `r` of the corridor between the two main diagonals. -/
def InBand (n m r i j : ℕ) : Prop := j ≤ i + (m - n) + r ∧ i ≤ j + (n - m) + r

end Verif.Spec
