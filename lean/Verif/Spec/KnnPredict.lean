import Mathlib.Algebra.Order.Field.Basic
import Mathlib.Algebra.BigOperators.Group.List.Basic
/-!
Votes of neighbours.
-/
namespace Verif.Spec
variable {K : Type} [Field K] [LinearOrder K]

/-- `c` is the first of the greatest values below `m`. -/
def FirstGreatest (m : ℕ) (f : ℕ → K) (c : ℕ) : Prop := c < m ∧ (∀ j < m, f j ≤ f c) ∧ ∀ j < c, f j < f c

/-- Votes for `c` of the neighbours `out`, of classes `y`, with weights `w`. -/
def votes (w : ℕ → K) (y : ℕ → ℕ) (out : List ℕ) (c : ℕ) : K := ((out.filter fun i => y i = c).map w).sum

/-- Inverse distances; with exact matches among the neighbours only they count. -/
def inverseDistance (row : ℕ → K) (out : List ℕ) (i : ℕ) : K := if ∃ j ∈ out, row j = 0 then (if row i = 0 then 1 else 0) else (row i)⁻¹

/-- The weights `"uniform"` (`w`) and `"distance"` of the neighbours `out`. -/
def neighbourWeight (w : Bool) (row : ℕ → K) (out : List ℕ) (i : ℕ) : K := if w then 1 else inverseDistance row out i

end Verif.Spec
