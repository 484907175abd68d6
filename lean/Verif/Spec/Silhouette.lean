import Mathlib.Data.Real.Basic
import Mathlib.Algebra.BigOperators.Group.Finset.Basic
import Mathlib.Data.Finset.Card
/-!
The silhouette coefficient (Rousseeuw 1987) of series `i` among `n` labelled series with distances `D`.
-/
namespace Verif.Spec
noncomputable section
variable {L : Type} [DecidableEq L]

/-- The series labelled `c`. -/
def cluster (n : ℕ) (lab : ℕ → L) (c : L) : Finset ℕ := (Finset.range n).filter fun j => lab j = c

/-- Mean distance of `i` to the other series of its cluster. -/
def cohesion (n : ℕ) (lab : ℕ → L) (D : ℕ → ℕ → ℝ) (i : ℕ) : ℝ :=
  (∑ j ∈ (cluster n lab (lab i)).erase i, D i j) / (((cluster n lab (lab i)).erase i).card : ℝ)

/-- Mean distance of `i` to the series labelled `c`. -/
def meanTo (n : ℕ) (lab : ℕ → L) (D : ℕ → ℕ → ℝ) (i : ℕ) (c : L) : ℝ :=
  (∑ j ∈ cluster n lab c, D i j) / ((cluster n lab c).card : ℝ)

/-- `b` is the mean distance of `i` to the nearest other cluster. -/
def Separation (n : ℕ) (lab : ℕ → L) (D : ℕ → ℕ → ℝ) (i : ℕ) (b : ℝ) : Prop :=
  (∃ k < n, lab k ≠ lab i ∧ b = meanTo n lab D i (lab k)) ∧ ∀ k < n, lab k ≠ lab i → b ≤ meanTo n lab D i (lab k)

/-- `s` is the coefficient of `i`: zero if it is alone in its cluster. -/
def IsSilhouette (n : ℕ) (lab : ℕ → L) (D : ℕ → ℕ → ℝ) (i : ℕ) (s : ℝ) : Prop :=
  if ∃ j < n, j ≠ i ∧ lab j = lab i then
    ∃ b, Separation n lab D i b ∧ s = (b - cohesion n lab D i) / max (cohesion n lab D i) b
  else s = 0

end
end Verif.Spec
