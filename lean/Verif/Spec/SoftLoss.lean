import Verif.Spec.SoftBary
import Verif.Spec.Gibbs
/-!
Specification of the soft-DTW loss between two series.
-/
namespace Verif.Spec

/-- Soft minimum over the paths `S` of the costs `c x y`, or the soft-DTW divergence (minus the mean of the two self values) when
`norm`; `Sx` and `Sy` are the paths allowed between `x` and itself and between `y` and itself. -/
noncomputable def softLossOf (norm : Bool) (γ : ℝ) (c : List (List ℝ) → List (List ℝ) → ℕ → ℕ → ℝ)
    (S Sx Sy : Finset (List (ℕ × ℕ))) (x y : List (List ℝ)) : ℝ :=
  softMin S (sumCost (c x y)) γ -
    if norm then (softMin Sx (sumCost (c x x)) γ + softMin Sy (sumCost (c y y)) γ) / 2 else 0

end Verif.Spec
