import Verif.Spec.Cost
import Mathlib.Analysis.SpecialFunctions.Exp
/-!
Global alignment kernel as a sum over alignments.
-/
namespace Verif.Spec
open Classical

/-- Gaussian kernel of two samples. -/
noncomputable def gaussian (σ : ℝ) (u v : List ℝ) : ℝ := Real.exp (-sqEuclid u v / (2 * σ ^ 2))

/-- Local kernel of a pair of samples: `κ / (2 - κ)` for the Gaussian kernel `κ`. -/
noncomputable def localKernel (σ : ℝ) (x y : List (List ℝ)) (c : ℕ × ℕ) : ℝ :=
  let κ := gaussian σ (x.getD c.1 []) (y.getD c.2 [])
  κ / (2 - κ)

/-- Product of the local kernels along an alignment. -/
noncomputable def alignmentKernel (σ : ℝ) (x y : List (List ℝ)) (p : List (ℕ × ℕ)) : ℝ :=
  (p.map (localKernel σ x y)).prod

end Verif.Spec
