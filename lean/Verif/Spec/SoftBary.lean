import Verif.Spec.Barycenter
import Mathlib.Analysis.SpecialFunctions.Log.Basic
/-!
Specification of the soft-DTW barycenter problem.
-/
namespace Verif.Spec

/-- Soft minimum of the costs of the paths in `S`. -/
noncomputable def softMin (S : Finset (List (ℕ × ℕ))) (cost : List (ℕ × ℕ) → ℝ) (γ : ℝ) : ℝ :=
  -γ * Real.log (∑ p ∈ S, Real.exp (-cost p / γ))

/-- Weighted sum of the soft-DTW values between `z` and the series `xs`; `S k` is the set of paths allowed for series `k`. -/
noncomputable def softBaryCost (γ : ℝ) (S : ℕ → Finset (List (ℕ × ℕ))) (xs : List (List (List ℝ))) (ws : List ℝ)
    (z : List (List ℝ)) : ℝ :=
  ∑ k ∈ Finset.range xs.length, ws.getD k 0 * softMin (S k) (sumCost (sampleCost z (xs.getD k []))) γ

/-- `z + t h` for a series with `n` samples and `d` features. -/
def moveBy (n d : ℕ) (z : List (List ℝ)) (h : ℕ → ℕ → ℝ) (t : ℝ) : List (List ℝ) :=
  (List.range n).map fun i => (List.range d).map fun f => (z.getD i []).getD f 0 + t * h i f

end Verif.Spec
