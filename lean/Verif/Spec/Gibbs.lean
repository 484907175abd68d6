import Mathlib.Analysis.SpecialFunctions.Exp
/-!
Probability of visiting a cell under the Gibbs distribution on a finite set of paths.
-/
namespace Verif.Spec
open Classical

/-- Probability that a path of `S`, drawn with probability proportional to `exp(-cost/γ)`, contains
the cell `c`. -/
noncomputable def visitProb (S : Finset (List (ℕ × ℕ))) (cost : List (ℕ × ℕ) → ℝ) (γ : ℝ) (c : ℕ × ℕ) : ℝ :=
  (∑ p ∈ S with c ∈ p, Real.exp (-cost p / γ)) / ∑ p ∈ S, Real.exp (-cost p / γ)

end Verif.Spec
