import Verif.Model.Early
import Mathlib.Algebra.BigOperators.Group.Finset.Basic
/-!
Specification of early classification: what waiting costs, when a decision is due, and what a stream of chunks amounts to.
-/
namespace Verif.Spec
open Finset
variable {K S L : Type} [Field K] [LinearOrder K]

/-- Expected cost, after `t` samples, of deciding `τ` samples later: `Σ_k P(c_k | X) Σ_y P(y | c_k) Σ_ŷ P_{t+τ}(ŷ | y, c_k) + c (t + τ)`. -/
def expectedCost (m : EarlyModel K S L) (p : ℕ → K) (t τ : ℕ) : K :=
  ∑ k ∈ range m.nClusters, p k * ∑ y ∈ range m.nClasses, m.pyck y k * ∑ yhat ∈ range m.nClasses, m.pyhatyck (t + τ - m.minT) k y yhat +
    m.costTime * (t + τ : ℕ)

/-- `τ` is the first of the delays that leave the decision within the fitted length and cost least. -/
def BestDelay (m : EarlyModel K S L) (xs : List S) (τ : ℕ) : Prop :=
  match m.probas xs with
  | none => τ = 0
  | some p => xs.length + τ ≤ m.T ∧
      (∀ σ, xs.length + σ ≤ m.T → expectedCost m p xs.length τ ≤ expectedCost m p xs.length σ) ∧
      ∀ σ < τ, expectedCost m p xs.length τ < expectedCost m p xs.length σ

/-- `t` is the first time from `min_t` at which waiting longer does not pay, or the fitted length if there is none before. -/
def DecisionTime (m : EarlyModel K S L) (xs : List S) (t : ℕ) : Prop :=
  m.minT ≤ t ∧ t ≤ m.T ∧ (t = m.T ∨ BestDelay m (xs.take t) 0) ∧ ∀ s, m.minT ≤ s → s < t → ¬BestDelay m (xs.take s) 0

/-- The `i`-th series made of chunks, each given with its number of samples and its rows. -/
def streamRow (chunks : List (ℕ × List (List S))) (i : ℕ) : List S := (chunks.map fun c => c.2.getD i []).flatten

/-- A chunk of `n` series of the announced number of samples. -/
def Fits (n : ℕ) (c : ℕ × List (List S)) : Prop := c.2.length = n ∧ ∀ q ∈ c.2, q.length = c.1

end Verif.Spec
