import Verif.Spec.Varima
import Mathlib.Analysis.SpecialFunctions.Log.Basic
import Mathlib.Analysis.SpecialFunctions.Trigonometric.Basic
/-!
One-step errors of an ARMA model whose coefficients are listed by lag, and the Gaussian likelihood of errors.
-/
namespace Verif.Spec
open Finset
variable {V : Type} [AddCommGroup V]

/-- `e` are the one-step errors on `W`: none before `max p q`, then observation minus prediction, where `A k` acts on the observation and
`M k` on the error `k + 1` steps ago. -/
def StepErrors (p q : ℕ) (A M : ℕ → V → V) (c : V) (W e : ℕ → V) : Prop :=
  ∀ t, e t = if t < max p q then 0 else
    W t - (∑ k ∈ range p, A k (W (t - 1 - k)) + ∑ k ∈ range q, M k (e (t - 1 - k)) + c)

/-- The one-step errors of a dataset, when `e xs` are those of series `xs`. -/
def dataErrors (m : Varima V) (e : List V → ℕ → V) (xss : List (List V)) : List V :=
  xss.flatMap fun xs => (List.range' (max m.p m.q) (xs.length - m.s - m.d - max m.p m.q)).map (e xs)

/-- Logarithm of the density of independent centred Gaussians of variance `v` at `es`. -/
noncomputable def logLik (es : List ℝ) (v : ℝ) : ℝ := (es.map fun e => -(Real.log (2 * Real.pi * v) + e ^ 2 / v) / 2).sum

/-- `l` is the largest likelihood of `es`, over all variances. -/
def IsMaxLogLik (es : List ℝ) (l : ℝ) : Prop := (∃ v > 0, logLik es v = l) ∧ ∀ v > 0, logLik es v ≤ l

end Verif.Spec
