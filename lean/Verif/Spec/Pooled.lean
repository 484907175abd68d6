import Mathlib.Algebra.BigOperators.Intervals
import Mathlib.Algebra.Order.Field.Basic
/-!
Specification for C110: datasets with the same series in other places, other numbers of copies and other weights.
-/
namespace Verif.Spec
variable {K : Type} [Field K] [LinearOrder K]

/-- Place `i'` of the second dataset (of size `n'`) holds series `ρ i'` of the first (of size `n`); every series occurs, and its
copies share its weight, up to a common factor `c`. -/
structure Pooled (n n' : ℕ) (ρ : ℕ → ℕ) (sw sw' : ℕ → K) (c : K) : Prop where
  maps : ∀ i < n', ρ i < n
  onto : ∀ i < n, ∃ i' < n', ρ i' = i
  factor : c ≠ 0
  weight : ∀ i < n, ∑ i' ∈ Finset.range n' with ρ i' = i, sw' i' = c * sw i

/-- Every series occurs `q` times. -/
def Copies (n n' : ℕ) (ρ : ℕ → ℕ) (q : ℕ) : Prop := ∀ i < n, ((Finset.range n').filter fun i' => ρ i' = i).card = q

/-- Each copy carries the label of the series. -/
def follow (n' : ℕ) (ρ : ℕ → ℕ) (L : List ℕ) : List ℕ := (List.range n').map fun i => L.getD (ρ i) 0

end Verif.Spec
