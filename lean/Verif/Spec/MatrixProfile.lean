import Mathlib.Algebra.BigOperators.Group.Finset.Basic
import Mathlib.Analysis.Real.Sqrt
import Mathlib.Algebra.Order.Floor.Ring
import Mathlib.Order.WithBot
/-!
Vocabulary for matrix profiles.
-/
namespace Verif.Spec

/-- `j` is outside the exclusion zone of `i`: more than a quarter of the subsequence length (rounded up) away. -/
def Outside (m i j : ℕ) : Prop := ⌈(m : ℝ) / 4⌉ < |(i : ℤ) - (j : ℤ)|

/-- Euclidean distance of subsequences `i` and `j`, of `m` samples each. -/
noncomputable def segDist (m : ℕ) (z : ℕ → ℕ → ℝ) (i j : ℕ) : ℝ :=
  Real.sqrt (∑ k ∈ Finset.range m, (z i k - z j k) ^ 2)

/-- The distances of subsequence `i` to the subsequences outside its exclusion zone. -/
def matches_ (m n : ℕ) (z : ℕ → ℕ → ℝ) (i : ℕ) : Set ℝ := {D | ∃ j < n, Outside m i j ∧ D = segDist m z i j}

/-- `z` is `y` shifted to mean zero and, unless constant, divided by its standard deviation. -/
def IsZNorm (m : ℕ) (y z : ℕ → ℝ) : Prop :=
  ∃ mean s : ℝ, m * mean = ∑ k ∈ Finset.range m, y k ∧ 0 ≤ s ∧ m * s ^ 2 = ∑ k ∈ Finset.range m, (y k - mean) ^ 2 ∧
    ∀ k < m, z k = (y k - mean) / (if s = 0 then 1 else s)

/-- `v` is the profile at `i`: the least distance to a subsequence outside the exclusion zone, `⊤` if there is none. -/
def IsProfile (m n : ℕ) (z : ℕ → ℕ → ℝ) (i : ℕ) (v : WithTop ℝ) : Prop :=
  (v = ⊤ ↔ ¬∃ j < n, Outside m i j) ∧ ∀ r : ℝ, v = (r : WithTop ℝ) ↔ IsLeast (matches_ m n z i) r

end Verif.Spec
