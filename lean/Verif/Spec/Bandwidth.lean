import Mathlib.Data.Real.Basic
import Mathlib.Data.Finset.Prod
import Mathlib.Data.Finset.Card
import Mathlib.Data.Finset.Range
/-!
What a median of pairwise distances is: at least half of the pairs are at most, at least half are at least that far apart.
-/
namespace Verif.Spec
open Classical

/-- The pairs of positions `a < b` among the first `n`. -/
noncomputable def pairsBelow (n : ℕ) : Finset (ℕ × ℕ) := (Finset.range n ×ˢ Finset.range n).filter fun ab => ab.1 < ab.2

/-- `m` is in the middle of the distances `D` of the pairs among `n`. -/
def Middle {K : Type} [LE K] (n : ℕ) (D : ℕ → ℕ → K) (m : K) : Prop :=
  (pairsBelow n).card ≤ 2 * ((pairsBelow n).filter fun ab => D ab.1 ab.2 ≤ m).card ∧
    (pairsBelow n).card ≤ 2 * ((pairsBelow n).filter fun ab => m ≤ D ab.1 ab.2).card

end Verif.Spec
