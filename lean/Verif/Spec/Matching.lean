import Mathlib.Data.List.Basic
import Mathlib.Data.List.Pairwise
import Mathlib.Order.Bounds.Basic
/-!
Common subsequences: pairs of positions increasing in both series, all of them matching.
-/
namespace Verif.Spec

/-- `p` is a common subsequence of two series of lengths `n`, `m` under the relation `hit`. -/
structure IsMatching (n m : ℕ) (hit : ℕ → ℕ → Prop) (p : List (ℕ × ℕ)) : Prop where
  incr : p.Pairwise fun a b => a.1 < b.1 ∧ a.2 < b.2
  inside : ∀ c ∈ p, c.1 < n ∧ c.2 < m
  hits : ∀ c ∈ p, hit c.1 c.2

/-- The sizes of the common subsequences. -/
def MatchingSizes (n m : ℕ) (hit : ℕ → ℕ → Prop) : Set ℕ :=
  {k | ∃ p, IsMatching n m hit p ∧ p.length = k}

end Verif.Spec
