import Mathlib.Data.List.Chain
import Mathlib.Data.Nat.Basic
/-!
Specification of warping paths, independent of the model.
-/
namespace Verif.Spec

/-- A single move of an alignment: advance in the first, the second or both series. -/
def WStep (a b : ℕ × ℕ) : Prop :=
  b = (a.1 + 1, a.2) ∨ b = (a.1, a.2 + 1) ∨ b = (a.1 + 1, a.2 + 1)

/-- A warping path between series of lengths `n` and `m`. -/
structure IsWarpingPath (n m : ℕ) (p : List (ℕ × ℕ)) : Prop where
  starts : p.head? = some (0, 0)
  ends : ∃ i j, p.getLast? = some (i, j) ∧ i + 1 = n ∧ j + 1 = m
  steps : p.IsChain WStep

/-- Every pair of the path is allowed by the mask. -/
def InMask (mask : ℕ → ℕ → Bool) (p : List (ℕ × ℕ)) : Prop :=
  ∀ c ∈ p, mask c.1 c.2 = true

/-- Cost of a path accumulated from its first to its last pair. -/
def pathCost {D C : Type*} (step : D → C → C) (z : C) (dist : ℕ → ℕ → D)
    (p : List (ℕ × ℕ)) : C :=
  p.foldl (fun c ij => step (dist ij.1 ij.2) c) z

end Verif.Spec
