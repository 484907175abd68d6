import Verif.Spec.Warping
import Mathlib.Algebra.BigOperators.Group.List.Basic
import Mathlib.Algebra.Ring.Defs
/-!
Specification of alignment costs.
-/
namespace Verif.Spec

/-- Squared Euclidean distance of two feature vectors. -/
def sqEuclid {K : Type*} [CommRing K] (a b : List K) : K :=
  ((a.zip b).map fun uv => (uv.1 - uv.2) ^ 2).sum

/-- Summed cost of a path. -/
def sumCost {K : Type*} [AddMonoid K] (d : ℕ → ℕ → K) (p : List (ℕ × ℕ)) : K :=
  (p.map fun c => d c.1 c.2).sum

/-- Squared distance of the aligned samples `x[i]`, `y[j]`. -/
def sampleCost {K : Type*} [CommRing K] (x y : List (List K)) (i j : ℕ) : K :=
  sqEuclid (x.getD i []) (y.getD j [])

/-- Squared Euclidean distance of two series of equal length. -/
def seriesSqEuclid {K : Type*} [CommRing K] (x y : List (List K)) : K :=
  ((x.zip y).map fun uv => sqEuclid uv.1 uv.2).sum

/-- A path admissible for lengths `n`, `m` and a mask. -/
def Admissible (n m : ℕ) (mask : ℕ → ℕ → Bool) (p : List (ℕ × ℕ)) : Prop :=
  IsWarpingPath n m p ∧ InMask mask p

end Verif.Spec
