import Mathlib.Algebra.Order.Field.Basic
import Mathlib.Algebra.Order.AbsoluteValue.Basic
import Mathlib.Algebra.Order.Floor.Ring
import Mathlib.Data.Int.Log
/-!
Vocabulary for rounded arithmetic.
-/
namespace Verif.Spec

/-- `rnd` has relative error at most `u` (the unit roundoff, `2⁻⁵³` for IEEE doubles away from
overflow and underflow). -/
def RelErr {K : Type*} [Field K] [LinearOrder K] (rnd : K → K) (u : K) : Prop :=
  ∀ a, |rnd a - a| ≤ u * |a|

/-- `rnd` is a symmetric rounding: monotone and odd. -/
structure OddMono {K : Type*} [Ring K] [LinearOrder K] (rnd : K → K) : Prop where
  mono : Monotone rnd
  odd : ∀ a, rnd (-a) = - rnd a

/-- The computed `w'` carries at most `N` relative errors of size `u` of the exact `w`. -/
def NearRel {K : Type*} [Field K] [LinearOrder K] (u : K) (N : ℕ) (w' w : K) : Prop :=
  (1 - u) ^ N * w ≤ w' ∧ w' ≤ (1 + u) ^ N * w

/-- A concrete rounding: toward zero, to `p + 1` significant bits. -/
def truncBits {K : Type*} [Field K] [LinearOrder K] [FloorRing K] (p : ℕ) (a : K) : K :=
  let e : K := 2 ^ (Int.log 2 |a| - p)
  if 0 ≤ a then ⌊a / e⌋ * e else -(⌊-a / e⌋ * e)

end Verif.Spec
