import Verif.Spec.Binary
import Verif.Model.Float
import Mathlib.Analysis.SpecialFunctions.Log.Basic
/-!
Floating-point formats.
-/
namespace Verif.Spec

/-- Rounding to the nearest double of IEEE 754 (subnormal numbers included), as if there were no largest one. -/
def double {K : Type*} [Field K] [LinearOrder K] [FloorRing K] (a : K) : K :=
  if |a| < 2 ^ (-1022 : ℤ) then nearestInt (a / 2 ^ (-1074 : ℤ)) * 2 ^ (-1074 : ℤ) else nearBits 52 a

/-- What is used of a rounding: it is monotone, odd, does nothing to its own results nor to small multiples of powers of two,
and has a relative error of at most `u` from `tiny` on. -/
structure Rounding (rnd : ℝ → ℝ) (u tiny : ℝ) : Prop extends OddMono rnd where
  small : ∀ k e : ℤ, |k| ≤ 16 → -16 ≤ e → rnd (k * 2 ^ e) = k * 2 ^ e
  idem : ∀ a, rnd (rnd a) = rnd a
  rel : ∀ a, tiny ≤ |a| → |rnd a - a| ≤ u * |a|

/-- What is used of a computed exponential: right at zero, monotone, never negative, and three decimals are right
between -1 and 0. -/
structure ExpLike (e : ℝ → ℝ) : Prop where
  zero : e 0 = 1
  mono : Monotone e
  nonneg : ∀ x, 0 ≤ e x
  close : ∀ x, -1 ≤ x → x ≤ 0 → |e x - Real.exp x| ≤ 1 / 1024

/-- What is used of a computed logarithm, between 1 and 2. -/
structure LogLike (l : ℝ → ℝ) : Prop where
  one : l 1 = 0
  nonneg : ∀ x, 1 ≤ x → x ≤ 2 → 0 ≤ l x
  close : ∀ x, 1 ≤ x → x ≤ 2 → |l x - Real.log x| ≤ 1 / 1024

/-- A way of adding floating-point numbers, `fit` putting a result into the format: not-a-number does not disappear, and
adding zeros to a number of the format changes nothing. -/
structure Adds (fit : Fl → Fl) (sum : List Fl → Fl) : Prop where
  nan : ∀ l, Fl.nan ∈ l → sum l = .nan
  zeros : ∀ (a b : List Fl) (x : Fl), fit x = x → (∀ z ∈ a ++ b, z = .num 0) → sum (a ++ x :: b) = x

end Verif.Spec
