import Verif.Model.Cast
import Mathlib.Algebra.Order.Field.Basic
/-!
Segments of a series.
-/
namespace Verif.Spec

/-- `xs` are the samples of feature `f` of series `i` in segment `s` of `S`: the series without its padding is cut into `S` segments of
`size / S` samples. -/
structure IsSegment {K : Type} (X : Arr3 K) (S i s f : ℕ) (xs : List K) : Prop where
  len : xs.length = tsSize (X.data.getD i []) / S
  vals : ∀ t (h : t < xs.length), X.entry i (s * xs.length + t) f = some xs[t]

/-- The mean of a list. -/
def mean {K : Type} [DivisionRing K] (xs : List K) : K := xs.sum / xs.length

/-- The mean absolute value of a list. -/
def meanAbs {K : Type} [Field K] [LinearOrder K] (xs : List K) : K := mean (xs.map abs)

end Verif.Spec
