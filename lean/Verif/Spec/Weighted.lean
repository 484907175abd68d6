import Mathlib.Algebra.BigOperators.Group.List.Basic
/-!
Weighted collections.
-/
namespace Verif.Spec

/-- The weight that `x` has in a list of objects with weights, all its occurrences together. -/
def totalWeight {α K : Type} [DecidableEq α] [AddMonoid K] (z : List (α × K)) (x : α) : K :=
  ((z.filter fun p => p.1 = x).map Prod.snd).sum

end Verif.Spec
