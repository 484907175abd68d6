import Mathlib.Data.List.Basic
/-!
Series recorded slower: samples repeated in place.
-/
namespace Verif.Spec

/-- `y` is `x` with every sample repeated at least once and at most `k` times. -/
inductive Stretched {α : Type} (k : ℕ) : List α → List α → Prop
  | nil : Stretched k [] []
  | cons (a : α) (r : ℕ) {x y : List α} : 1 ≤ r → r ≤ k → Stretched k x y →
      Stretched k (a :: x) (List.replicate r a ++ y)

end Verif.Spec
