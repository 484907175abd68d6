import Mathlib.Logic.Function.Iterate
/-!
Alternating minimisation stopped when the iterate no longer changes.
-/
namespace Verif.Spec

/-- `r` is the result of iterating `step` from `a` until the `key` of the iterate no longer changes,
at most `n` times: it is the `k`-th iterate for some `k ≤ n`, and `k = n` or the last step left the
key unchanged. -/
def StopsWhenStable {A B : Type} (key : A → B) (step : A → A) (a : A) (n : ℕ) (r : A) : Prop :=
  ∃ k, k ≤ n ∧ r = step^[k] a ∧ (k = n ∨ (0 < k ∧ key (step^[k] a) = key (step^[k - 1] a)))

end Verif.Spec
