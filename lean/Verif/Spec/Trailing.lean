import Mathlib.Data.List.Basic
/-!
Specification of trailing NaN rows.
-/
namespace Verif.Spec

/-- Row `i` of `ts` contains an observed value. -/
def Observed {α : Type} (ts : List (List (Option α))) (i : ℕ) : Prop :=
  ∃ r, ts[i]? = some r ∧ ∃ v ∈ r, v.isSome = true

/-- `n` is the length of `ts` without its trailing all-NaN rows. -/
def IsSize {α : Type} (ts : List (List (Option α))) (n : ℕ) : Prop :=
  (n = 0 ∨ Observed ts (n - 1)) ∧ ∀ i, n ≤ i → ¬ Observed ts i

end Verif.Spec
