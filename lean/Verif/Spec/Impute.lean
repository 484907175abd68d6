import Mathlib.Data.Nat.Notation
import Mathlib.Data.List.Basic
/-!
What the fill methods promise, for one feature given as `c t`, `t < n` (NaN is `none`).
-/
namespace Verif.Spec

/-- `p` is the last observed index before `t`, with value `v`. -/
def PrevObs {K : Type} (c : ℕ → Option K) (t p : ℕ) (v : K) : Prop :=
  p < t ∧ c p = some v ∧ ∀ s, p < s → s < t → c s = none

/-- `q` is the first observed index after `t` among the first `n`, with value `v`. -/
def NextObs {K : Type} (c : ℕ → Option K) (n t q : ℕ) (v : K) : Prop :=
  t < q ∧ q < n ∧ c q = some v ∧ ∀ s, t < s → s < q → c s = none

end Verif.Spec
