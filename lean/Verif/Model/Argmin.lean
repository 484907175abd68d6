import Mathlib.Order.Basic
import Mathlib.Data.List.Basic
/-!
`argmin` over a vector.
-/
namespace Verif

/-- `numpy.argmin(v)`: position of the first smallest entry (0 on the empty vector, where NumPy
raises; callers test for it). -/
def argminL {C : Type*} [LT C] [DecidableLT C] : List C → ℕ
  | [] => 0
  | [_] => 0
  | a :: b :: l =>
    let k := argminL (b :: l)
    match (b :: l)[k]? with
    | some m => if m < a then k + 1 else 0
    | none => 0

/-- Contract of an `argmin` (any tie-breaking). -/
def IsArgminL {C : Type*} [LE C] (am : List C → ℕ) : Prop :=
  ∀ l : List C, l ≠ [] → ∃ v, l[am l]? = some v ∧ ∀ w ∈ l, v ≤ w

end Verif
