import Mathlib.Data.Nat.Notation
import Mathlib.Data.Int.Notation
import Mathlib.Tactic.Common
/-!
Words over an alphabet.
-/
namespace Verif.Spec

/-- Words of `S` rows of `d` symbols of `0, ..., A`. -/
def Words (S d A : ℕ) (W : List (List (List ℕ))) : Prop :=
  ∀ w ∈ W, w.length = S ∧ ∀ r ∈ w, r.length = d ∧ ∀ a ∈ r, a ≤ A

/-- The same symbols as integers. -/
def ints (W : List (List (List ℕ))) : List (List (List ℤ)) := W.map (·.map (·.map Int.ofNat))

end Verif.Spec
