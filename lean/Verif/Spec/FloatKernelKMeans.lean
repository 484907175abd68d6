import Verif.Model.Float
/-!
Specification for C109.
-/
namespace Verif.Spec

/-- Position `i` of a row is what NumPy's `argmin` gives: the first not-a-number if there is one, else the first of the least
entries. -/
def Picks (r : List Fl) (i : ℕ) : Prop :=
  (∃ x, r[i]? = some x) ∧
  (Fl.nan ∈ r → r[i]? = some .nan ∧ ∀ j < i, r[j]? ≠ some .nan) ∧
  (Fl.nan ∉ r → ∀ x, r[i]? = some x → ∀ j y, r[j]? = some y → Fl.lt y x = false ∧ (j < i → Fl.lt x y = true))

end Verif.Spec
