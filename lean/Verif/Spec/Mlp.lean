import Mathlib.Data.Nat.Notation
/-!
Specification of perceptrons on time series: the perceptron on rows that hold all values of a series.
-/
namespace Verif.Spec

/-- A non-empty set of series of length `sz` with `d` features, all non-empty. -/
structure SeriesSet {K : Type} (S : List (List (List K))) (sz d : ℕ) : Prop where
  ne : S ≠ []
  len : ∀ s ∈ S, s.length = sz
  feat : ∀ s ∈ S, ∀ v ∈ s, v.length = d
  sz_pos : 0 < sz
  d_pos : 0 < d

/-- The row of a series: value `j` of time `t` is at place `t * d + j`. -/
def IsRow {K : Type} (d : ℕ) (s : List (List K)) (row : List K) : Prop :=
  row.length = s.length * d ∧ ∀ t j, ∀ h : t < s.length, j < d → row[t * d + j]? = s[t][j]?

/-- A perceptron that is trained from nothing (`true`) or further (`false`) on rows, in the order of the list. -/
def trainAll {R N : Type} (train : Bool → Option N → R → Option N) (calls : List (Bool × R)) : Option N :=
  calls.foldl (fun n c => train (!c.1) (if c.1 then none else n) c.2) none

end Verif.Spec
