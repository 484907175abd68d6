import Verif.Model.Tags
/-! Words of C90: what a dataset of series of different lengths is. -/
namespace Verif.Spec
variable {K : Type}

/-- Some sample is NaN. -/
def HoldsNan (X : XIn K) : Prop := ∃ s ∈ X.series, ∃ v ∈ s, TCell.nan ∈ v

/-- Some sample is infinite. -/
def HoldsInf (X : XIn K) : Prop := ∃ s ∈ X.series, ∃ v ∈ s, TCell.inf ∈ v

/-- An array of three axes, with at least one series. -/
def IsArray (X : XIn K) : Prop := X.isList = false ∧ X.series ≠ []

/-- Series of different lengths in an array: at least one is filled up with NaN, no sample is infinite. -/
structure IsPadded (X : XIn K) : Prop where
  array : IsArray X
  nan : HoldsNan X
  noInf : ¬HoldsInf X

/-- Series of different lengths in a list: each has a sample, all samples have `d` values, two series differ in length. -/
structure IsListOfSeries (X : XIn K) (d : ℕ) : Prop where
  list : X.isList = true
  nonempty : ∀ s ∈ X.series, s ≠ []
  features : ∀ s ∈ X.series, ∀ v ∈ s, v.length = d
  differ : ∃ s ∈ X.series, ∃ t ∈ X.series, s.length ≠ t.length

/-- A call that returned. -/
def Accepted {α : Type} (r : Except PyErr α) : Prop := ∃ v, r = .ok v

/-- A call that raised `ValueError`. -/
def Refused {α : Type} (r : Except PyErr α) : Prop := r = .error .valueError

end Verif.Spec
