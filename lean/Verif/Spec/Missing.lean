import Mathlib.Data.List.Basic
/-!
Vocabulary for series with missing values: a series is the list of its rows, `none` is NaN.
-/
namespace Verif.Spec

/-- Every row has `d` values: the series is a two-dimensional array. -/
def IsRect {α : Type*} (d : ℕ) (x : List (List α)) : Prop := ∀ row ∈ x, row.length = d

/-- Some value of the row is missing. -/
def RowMissing {α : Type*} (row : List (Option α)) : Prop := none ∈ row

/-- Some value of the series is missing. -/
def HasMissing {α : Type*} (x : List (List (Option α))) : Prop := ∃ row ∈ x, RowMissing row

/-- The series of numbers `u` as a series without missing values. -/
def observed {α : Type*} (u : List (List α)) : List (List (Option α)) := u.map fun row => row.map some

end Verif.Spec
