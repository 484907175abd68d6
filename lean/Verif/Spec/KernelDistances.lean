import Verif.Model.Float
import Mathlib.Algebra.BigOperators.Group.Finset.Basic
import Mathlib.Data.Real.Basic
/-!
Sums in floating-point arithmetic, and distances to weighted means in the space of a kernel.
-/
namespace Verif.Spec

/-- `s` is a sum of the entries of a list: any order and grouping, `fit` putting each result into the format. -/
inductive FlSum (fit : Fl → Fl) : List Fl → Fl → Prop
  | nil : FlSum fit [] (.num 0)
  | single (a : Fl) : FlSum fit [a] a
  | first (a : Fl) : FlSum fit [a] (fit (Fl.add (.num 0) a))
  | add {l l' : List Fl} {s s' : Fl} : l ≠ [] → l' ≠ [] → FlSum fit l s → FlSum fit l' s' → FlSum fit (l ++ l') (fit (Fl.add s s'))
  | perm {l l' : List Fl} {s : Fl} : l.Perm l' → FlSum fit l s → FlSum fit l' s

/-- The series with label `j`. -/
def withLabel (labels : List ℕ) (j : ℕ) : Finset ℕ := (Finset.range labels.length).filter fun i => labels[i]? = some j

/-- Weighted mean of a quantity over some series. -/
noncomputable def weightedMean (w g : ℕ → ℝ) (C : Finset ℕ) : ℝ := (∑ i ∈ C, w i * g i) / ∑ i ∈ C, w i

/-- What kernel k-means takes as the distance of a series with kernel values `g` to a cluster: twice one minus the mean kernel value. -/
noncomputable def kernelDist (w g : ℕ → ℝ) (C : Finset ℕ) : ℝ := 2 * (1 - weightedMean w g C)

end Verif.Spec
