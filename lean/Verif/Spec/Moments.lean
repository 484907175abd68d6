import Verif.Model.Cast
import Mathlib.Algebra.BigOperators.Group.Finset.Basic
import Mathlib.Data.Real.Basic
/-!
Mean and standard deviation of the observed values of a group of cells of a 3-D array, as sums over cells.
-/
namespace Verif.Spec
open scoped BigOperators

/-- `∑ h (X[i', t, f'])` over the observed cells with `i' = i` if `pt` and `f' = f` if `pf`. -/
noncomputable def obsSum (X : Arr3 ℝ) (pt pf : Bool) (i f : ℕ) (h : ℝ → ℝ) : ℝ :=
  ∑ i' ∈ Finset.range X.data.length, ∑ t ∈ Finset.range X.sz, ∑ f' ∈ Finset.range X.d,
    if (pt = true → i' = i) ∧ (pf = true → f' = f) then (X.entry i' t f').elim 0 h else 0

/-- `m` is the mean of the observed values. -/
def IsMean (X : Arr3 ℝ) (pt pf : Bool) (i f : ℕ) (m : ℝ) : Prop :=
  0 < obsSum X pt pf i f (fun _ => 1) ∧ m * obsSum X pt pf i f (fun _ => 1) = obsSum X pt pf i f id

/-- `s` is their (population) standard deviation around `m`. -/
def IsStd (X : Arr3 ℝ) (pt pf : Bool) (i f : ℕ) (m s : ℝ) : Prop :=
  0 ≤ s ∧ s ^ 2 * obsSum X pt pf i f (fun _ => 1) = obsSum X pt pf i f fun v => (v - m) ^ 2

end Verif.Spec
