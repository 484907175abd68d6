import Mathlib.Analysis.Real.Sqrt
import Mathlib.Algebra.BigOperators.Intervals
/-!
Specification of lagged products.
-/
namespace Verif.Spec

/-- Value of feature `f` at time `t`, zero outside the series. -/
def val (s : List (List ℝ)) (t : ℤ) (f : ℕ) : ℝ := if 0 ≤ t then ((s.getD t.toNat []).getD f 0) else 0

/-- Inner product of `s1`, advanced by `lag`, with `s2`: the sum over times and features of `s1[t + lag] * s2[t]`. -/
def lagProd (d : ℕ) (s1 s2 : List (List ℝ)) (lag : ℤ) : ℝ :=
  ∑ t ∈ Finset.range s2.length, ∑ f ∈ Finset.range d, val s1 (t + lag) f * val s2 t f

/-- Sum of all squares. -/
def energy (d : ℕ) (s : List (List ℝ)) : ℝ := ∑ t ∈ Finset.range s.length, ∑ f ∈ Finset.range d, val s t f ^ 2

/-- Rows all have `d` entries. -/
def Wide (d : ℕ) (s : List (List ℝ)) : Prop := ∀ r ∈ s, r.length = d

/-- A norm argument that is honest: negative (the norm is computed) or the norm itself. -/
def Honest (d : ℕ) (s : List (List ℝ)) (n : ℝ) : Prop := n < 0 ∨ n = √(energy d s)

end Verif.Spec
