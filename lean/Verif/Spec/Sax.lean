import Verif.Spec.Piecewise
/-!
The distance of two series through their symbols, without symbols: how far apart the breakpoints are that separate their segment means.
-/
namespace Verif.Spec

/-- The breakpoints above `u` and not above `v`, those that separate `u` from `v` when `u ≤ v`. -/
noncomputable def separating (bps : List ℝ) (u v : ℝ) : List ℝ := bps.filter fun b => decide (u < b ∧ b ≤ v)

/-- The distance between the first and the last breakpoint separating the two values, zero if there are none. -/
noncomputable def gap (bps : List ℝ) (u v : ℝ) : ℝ :=
  ((separating bps (min u v) (max u v)).getLast?.getD 0) - ((separating bps (min u v) (max u v)).head?.getD 0)

/-- Distance of two series of `n` samples and `d` features, cut in `S` segments: the gaps between the means of their segments, each counted
for `n / S` samples. -/
noncomputable def symbolicDist (bps : List ℝ) (n S d : ℕ) (x y : ℕ → ℕ → ℝ) : ℝ :=
  Real.sqrt ((n : ℝ) / (S : ℝ) *
    ∑ s ∈ Finset.range S, ∑ f ∈ Finset.range d, gap bps (segMean (n / S) s f x) (segMean (n / S) s f y) ^ 2)

end Verif.Spec
