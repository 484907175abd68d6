import Verif.Spec.FloatGak
/-!
Absolute errors of computed functions.
-/
namespace Verif.Spec

/-- Rounding has a relative error of at most `u`, or an absolute one of at most `τ` where numbers are subnormal. -/
def RndErr (rnd : ℝ → ℝ) (u τ : ℝ) : Prop := ∀ a, |rnd a - a| ≤ u * |a| + τ

/-- A computed exponential with an absolute error of at most `ε` on negative arguments. -/
structure ExpErr (e : ℝ → ℝ) (ε : ℝ) : Prop where
  nonneg : ∀ x ≤ 0, 0 ≤ e x
  err : ∀ x ≤ 0, |e x - Real.exp x| ≤ ε

/-- A computed logarithm with an absolute error of at most `ε` between 1/2 and 4. -/
def LogErr (l : ℝ → ℝ) (ε : ℝ) : Prop := ∀ x, 1 / 2 ≤ x → x ≤ 4 → |l x - Real.log x| ≤ ε

end Verif.Spec
